import Verif.Model.Py
import Mathlib.Data.Rat.Defs
/-!
# `MeterProvider`
Models `opentelemetry-sdk/src/opentelemetry/sdk/metrics/_internal/__init__.py` 412–582. Calls run one after the other: `shutdown` is
guarded by `Once` (whose concurrent behaviour is `Verif.Model.Once`), `get_meter` by `_meter_lock`, registration by
`_all_metric_readers_lock`. Not modelled: the `atexit` handler (which calls `shutdown`), garbage collection of readers.
-/
namespace Otel
namespace Provider

/-- An `InstrumentationScope` (sdk/util/instrumentation.py:83–130): `schema_url=None` has been replaced by `""`; `A` are the
attributes up to Python's `==`. -/
structure Scope (A : Type) where
  name : Str
  version : Option Str
  schema : Str
  attrs : A
deriving DecidableEq

/-- What a reader does when it is reached: the clock at that moment, and whether its method raises. -/
structure Turn where
  now : Int
  raises : Bool

variable {R A : Type}

/-- The loop of `force_flush` (471–484) and of `shutdown` (516–530): the calls made with their time-outs in milliseconds, and the
readers with an error, in order. -/
def readerLoop (deadline : Int) (env : R → Turn) : List R → List (R × Rat) × List R
  | [] => ([], [])
  | r :: l =>
    let rest := readerLoop deadline env l
    if (env r).now ≥ deadline then (rest.1, r :: rest.2)
    else ((r, ((deadline - (env r).now : Int) : Rat) / 1000000) :: rest.1, if (env r).raises then r :: rest.2 else rest.2)

/-- The fields of a provider. -/
structure St (R A : Type) where
  readers : List R
  disabled : Bool
  shutdown : Bool
  /-- `_meters`; meters are numbered by creation. -/
  meters : List (Scope A × Nat)

/-- Calls on a provider. -/
inductive Op (R A : Type) where
  | flush (start timeout : Int) (env : R → Turn)
  | shutdown (start timeout : Int) (env : R → Turn)
  | getMeter (name : Str) (version schema : Option Str) (attrs : A)

/-- What a call does: reader calls and the errors it raises for; a refused shutdown; a meter (`none`: a no-op meter). -/
inductive Out (R : Type) where
  | called (calls : List (R × Rat)) (errors : List R)
  | refused
  | meter (m : Option Nat)
deriving DecidableEq

/-- `self._meters.get(info)`. -/
def find [DecidableEq A] (k : Scope A) : List (Scope A × Nat) → Option Nat
  | [] => none
  | (k', m) :: l => if k' = k then some m else find k l

/-- One call: `force_flush` (466–500), `shutdown` (502–551), `get_meter` (553–582). -/
def step [DecidableEq A] (s : St R A) : Op R A → St R A × Out R
  | .flush start timeout env =>
    let r := readerLoop (start + timeout * 1000000) env s.readers
    (s, .called r.1 r.2)
  | .shutdown start timeout env =>
    if s.shutdown then (s, .refused)
    else
      let r := readerLoop (start + timeout * 1000000) env s.readers
      ({ s with shutdown := true }, .called r.1 r.2)
  | .getMeter name version schema attrs =>
    if s.disabled || s.shutdown || name.isEmpty then (s, .meter none)
    else
      let k : Scope A := ⟨name, version, schema.getD [], attrs⟩
      match find k s.meters with
      | some m => (s, .meter (some m))
      | none => ({ s with meters := s.meters ++ [(k, s.meters.length)] }, .meter (some s.meters.length))

/-- A history. -/
def run [DecidableEq A] : St R A → List (Op R A) → List (Out R)
  | _, [] => []
  | s, o :: l => (step s o).2 :: run (step s o).1 l

/-- A provider after `__init__` (412–464). -/
def init (readers : List R) (disabled : Bool) : St R A := ⟨readers, disabled, false, []⟩

/-! ## Registration of readers -/

/-- `_all_metric_readers`, and which provider's consumer each reader collects from (every assignment, oldest first). -/
structure Registry (R : Type) where
  taken : List R
  callbacks : List (R × Nat)

/-- The loop at the end of `__init__` (451–464): the registry afterwards and whether the constructor returned. -/
def register [DecidableEq R] (provider : Nat) : Registry R → List R → Registry R × Bool
  | g, [] => (g, true)
  | g, r :: l =>
    if r ∈ g.taken then (g, false)
    else register provider ⟨g.taken ++ [r], g.callbacks ++ [(r, provider)]⟩ l

/-- Providers constructed one after the other, numbered from `n`: the registry, and which constructors returned. -/
def constructs [DecidableEq R] : Nat → Registry R → List (List R) → Registry R × List Bool
  | _, g, [] => (g, [])
  | n, g, rs :: l =>
    let a := register n g rs
    let b := constructs (n + 1) a.1 l
    (b.1, a.2 :: b.2)

end Provider
end Otel
