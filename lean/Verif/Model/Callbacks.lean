import Verif.Model.Py
/-!
# Callbacks of asynchronous instruments over many collections
Models `_Asynchronous` (`opentelemetry-sdk/src/opentelemetry/sdk/metrics/_internal/instrument.py` 82–151) with callbacks that are functions or
generators, and the time that `SynchronousMeasurementConsumer.collect` (`measurement_consumer.py` 103–141) tells them they have. Collections of
all readers of a provider are made under one lock (108), one after the other.
-/
namespace Otel
namespace Callbacks
variable {σ ο : Type}

/-- What iterating over the result of a callback does: the observations it yields, then it raises or not. -/
structure Yield (σ : Type) where
  obs : List σ
  raises : Bool
deriving DecidableEq

/-- What a generator does when it is resumed: it yields an iterable, returns, or raises. -/
inductive Out (σ : Type) where
  | yield (y : Yield σ)
  | ret
  | throw
deriving DecidableEq

/-- A callback as the program wrote it: a function, given by what its `n`-th call with the given options does (a call that raises yields nothing
and raises), or a generator, given by what it does after having been sent these options (`next`: none). -/
inductive Callback (σ ο : Type) where
  | function (f : Nat → ο → Yield σ)
  | generator (g : List ο → Out σ)

/-- A callback in `_callbacks`, with its state: the number of calls so far, or the options sent so far; `over`: a generator that has returned or
raised. -/
inductive Held (σ ο : Type) where
  | function (f : Nat → ο → Yield σ) (calls : Nat)
  | generator (g : List ο → Out σ) (sent : List ο)
  | over

/-- The constructor (112–133) for one callback: a generator is advanced to its first `yield` with `next` (115–117); `none` is what that raises
(`StopIteration` if it returns). -/
def hold : Callback σ ο → Option (Held σ ο)
  | .function f => some (.function f 0)
  | .generator g =>
    match g [] with
    | .yield _ => some (.generator g [])
    | .ret => none
    | .throw => none

/-- The constructor: `none` if it raises. -/
def construct : List (Callback σ ο) → Option (List (Held σ ο))
  | [] => some []
  | c :: cs =>
    match hold c with
    | none => none
    | some h => (construct cs).map (h :: ·)

/-- One callback in one collection (119–126, 138–151): `send`, `StopIteration` becomes `[]`; a generator that has ended raises it again. -/
def call (o : ο) : Held σ ο → Yield σ × Held σ ο
  | .function f n => (f n o, .function f (n + 1))
  | .generator g sent =>
    match g (sent ++ [o]) with
    | .yield y => (y, .generator g (sent ++ [o]))
    | .ret => (⟨[], false⟩, .over)
    | .throw => (⟨[], true⟩, .over)
  | .over => (⟨[], false⟩, .over)

/-- `callback` (135–151): all callbacks in order; an exception ends the loop over that callback's observations only, and is logged. -/
def collect (o : ο) : List (Held σ ο) → (List σ × Nat) × List (Held σ ο)
  | [] => (([], 0), [])
  | h :: hs =>
    let (y, h') := call o h
    let ((l, n), hs') := collect o hs
    ((y.obs ++ l, if y.raises then n + 1 else n), h' :: hs')

/-- Collections, each by a reader: what the reader observes, and how many failures are logged. -/
def run : List (Held σ ο) → List (Nat × ο) → List (Nat × List σ × Nat)
  | _, [] => []
  | hs, (r, o) :: l => (r, (collect o hs).1) :: run (collect o hs).2 l

/-! ## Time -/

/-- The instruments of one collection (measurement_consumer.py:116–141), each with the clock when `remaining_time` is computed and when the deadline
is checked. The result is what each is told (in nanoseconds), up to a timeout. `dflt` is the default timeout, 10 s; `opt` the options so far. -/
def told (deadline dflt : Int) : Int → List (Int × Int) → List Int × Bool
  | _, [] => ([], false)
  | opt, (t1, t2) :: l =>
    let opt' := if deadline - t1 < dflt then deadline - t1 else opt
    if t2 ≥ deadline then ([], true)
    else (opt' :: (told deadline dflt opt' l).1, (told deadline dflt opt' l).2)

end Callbacks
end Otel
