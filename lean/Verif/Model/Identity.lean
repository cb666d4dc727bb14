import Verif.Model.Resource
import Verif.Model.ToJson
import Verif.Model.Traced
import Mathlib.Data.List.Sort
import Mathlib.Data.List.Lex
import Mathlib.Data.Char
import Mathlib.Data.Rat.Defs
/-!
# Equality and hashing of resources and scopes
Models `Resource.__eq__`, `__hash__` (`opentelemetry-sdk/src/opentelemetry/sdk/resources/__init__.py` 287–298), `InstrumentationScope.__eq__`, `__hash__`, `__lt__`
(`opentelemetry-sdk/src/opentelemetry/sdk/util/instrumentation.py` 86–137) and the dictionaries keyed by them: the grouping of the OTLP encoders and the meters of a
`MeterProvider` (`metrics/_internal/__init__.py` 573–582). Python's equality of numbers disregards their type: `1 == True == 1.0`.
-/
namespace Otel
namespace Identity

/-- Floats: their text (`Json.Floats`) and the value of those that are finite. -/
structure Nums extends Json.Floats where
  value : Nat → Option ℚ

/-- What Python's `==` compares of an object. `dict.__eq__` takes a NaN to equal itself; all NaNs are one object here. -/
inductive Key where
  | none
  | num (q : ℚ)
  | special (id : Nat)
  | str (s : Str)
  | bytes (b : List Nat)
  | other (id : Nat)
deriving DecidableEq

/-- An item, or the items of a tuple. -/
inductive VKey where
  | atom (k : Key)
  | seq (l : List Key)
deriving DecidableEq

/-- `==` on scalars. -/
def atomKey (N : Nums) : Atom → Key
  | .none => .none
  | .bool b => .num (if b then 1 else 0)
  | .int i _ => .num i
  | .float f _ => match N.value f with | some q => .num q | none => .special f
  | .str s _ => .str s
  | .bytes b _ => .bytes b
  | .other i => .other i

/-- `==` on attribute values, tuples item by item. -/
def valKey (N : Nums) : Val → VKey
  | .atom a => .atom (atomKey N a)
  | .seq l => .seq (l.map (atomKey N))

/-- `Mapping.__eq__`, which `BoundedAttributes` inherits: `dict(self.items()) == dict(other.items())`. -/
def dictEq (N : Nums) (d e : Dict Str Val) : Bool :=
  d.length == e.length && d.all fun kv => (Dict.get? e kv.1).map (valKey N) == some (valKey N kv.2)

/-! ## Resources -/

/-- `Resource.__eq__` (287–293). -/
def resEq (N : Nums) (r s : Resource) : Bool := dictEq N r.attrs s.attrs && r.schema == s.schema

/-- The items of a dictionary by ascending keys, as `sort_keys=True` writes them. -/
def sortedItems (d : Dict Str Val) : List (Str × Val) :=
  (d.keys.insertionSort (· ≤ ·)).filterMap fun k => (Dict.get? d k).map fun v => (k, v)

/-- The string that `Resource.__hash__` hashes (295–298); `none`: `TypeError`. -/
def hashText (N : Nums) (r : Resource) : Option Str :=
  (ToJson.attrsJ ((sortedItems r.attrs).map fun kv => (kv.1, Traced.ofVal kv.2))).map fun j => Json.dumps N.toFloats none j ++ '|' :: r.schema

/-- Are two resources the same key of a dictionary? `h` is the hash of strings. -/
def sameRes (N : Nums) (h : Str → Nat) (r s : Resource) : Bool :=
  (hashText N r).map h == (hashText N s).map h && resEq N r s

/-! ## Scopes -/

/-- `InstrumentationScope` (86–100). -/
structure Scope where
  name : Str
  version : Option Str
  schema : Str
  attrs : Dict Str Val
deriving DecidableEq, Repr

/-- `InstrumentationScope(name, version, schema_url, attributes)` (88–100). -/
def Scope.new (name : Str) (version schema : Option Str) (attributes : List (AKey × Val)) : Scope :=
  ⟨name, version, schema.getD [], (Resource.attributesOf attributes).d⟩

/-- `InstrumentationScope.__eq__` (108–121). -/
def scopeEq (N : Nums) (a b : Scope) : Bool :=
  a.name == b.name && a.version == b.version && a.schema == b.schema && dictEq N a.attrs b.attrs

/-- What `InstrumentationScope.__hash__` hashes (105–106). -/
def scopeHash (a : Scope) : Str × Option Str × Str := (a.name, a.version, a.schema)

/-- Are two scopes the same key of a dictionary? `h` is the hash of tuples of strings. -/
def sameScope (N : Nums) (h : Str × Option Str × Str → Nat) (a b : Scope) : Bool := h (scopeHash a) == h (scopeHash b) && scopeEq N a b

/-- `InstrumentationScope.__lt__` (123–137): tuples are compared at the first item that differs; `none`: `TypeError` (`None < "1"`, or two
mappings). -/
def scopeLt (N : Nums) (a b : Scope) : Option Bool :=
  if a.name ≠ b.name then some (decide (a.name < b.name))
  else if a.version ≠ b.version then
    match a.version, b.version with
    | some v, some w => some (decide (v < w))
    | _, _ => none
  else if a.schema ≠ b.schema then some (decide (a.schema < b.schema))
  else if dictEq N a.attrs b.attrs then some false
  else none

/-! ## Dictionaries -/

/-- `d.setdefault(k, dflt)` followed by an update of the value: an existing key object is kept. -/
def upsert {κ ν : Type} (same : κ → κ → Bool) (k : κ) (dflt : ν) (f : ν → ν) : List (κ × ν) → List (κ × ν)
  | [] => [(k, f dflt)]
  | (k', v) :: l => if same k' k then (k', f v) :: l else (k', v) :: upsert same k dflt f l

/-- `_encode_resource_spans` and `_encode_resource_logs` of the OTLP encoder (`trace_encoder/__init__.py` 60–81, `_log_encoder/__init__.py` 66–74): two levels of dictionaries.
The items are not encoded here. -/
def groups {τ : Type} (N : Nums) (h : Str → Nat) (h' : Str × Option Str × Str → Nat) (res : τ → Resource) (scope : τ → Scope) (batch : List τ) : List (Resource × List (Scope × List τ)) :=
  batch.foldl (fun d x => upsert (sameRes N h) (res x) [] (upsert (sameScope N h') (scope x) [] (· ++ [x])) d) []

/-- `MeterProvider.get_meter` (573–582) of a working provider, for a name that is not empty. The meters are known by their scopes, in the order of their creation; gives the
number of the meter returned. -/
def getMeter (N : Nums) (h : Str × Option Str × Str → Nat) (meters : List Scope) (s : Scope) : List Scope × Nat :=
  match meters.findIdx? fun m => sameScope N h m s with
  | some i => (meters, i)
  | none => (meters ++ [s], meters.length)

/-- The meters of a provider after the requests, and what each of them got. -/
def getMeters (N : Nums) (h : Str × Option Str × Str → Nat) : List Scope → List Scope → List Scope × List Nat
  | meters, [] => (meters, [])
  | meters, s :: l =>
    let r := getMeter N h meters s
    let rest := getMeters N h r.1 l
    (rest.1, r.2 :: rest.2)

end Identity
end Otel
