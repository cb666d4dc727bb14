import Verif.Model.Url
/-!
# Attributes and bounded collections
Models `opentelemetry-api/src/opentelemetry/attributes/__init__.py` and `BoundedList`, `BoundedDict` of
`opentelemetry-sdk/src/opentelemetry/sdk/util/__init__.py`.
-/
namespace Otel

/-- The exact Python type of a scalar attribute value. -/
inductive ScalarType where
  | bool | int | float | str | bytes
deriving DecidableEq, Repr

/-- A Python object as an attribute value or an element of a sequence. `exact = false` marks an instance of a
proper subclass (`isinstance` holds, `type(x) is T` does not). Floats are opaque. -/
inductive Atom where
  | none
  | bool (b : Bool)
  | int (i : Int) (exact : Bool)
  | float (id : Nat) (exact : Bool)
  | str (s : Str) (exact : Bool)
  | bytes (b : List Nat) (exact : Bool)
  | other (id : Nat)
deriving DecidableEq, Repr

/-- An attribute value: a single object or a `Sequence` that is none of the scalar types (list, tuple, …). -/
inductive Val where
  | atom (a : Atom)
  | seq (l : List Atom)
deriving DecidableEq, Repr

/-- An attribute key: a `str` or some other object. -/
inductive AKey where
  | str (s : Str)
  | bad (id : Nat)
deriving DecidableEq, Repr

namespace Attr

/-- `isinstance(value, _VALID_ATTR_VALUE_TYPES)` (attributes/__init__.py:25, 53). -/
def isScalar : Atom → Bool
  | .none => false
  | .other _ => false
  | _ => true

/-- `type(element)` when it is one of `_VALID_ATTR_VALUE_TYPES`; `none` for subclasses and other types
(attributes/__init__.py:66–68). -/
def exactType : Atom → Option ScalarType
  | .bool _ => some .bool
  | .int _ true => some .int
  | .float _ true => some .float
  | .str _ true => some .str
  | .bytes _ true => some .bytes
  | _ => none

/-- `bytes.decode()` (strict UTF-8); `none` is `UnicodeDecodeError`. A byte string is valid UTF-8 iff
encoding its decoding gives it back. -/
def decodeStrict (b : List Nat) : Option Str :=
  if Url.encodeUtf8 (Url.decodeUtf8 b) = b then some (Url.decodeUtf8 b) else none

/-- `value[:limit]` for a string and an optional limit (attributes/__init__.py:123–124): slicing yields an
exact `str`. Limits are non-negative (`SpanLimits` enforces it). -/
def truncate (limit : Option Nat) (s : Str) (exact : Bool) : Atom :=
  match limit with
  | some n => .str (s.take n) true
  | none => .str s exact

/-- `_clean_attribute_value` (attributes/__init__.py:110–125); the result `.none` is `None`. -/
def cleanValue (limit : Option Nat) : Atom → Atom
  | .none => .none
  | .bytes b _ =>
    match decodeStrict b with
    | some s => truncate limit s true
    | none => .none
  | .str s e => truncate limit s e
  | a => a

/-- The loop over the elements of a sequence (attributes/__init__.py:57–98): `none` when the value is rejected.
The argument is `sequence_first_valid_type`. -/
def cleanSeq (limit : Option Nat) : Option ScalarType → List Atom → Option (List Atom)
  | _, [] => some []
  | ft, a :: as =>
    match cleanValue limit a with
    | .none => (cleanSeq limit ft as).map (Atom.none :: ·)
    | c =>
      match exactType c with
      | none => none
      | some t =>
        match ft with
        | none => (cleanSeq limit (some t) as).map (c :: ·)
        | some t0 => if t = t0 then (cleanSeq limit ft as).map (c :: ·) else none

/-- `_clean_attribute` (attributes/__init__.py:31–107); the result `none` is `None`. -/
def clean (key : AKey) (value : Val) (limit : Option Nat) : Option Val :=
  match key with
  | .bad _ => none
  | .str [] => none
  | .str _ =>
    match value with
    | .atom a =>
      if isScalar a then
        match cleanValue limit a with
        | .none => none
        | c => some (.atom c)
      else none
    | .seq l => (cleanSeq limit none l).map Val.seq

end Attr

/-- `BoundedAttributes` (attributes/__init__.py:128–204). -/
structure BAttrs where
  maxlen : Option Nat
  maxValueLen : Option Nat
  immutable : Bool
  dropped : Nat
  d : Dict Str Val
deriving DecidableEq, Repr

namespace BAttrs

/-- The body of `__setitem__` under the lock (attributes/__init__.py:171–188). -/
def setCore (b : BAttrs) (key : AKey) (value : Val) : BAttrs :=
  if b.maxlen = some 0 then { b with dropped := b.dropped + 1 }
  else
    match key, Attr.clean key value b.maxValueLen with
    | .str k, some v =>
      if Dict.has b.d k then { b with d := Dict.erase b.d k ++ [(k, v)] }
      else if b.maxlen = some b.d.length then
        { b with d := b.d.tail ++ [(k, v)], dropped := b.dropped + 1 }
      else { b with d := b.d ++ [(k, v)] }
    | _, _ => b

/-- `b[key] = value` (attributes/__init__.py:168–188); `none` is `TypeError`. -/
def set (b : BAttrs) (key : AKey) (value : Val) : Option BAttrs :=
  if b.immutable then none else some (b.setCore key value)

/-- `del b[key]` (attributes/__init__.py:190–194); `none` is `TypeError` or `KeyError`. -/
def del (b : BAttrs) (key : Str) : Option BAttrs :=
  if b.immutable then none
  else if Dict.has b.d key then some { b with d := Dict.erase b.d key } else none

/-- `BoundedAttributes(maxlen, attributes, immutable, max_value_len)` (attributes/__init__.py:135–160). The
constructor inserts before it sets `_immutable`. -/
def new (maxlen : Option Nat) (attributes : List (AKey × Val)) (immutable : Bool) (maxValueLen : Option Nat) : BAttrs :=
  let b : BAttrs := attributes.foldl (fun (b : BAttrs) kv => b.setCore kv.1 kv.2)
    { maxlen := maxlen, maxValueLen := maxValueLen, immutable := false, dropped := 0, d := [] }
  { b with immutable := immutable }

end BAttrs

/-- `BoundedList` (util/__init__.py:46–93): a `deque(maxlen)` and a counter. -/
structure BList (α : Type) where
  maxlen : Option Nat
  dropped : Nat
  items : List α
deriving DecidableEq, Repr

namespace BList
variable {α : Type}

/-- A `deque(maxlen=…)` after appending to the right: the oldest elements beyond `maxlen` are gone. -/
def trim (maxlen : Option Nat) (l : List α) : List α :=
  match maxlen with
  | none => l
  | some n => l.drop (l.length - n)

/-- `BoundedList(maxlen)` (util/__init__.py:53–56). -/
def new (maxlen : Option Nat) : BList α := ⟨maxlen, 0, []⟩

/-- `append` (util/__init__.py:71–78). -/
def append (b : BList α) (x : α) : BList α :=
  { b with
    dropped := if b.maxlen = some b.items.length then b.dropped + 1 else b.dropped
    items := trim b.maxlen (b.items ++ [x]) }

/-- `extend` (util/__init__.py:80–86). -/
def extend (b : BList α) (xs : List α) : BList α :=
  { b with
    dropped := match b.maxlen with
      | none => b.dropped
      | some n => b.dropped + (xs.length + b.items.length - n)
    items := trim b.maxlen (b.items ++ xs) }

/-- `from_seq` (util/__init__.py:88–93). -/
def fromSeq (maxlen : Option Nat) (xs : List α) : BList α := (new maxlen).extend xs

end BList

/-- `BoundedDict` (util/__init__.py:97–152): as `BoundedAttributes` without cleaning. -/
structure BDict (κ ν : Type) where
  maxlen : Option Nat
  dropped : Nat
  d : Dict κ ν

namespace BDict
variable {κ ν : Type} [DecidableEq κ]
/-- `__setitem__` (util/__init__.py:123–134). -/
def set (b : BDict κ ν) (k : κ) (v : ν) : BDict κ ν :=
  if b.maxlen = some 0 then { b with dropped := b.dropped + 1 }
  else if Dict.has b.d k then { b with d := Dict.erase b.d k ++ [(k, v)] }
  else if b.maxlen = some b.d.length then { b with d := b.d.tail ++ [(k, v)], dropped := b.dropped + 1 }
  else { b with d := b.d ++ [(k, v)] }
/-- `__delitem__` (util/__init__.py:136–137); `none` is `KeyError`. -/
def del (b : BDict κ ν) (k : κ) : Option (BDict κ ν) :=
  if Dict.has b.d k then some { b with d := Dict.erase b.d k } else none
end BDict
end Otel
