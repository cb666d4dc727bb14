import Verif.Model.Identity
/-!
# What it means for resources and scopes to be the same
-/
namespace Otel
namespace Spec
open Identity

/-- The value without the mark of subclasses. -/
def plainAtom : Atom → Atom
  | .int i _ => .int i true
  | .float f _ => .float f true
  | .str s _ => .str s true
  | .bytes b _ => .bytes b true
  | a => a

def plain : Val → Val
  | .atom a => .atom (plainAtom a)
  | .seq l => .seq (l.map plainAtom)

/-- Two dictionaries have the same keys with the same values of the same types, in whatever order. -/
def SameEntries (d e : Dict Str Val) : Prop := ∀ k, (Dict.get? d k).map plain = (Dict.get? e k).map plain

/-- Two dictionaries have the same keys, with values that Python's `==` takes to be equal. -/
def Alike (N : Nums) (d e : Dict Str Val) : Prop := ∀ k, (Dict.get? d k).map (valKey N) = (Dict.get? e k).map (valKey N)

/-- The same resource. -/
def SameContents (r s : Resource) : Prop := r.schema = s.schema ∧ SameEntries r.attrs s.attrs

/-- The same scope. -/
def SameScope (a b : Scope) : Prop := a.name = b.name ∧ a.version = b.version ∧ a.schema = b.schema ∧ SameEntries a.attrs b.attrs

/-- All values are strings, or sequences of strings. -/
def Texts (d : Dict Str Val) : Prop :=
  ∀ kv ∈ d, match kv.2 with
    | .atom a => ∃ s e, a = .str s e
    | .seq l => ∀ a ∈ l, a = .none ∨ ∃ s e, a = .str s e

/-- `lt` answers for all pairs of `P`, and orders them strictly and totally up to `eq`. -/
structure OrdersStrictly {α : Type} (P : α → Prop) (eq : α → α → Prop) (lt : α → α → Option Bool) : Prop where
  answers : ∀ a b, P a → P b → lt a b ≠ none
  irrefl : ∀ a, P a → lt a a = some false
  trans : ∀ a b c, P a → P b → P c → lt a b = some true → lt b c = some true → lt a c = some true
  total : ∀ a b, P a → P b → lt a b = some true ∨ eq a b ∨ lt b a = some true
  respects : ∀ a b, P a → P b → eq a b → lt a b = some false ∧ lt b a = some false

end Spec
end Otel
