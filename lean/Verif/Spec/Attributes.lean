import Verif.Model.Attributes
/-!
# What a bounded attribute collection must contain, independently of the model
-/
namespace Otel
namespace Spec

/-- The pairs of a history of assignments that are the last for their key, in the order of these last
assignments. -/
def lastAssignments {κ ν : Type} [DecidableEq κ] : List (κ × ν) → List (κ × ν)
  | [] => []
  | p :: ps => if p.1 ∈ ps.map Prod.fst then lastAssignments ps else p :: lastAssignments ps

/-- The last `n` elements (all of them without a limit). -/
def newest {α : Type} : Option Nat → List α → List α
  | none, l => l
  | some n, l => (l.reverse.take n).reverse

/-- A scalar the export pipeline understands: bool, int, float or a string within the limit. -/
def ValidScalar (limit : Option Nat) : Atom → Prop
  | .bool _ => True
  | .int _ _ => True
  | .float _ _ => True
  | .str s _ => ∀ n, limit = some n → s.length ≤ n
  | .bytes _ _ => False
  | .none => False
  | .other _ => False

/-- The scalar's exact type is `t`. -/
def HasType (t : ScalarType) : Atom → Prop
  | .bool _ => t = .bool
  | .int _ e => t = .int ∧ e = true
  | .float _ e => t = .float ∧ e = true
  | .str _ e => t = .str ∧ e = true
  | _ => False

/-- A valid stored attribute value: a valid scalar, or a sequence of valid scalars of one type, with gaps. -/
def ValidStored (limit : Option Nat) : Val → Prop
  | .atom a => ValidScalar limit a
  | .seq l => ∃ t, ∀ a ∈ l, a = .none ∨ (ValidScalar limit a ∧ HasType t a)

end Spec
end Otel
