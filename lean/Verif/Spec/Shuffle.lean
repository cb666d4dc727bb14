import Mathlib.Data.List.Basic
/-!
# Order-preserving merges
-/
namespace Otel
namespace Spec

/-- `Shuffle a b c`: `c` is a merge of `a` and `b` that keeps the order within each. -/
inductive Shuffle {α : Type} : List α → List α → List α → Prop
  | nil : Shuffle [] [] []
  | left (x : α) {a b c : List α} : Shuffle a b c → Shuffle (x :: a) b (x :: c)
  | right (x : α) {a b c : List α} : Shuffle a b c → Shuffle a (x :: b) (x :: c)

end Spec
end Otel
