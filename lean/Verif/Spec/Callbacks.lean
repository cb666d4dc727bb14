import Verif.Model.Callbacks
/-!
# C126: vocabulary
-/
namespace Otel
namespace Callbacks
namespace Spec
variable {σ ο : Type}

/-- What the reader `r` observes, collection by collection. -/
def seen (r : Nat) (l : List (Nat × List σ × Nat)) : List (List σ) := (l.filter (fun e => e.1 = r)).map (·.2.1)

/-- What one callback does in each of the collections. -/
def calls : Held σ ο → List ο → List (Yield σ)
  | _, [] => []
  | h, o :: os => (call o h).1 :: calls (call o h).2 os

/-- The generator still runs after the first `n` of these options: it yielded each time. -/
def Running (g : List ο → Out σ) (os : List ο) (n : Nat) : Prop := ∀ j, j ≤ n → ∃ y, g (os.take j) = .yield y

/-- The clock readings of one collection, in order. -/
def Ordered : Int → List (Int × Int) → Prop
  | _, [] => True
  | t, (t1, t2) :: l => t ≤ t1 ∧ t1 ≤ t2 ∧ Ordered t2 l

end Spec
end Callbacks
end Otel
