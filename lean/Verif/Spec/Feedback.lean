import Verif.Model.Feedback
/-!
# How many calls of `export` a number of records takes
-/
namespace Otel
namespace Spec

/-- The number of batches of at most `size` that `n` records make. -/
def batches (size n : Nat) : Nat := (n + size - 1) / size

/-- The state after the first `k` events of an endless schedule. -/
def Feedback.at (max size : Nat) (st : Feedback.State) (σ : Nat → Feedback.Ev) (k : Nat) : Feedback.State := Feedback.run max size st ((List.range k).map σ)

end Spec
namespace Feedback

/-- The requests that the worker is answering. -/
def WPc.answering : WPc → List Nat
  | .start m | .pop m _ | .exporting m _ | .logging m _ _ => match m with
    | .cycle => []
    | .flush id _ _ _ => [id]
    | .drain ids _ _ _ => ids
  | .stop r => r.toList
  | _ => []

end Feedback
end Otel
