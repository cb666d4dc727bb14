import Verif.Model.Delivery
/-!
# C124: vocabulary
-/
namespace Otel
namespace Delivery
namespace Spec
open Export (GrpcAnswer HttpAnswer Code)
variable {σ : Type}

/-- The collector acknowledges the `i`-th attempt: the gRPC call returns (or ends with code OK), the HTTP answer is 2xx. -/
def Acks (c : Call σ) (i : Nat) : Prop :=
  match c.wire with
  | .grpc _ a => a i = .returned ∨ ∃ info, a i = .error .ok info
  | .http a => ∃ s, a i = .status s ∧ 200 ≤ s ∧ s < 300

/-- The `i`-th attempt is answered with something that OTLP says may be retried. -/
def Transient (c : Call σ) (i : Nat) : Prop :=
  match c.wire with
  | .grpc _ a => ∃ code info, a i = .error code info ∧
      code ∈ [Code.cancelled, .deadlineExceeded, .resourceExhausted, .aborted, .outOfRange, .unavailable, .dataLoss]
  | .http a => ∃ s, a i = .status s ∧ (s = 408 ∨ (500 ≤ s ∧ s ≤ 599))

/-- What is acknowledged has arrived. -/
def Honest (c : Call σ) : Prop := ∀ i, Acks c i → c.arrived i = true

/-- The HTTP server answers with 2xx, 4xx or 5xx (no redirects). -/
def Plain (c : Call σ) : Prop :=
  match c.wire with
  | .grpc _ _ => True
  | .http a => ∀ i s, a i = .status s → (200 ≤ s ∧ s < 300) ∨ (400 ≤ s ∧ s < 600)

/-- The collector stores everything that arrives. -/
def Whole (c : Call σ) : Prop := ∀ i x, c.kept i x = true

/-- The contents of the entries without those that repeat the number of the entry before (what a collector that recognises a repeated
batch keeps). -/
def firsts : Option Nat → List (Nat × List σ) → List (List σ)
  | _, [] => []
  | last, (k, b) :: l => if last = some k then firsts last l else b :: firsts (some k) l

/-- Some request of the call arrived. -/
def Reached (c : Call σ) : Prop := ∃ i ∈ requests (send c).2, c.arrived i = true

instance (c : Call σ) : Decidable (Reached c) := by unfold Reached; infer_instance

end Spec
end Delivery
end Otel
