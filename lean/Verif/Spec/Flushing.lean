import Verif.Model.Flushing
/-!
# C131: vocabulary
-/
namespace Otel
namespace Flushing
namespace Spec
variable {σ : Type}

/-- The call `e` of `end`, for the span `x`, has returned: all processors have been told. -/
def EndReturned (s : St σ) (e : Nat) (x : σ) : Prop := ∃ k, s.ends[e]? = some ⟨x, k, false⟩ ∧ s.procs.length ≤ k

/-- The call `f` of the provider's `force_flush` has returned `True`. -/
def Succeeded (s : St σ) (f : Nat) : Prop := ∃ idxs, s.flushes[f]? = some ⟨idxs, false, some true⟩

/-- In the call `f` the processor `k` returned `True` at once because it had been shut down. -/
def ShutAlready (s : St σ) (f k : Nat) : Prop :=
  ∃ t i p b, s.flushes[f]? = some t ∧ t.idxs[k]? = some i ∧ s.procs[k]? = some p ∧ p.flushes[i]? = some ⟨b, .returned true true⟩

end Spec
end Flushing
end Otel
