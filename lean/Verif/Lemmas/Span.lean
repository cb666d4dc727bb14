import Verif.Spec.Span
import Verif.Props.Attributes
/-!
# Lemmas about span histories
-/
namespace Otel
namespace Span
open Spec

/-- Everything but the times. -/
def core (d : Data) : Data := { d with startTime := none, endTime := none }

theorem mutate_core (lim : SpanLimits) (d : Data) (op : Step) : core (mutate lim d op) = mutate lim (core d) op := by
  cases op <;> try rfl
  rename_i c a
  cases c with
  | none => rfl
  | some c => simp only [mutate]; split <;> rfl

theorem mutate_times (lim : SpanLimits) (d : Data) (op : Step) :
    (mutate lim d op).startTime = d.startTime ∧ (mutate lim d op).endTime = d.endTime ∧
    (mutate lim d op).ctx = d.ctx ∧ (mutate lim d op).parent = d.parent := by
  cases op <;> try exact ⟨rfl, rfl, rfl, rfl⟩
  rename_i c a
  cases c with
  | none => exact ⟨rfl, rfl, rfl, rfl⟩
  | some c => simp only [mutate]; split <;> exact ⟨rfl, rfl, rfl, rfl⟩

theorem step_lim (s : State) (op : Step) : (step s op).lim = s.lim := by
  cases op <;> simp only [step] <;> split <;> rfl

theorem run_lim (s : State) (l : List Step) : (l.foldl step s).lim = s.lim := by
  induction l generalizing s with
  | nil => rfl
  | cons a l ih => rw [List.foldl_cons, ih, step_lim]

/-- After the end, nothing changes the data. -/
theorem step_ended (s : State) (op : Step) (h : s.data.endTime.isSome = true) (hs : s.data.startTime.isSome = true) :
    (step s op).data = s.data := by
  cases op <;> simp only [step, h, hs, or_true, if_true] <;> split <;> rfl

theorem run_ended (s : State) (l : List Step) (h : s.data.endTime.isSome = true) (hs : s.data.startTime.isSome = true) :
    (l.foldl step s).data = s.data := by
  induction l generalizing s with
  | nil => rfl
  | cons a l ih =>
    have e := step_ended s a h hs
    rw [List.foldl_cons, ih _ (by rw [e]; exact h) (by rw [e]; exact hs), e]

/-- The data after a history: the recorded calls applied to what does not depend on time. -/
theorem run_core (s : State) (l : List Step) (h : s.data.endTime = none) :
    core (l.foldl step s).data = (recorded s.data.startTime.isSome l).foldl (mutate s.lim) (core s.data) ∧
    (l.foldl step s).data.endTime = firstEnd s.data.startTime.isSome l ∧
    (l.foldl step s).data.startTime = (if s.data.startTime.isSome then s.data.startTime else firstStart l) := by
  induction l generalizing s with
  | nil =>
    refine ⟨rfl, by simp [firstEnd, h], ?_⟩
    cases hs : s.data.startTime <;> simp [firstStart, hs]
  | cons a l ih =>
    rw [List.foldl_cons]
    by_cases hm : ∃ op : Step, a = op ∧ (∀ t, op ≠ .start t) ∧ (∀ t, op ≠ .end_ t) ∧ op ≠ .notifyStart ∧ op ≠ .notifyEnd
    · obtain ⟨op, rfl, h1, h2, h3, h4⟩ := hm
      have e : step s a = { s with data := mutate s.lim s.data a } := by
        cases a <;> simp_all [step]
      have er : recorded s.data.startTime.isSome (a :: l) = a :: recorded s.data.startTime.isSome l := by
        cases a <;> simp_all [recorded]
      have ef : firstEnd s.data.startTime.isSome (a :: l) = firstEnd s.data.startTime.isSome l := by
        cases a <;> simp_all [firstEnd]
      have es : firstStart (a :: l) = firstStart l := by
        cases a <;> simp_all [firstStart]
      obtain ⟨i1, i2, i3⟩ := ih (step s a) (by rw [e]; exact (mutate_times _ _ _).2.1.trans h)
      rw [er, ef, es, i1, i2, i3, e]
      simp only [(mutate_times s.lim s.data a).1, List.foldl_cons, mutate_core]
      simp
    · cases a with
      | start t =>
        cases hs : s.data.startTime with
        | some t0 =>
          have e : step s (.start t) = s := by simp [step, hs]
          obtain ⟨i1, i2, i3⟩ := ih s h
          rw [e, i1, i2, i3, hs]
          refine ⟨?_, ?_, ?_⟩ <;> simp [recorded, firstEnd, mutate]
        | none =>
          have e : step s (.start t) = { s with data := { s.data with startTime := some t }, owedStart := s.owedStart + 1 } := by
            simp [step, hs]
          obtain ⟨i1, i2, i3⟩ := ih (step s (.start t)) (by rw [e]; exact h)
          rw [i1, i2, i3, e]
          refine ⟨?_, ?_, ?_⟩
          · simp [recorded, mutate, core]
          · simp [firstEnd]
          · simp [firstStart]
      | end_ t =>
        cases hs : s.data.startTime with
        | none =>
          have e : step s (.end_ t) = s := by simp [step, hs]
          obtain ⟨i1, i2, i3⟩ := ih s h
          rw [e, i1, i2, i3, hs]
          refine ⟨?_, ?_, ?_⟩ <;> simp [recorded, firstEnd, firstStart, mutate]
        | some t0 =>
          have e : step s (.end_ t) = { s with data := { s.data with endTime := some t }, owedEnd := s.owedEnd + 1 } := by
            simp [step, hs, h]
          rw [run_ended _ l (by simp [e]) (by simp [e, hs]), e]
          refine ⟨?_, ?_, ?_⟩
          · simp [recorded, core]
          · simp [firstEnd]
          · simp [hs]
      | notifyStart =>
        have e : (step s .notifyStart).data = s.data := by simp only [step]; split <;> rfl
        obtain ⟨i1, i2, i3⟩ := ih (step s .notifyStart) (by rw [e]; exact h)
        rw [i1, i2, i3, e, step_lim]
        refine ⟨?_, ?_, ?_⟩ <;> simp [recorded, firstEnd, firstStart, mutate]
      | notifyEnd =>
        have e : (step s .notifyEnd).data = s.data := by simp only [step]; split <;> rfl
        obtain ⟨i1, i2, i3⟩ := ih (step s .notifyEnd) (by rw [e]; exact h)
        rw [i1, i2, i3, e, step_lim]
        refine ⟨?_, ?_, ?_⟩ <;> simp [recorded, firstEnd, firstStart, mutate]
      | _ => exact absurd ⟨_, rfl, by simp, by simp, by simp, by simp⟩ hm

end Span
end Otel
