import Verif.Model.OtlpExport
import Mathlib.Data.List.Forall2
import Mathlib.Data.List.Nodup
/-!
# C46, C47: OTLP retries and splitting
-/
namespace Otel
namespace Export

/-! ## C46 -/

/-- The requests made. -/
def attempts (l : List Act) : List Nat := l.filterMap (fun | .attempt i => some i | .sleep _ => none)
/-- The sleeps. -/
def sleeps (l : List Act) : List Int := l.filterMap (fun | .attempt _ => none | .sleep d => some d)

theorem backoff_lt (i : Nat) (h : i < 6) : backoff 64 i = 2 ^ i ∧ backoff 64 i ≠ 64 := by
  have : i = 0 ∨ i = 1 ∨ i = 2 ∨ i = 3 ∨ i = 4 ∨ i = 5 := by omega
  rcases this with rfl | rfl | rfl | rfl | rfl | rfl <;> decide

theorem backoff_ge (i : Nat) (h : 6 ≤ i) : backoff 64 i = 64 := by
  have : (64 : Nat) ≤ 2 ^ i := Nat.pow_le_pow_right (by decide : 0 < 2) h
  show (if (64 : Nat) = 0 then 2 ^ i else min (2 ^ i) 64) = 64
  rw [if_neg (by decide), Nat.min_eq_right this]

/-- An attempt is followed by another one. -/
def Goes (v : Verdict) : Prop := ∃ d : Option Int, v = .retry d ∧ ∀ x, d = some x → 0 ≤ x

theorem goes_delay {d : Option Int} {i : Nat} (h : Goes (.retry d)) : ¬ d.getD (backoff 64 i * 1000000000) < 0 := by
  obtain ⟨d', hd, h⟩ := h
  injection hd with hd
  subst hd
  cases d with
  | none => simp only [Option.getD_none]; omega
  | some x => have := h x rfl; simp only [Option.getD_some]; omega

theorem not_goes_delay {d : Option Int} {i : Nat} (h : ¬ Goes (.retry d)) : d.getD (backoff 64 i * 1000000000) < 0 := by
  cases d with
  | none => exact absurd ⟨none, rfl, by simp⟩ h
  | some x =>
    simp only [Option.getD_some]
    by_contra hx
    exact h ⟨some x, rfl, by intro y hy; injection hy with hy; omega⟩

/-- Where the loop stops: the first round from `i` at which it is out of patience, shut down, or not told to retry. -/
theorem loop_stop (shut : Nat → Bool) (verdict : Nat → Verdict) (i : Nat) (hi : i ≤ 6) :
    ∃ k, i ≤ k ∧ k ≤ 6 ∧ (∀ j, i ≤ j → j < k → shut j = false ∧ Goes (verdict j)) ∧
      (k = 6 ∨ shut k = true ∨ ¬ Goes (verdict k)) ∧
      (loop shut verdict i).1 = (if k = 6 ∨ shut k = true then .failure else match verdict k with | .ok => .success | .fail => .failure | _ => .raised) ∧
      attempts (loop shut verdict i).2 = List.range' i (if k = 6 ∨ shut k = true then k - i else k + 1 - i) ∧
      sleeps (loop shut verdict i).2 = (List.range' i (k - i)).map (fun j => match verdict j with
        | .retry (some d) => d | _ => ((2 : Int) ^ j) * 1000000000) := by
  induction h : 6 - i generalizing i with
  | zero =>
    have : i = 6 := by omega
    subst this
    rw [loop, dif_pos (by decide)]
    exact ⟨6, Nat.le_refl _, Nat.le_refl _, fun j h1 h2 => by omega, .inl rfl, by simp, by simp [attempts], by simp [sleeps]⟩
  | succ n ih =>
    have hlt : i < 6 := by omega
    have hb := backoff_lt i hlt
    rw [loop, dif_neg hb.2]
    cases hs : shut i with
    | true =>
      rw [if_pos rfl]
      exact ⟨i, Nat.le_refl _, hi, fun j h1 h2 => by omega, .inr (.inl hs), by simp [hs], by simp [hs, attempts], by simp [sleeps]⟩
    | false =>
      simp only [Bool.false_eq_true, if_false]
      have hne : ¬ (i = 6 ∨ shut i = true) := by rw [hs]; simp; omega
      cases hv : verdict i with
      | ok => exact ⟨i, Nat.le_refl _, hi, fun j h1 h2 => by omega, .inr (.inr (by rw [hv]; rintro ⟨d, h, _⟩; simp at h)), by rw [if_neg hne, hv], by rw [if_neg hne]; simp [attempts], by simp [sleeps]⟩
      | fail => exact ⟨i, Nat.le_refl _, hi, fun j h1 h2 => by omega, .inr (.inr (by rw [hv]; rintro ⟨d, h, _⟩; simp at h)), by rw [if_neg hne, hv], by rw [if_neg hne]; simp [attempts], by simp [sleeps]⟩
      | raises => exact ⟨i, Nat.le_refl _, hi, fun j h1 h2 => by omega, .inr (.inr (by rw [hv]; rintro ⟨d, h, _⟩; simp at h)), by rw [if_neg hne, hv], by rw [if_neg hne]; simp [attempts], by simp [sleeps]⟩
      | retry d =>
        by_cases hg : Goes (.retry d)
        · obtain ⟨k, h1, h2, h3, h4, h5, h6, h7⟩ := ih (i + 1) (by omega) (by omega)
          simp only [if_neg (goes_delay hg)]
          refine ⟨k, by omega, h2, ?_, h4, h5, ?_, ?_⟩
          · intro j hj1 hj2
            by_cases hji : j = i
            · subst hji; exact ⟨hs, hv ▸ hg⟩
            · exact h3 j (by omega) hj2
          · have : attempts (.attempt i :: .sleep (d.getD (backoff 64 i * 1000000000)) :: (loop shut verdict (i + 1)).2) =
                i :: attempts (loop shut verdict (i + 1)).2 := rfl
            rw [this, h6]
            split
            · rw [show k - i = (k - (i + 1)) + 1 from by omega, List.range'_succ]
            · rw [show k + 1 - i = (k + 1 - (i + 1)) + 1 from by omega, List.range'_succ]
          · have : sleeps (.attempt i :: .sleep (d.getD (backoff 64 i * 1000000000)) :: (loop shut verdict (i + 1)).2) =
                d.getD (backoff 64 i * 1000000000) :: sleeps (loop shut verdict (i + 1)).2 := rfl
            rw [this, h7, show k - i = (k - (i + 1)) + 1 from by omega, List.range'_succ, List.map_cons, hv, hb.1]
            congr 1
            cases d with
            | none => simp
            | some x => rfl
        · simp only [if_pos (not_goes_delay hg)]
          exact ⟨i, Nat.le_refl _, hi, fun j h1 h2 => by omega, .inr (.inr (hv ▸ hg)), by rw [if_neg hne, hv], by rw [if_neg hne]; simp [attempts], by simp [sleeps]⟩

/-- **C46** Success means that some attempt, at most the sixth, succeeded, that all before it were to be retried, and that the exporter was
not shut down meanwhile; and then no further attempt is made. -/
theorem C46_success (shut : Nat → Bool) (verdict : Nat → Verdict) :
    ((loop shut verdict 0).1 = .success ↔
      ∃ k, k < 6 ∧ verdict k = .ok ∧ (∀ j, j ≤ k → shut j = false) ∧ ∀ j, j < k → Goes (verdict j)) ∧
    ∀ k, (loop shut verdict 0).1 = .success → (attempts (loop shut verdict 0).2).getLast? = some k →
      verdict k = .ok ∧ attempts (loop shut verdict 0).2 = List.range (k + 1) := by
  obtain ⟨k, _, h2, h3, h4, h5, h6, _⟩ := loop_stop shut verdict 0 (by decide)
  have hsucc : (loop shut verdict 0).1 = .success → k < 6 ∧ shut k = false ∧ verdict k = .ok := by
    intro h
    rw [h5] at h
    by_cases hc : k = 6 ∨ shut k = true
    · rw [if_pos hc] at h; simp at h
    · rw [if_neg hc] at h
      simp only [not_or, Bool.not_eq_true] at hc
      refine ⟨by omega, hc.2, ?_⟩
      cases hv : verdict k with
      | ok => rfl
      | _ => rw [hv] at h; simp at h
  constructor
  · constructor
    · intro h
      obtain ⟨a, b, c⟩ := hsucc h
      refine ⟨k, a, c, ?_, fun j hj => (h3 j (by omega) hj).2⟩
      intro j hj
      by_cases hjk : j = k
      · rw [hjk]; exact b
      · exact (h3 j (by omega) (by omega)).1
    · rintro ⟨k', a, b, c, d⟩
      have hkk : k = k' := by
        rcases Nat.lt_trichotomy k k' with hl | hl | hl
        · exfalso
          rcases h4 with h | h | h
          · omega
          · rw [c k (by omega)] at h; simp at h
          · exact h (d k hl)
        · exact hl
        · exfalso
          obtain ⟨dd, hdd, _⟩ := (h3 k' (by omega) hl).2
          rw [b] at hdd
          simp at hdd
      subst hkk
      rw [h5, if_neg (by rw [c k (Nat.le_refl _)]; simp; omega), b]
  · intro k' h hl
    obtain ⟨a, b, c⟩ := hsucc h
    rw [h6, if_neg (by rw [b]; simp; omega)] at hl ⊢
    rw [← List.range_eq_range'] at hl ⊢
    rw [show k + 1 - 0 = k + 1 from rfl] at hl ⊢
    rw [List.range_succ, List.getLast?_append] at hl
    simp only [List.getLast?_singleton, Option.some_or, Option.some.injEq] at hl
    subst hl
    exact ⟨c, rfl⟩

/-- **C46** At most six attempts, numbered in order; each but the last was told to retry, and after it the exporter slept. -/
theorem C46_attempts (shut : Nat → Bool) (verdict : Nat → Verdict) :
    ∃ n, n ≤ 6 ∧ attempts (loop shut verdict 0).2 = List.range n ∧ ∀ j, j + 1 < n → Goes (verdict j) := by
  obtain ⟨k, _, h2, h3, h4, h5, h6, _⟩ := loop_stop shut verdict 0 (by decide)
  rw [h6]
  by_cases hc : k = 6 ∨ shut k = true
  · rw [if_pos hc]
    exact ⟨k, h2, by rw [List.range_eq_range']; rfl, fun j hj => (h3 j (by omega) (by omega)).2⟩
  · rw [if_neg hc]
    exact ⟨k + 1, by omega, by rw [List.range_eq_range']; rfl, fun j hj => (h3 j (by omega) (by omega)).2⟩

/-- **C46** If the server never asks for a particular delay the exporter waits at most 63 seconds in all, in steps of 1, 2, 4, … seconds. -/
theorem C46_wait (shut : Nat → Bool) (verdict : Nat → Verdict) (h : ∀ i d, verdict i ≠ .retry (some d)) :
    ∃ n, n ≤ 6 ∧ sleeps (loop shut verdict 0).2 = (List.range n).map (fun j => (2 : Int) ^ j * 1000000000) ∧
      (sleeps (loop shut verdict 0).2).sum ≤ 63 * 1000000000 := by
  obtain ⟨k, _, h2, h3, h4, h5, _, h7⟩ := loop_stop shut verdict 0 (by decide)
  have e : sleeps (loop shut verdict 0).2 = (List.range k).map (fun j => (2 : Int) ^ j * 1000000000) := by
    rw [h7, List.range_eq_range']
    apply List.map_congr_left
    intro j _
    cases hv : verdict j with
    | retry d =>
      cases d with
      | none => rfl
      | some x => exact absurd hv (h j x)
    | _ => rfl
  refine ⟨k, h2, e, ?_⟩
  rw [e]
  have : k = 0 ∨ k = 1 ∨ k = 2 ∨ k = 3 ∨ k = 4 ∨ k = 5 ∨ k = 6 := by omega
  rcases this with rfl | rfl | rfl | rfl | rfl | rfl | rfl <;> decide

/-- **C46** (refutation of the bound in general) A server may make the exporter sleep as long as it likes, holding the export lock. -/
theorem C46_unbounded_wait (B : Int) (hB : 0 ≤ B) : ∃ answers : Nat → GrpcAnswer,
    B ≤ (sleeps (grpcExport false (fun _ => false) answers).2).sum ∧ (grpcExport false (fun _ => false) answers).1 = .success := by
  refine ⟨fun i => if i = 0 then .error .unavailable (some (B, 0)) else .returned, ?_⟩
  unfold grpcExport
  rw [loop]
  rw [dif_neg (backoff_lt 0 (by decide)).2]
  simp only [grpcVerdict, Code.retryable, Option.map_some, if_true, Bool.false_eq_true, if_false, Option.getD_some]
  rw [if_neg (by omega), loop, dif_neg (backoff_lt 1 (by decide)).2]
  simp [grpcVerdict, sleeps]
  omega

/-- **C46** (finding) A negative delay from the server, which `RetryInfo` can carry, makes `export` raise. -/
theorem C46_negative_delay : ∃ answers : Nat → GrpcAnswer, (grpcExport false (fun _ => false) answers).1 = .raised := by
  refine ⟨fun _ => .error .unavailable (some (-1, 0)), ?_⟩
  unfold grpcExport
  rw [loop, dif_neg (backoff_lt 0 (by decide)).2]
  rfl

/-- **C46** Shut down before: no attempt, and FAILURE (not so for metrics over HTTP, which have no such flag). -/
theorem C46_shut (shut : Nat → Bool) (g : Nat → GrpcAnswer) (a : Nat → HttpAnswer) :
    grpcExport true shut g = (.failure, []) ∧ httpExport true a = (.failure, []) := ⟨rfl, rfl⟩

/-- **C46** Shut down while the gRPC exporter is waiting: no further attempt. -/
theorem C46_shut_later (shut : Nat → Bool) (verdict : Nat → Verdict) (i : Nat) (h : shut i = true) :
    ∀ j ∈ attempts (loop shut verdict 0).2, j < i := by
  obtain ⟨k, _, h2, h3, h4, h5, h6, _⟩ := loop_stop shut verdict 0 (by decide)
  have hk : k ≤ i := by
    by_contra hki
    have := (h3 i (by omega) (by omega)).1
    rw [h] at this
    simp at this
  intro j hj
  rw [h6] at hj
  by_cases hc : k = 6 ∨ shut k = true
  · rw [if_pos hc, List.mem_range'] at hj
    obtain ⟨x, hx, rfl⟩ := hj
    omega
  · rw [if_neg hc, List.mem_range'] at hj
    obtain ⟨x, hx, rfl⟩ := hj
    simp only [not_or] at hc
    have : k ≠ i := fun he => hc.2 (he ▸ h)
    omega

/-- **C46** Which answers are retried: gRPC. -/
theorem C46_grpc (c : Code) (info : Option (Int × Int)) :
    ((∃ d, grpcVerdict (.error c info) = .retry d) ↔
      c ∈ [Code.cancelled, .deadlineExceeded, .resourceExhausted, .aborted, .outOfRange, .unavailable, .dataLoss]) ∧
    (grpcVerdict (.error c info) = .ok ↔ c = .ok) := by
  cases c <;> simp [grpcVerdict, Code.retryable]

/-- **C46** Which answers are retried: HTTP. Everything from 400 to 599 is an error; 408 and 500 to 599 are retried. -/
theorem C46_http (s : Nat) : (httpVerdict (.status s) = .ok ↔ s < 400 ∨ 600 ≤ s) ∧
    ((∃ d, httpVerdict (.status s) = .retry d) ↔ s = 408 ∨ (500 ≤ s ∧ s < 600)) := by
  show ((if ¬ (400 ≤ s ∧ s < 600) then Verdict.ok else if s = 408 ∨ (500 ≤ s ∧ s ≤ 599) then .retry none else .fail) = .ok ↔ _) ∧
    ((∃ d, (if ¬ (400 ≤ s ∧ s < 600) then Verdict.ok else if s = 408 ∨ (500 ≤ s ∧ s ≤ 599) then .retry none else .fail) = .retry d) ↔ _)
  split
  · rename_i h
    constructor
    · simp; omega
    · simp; omega
  · rename_i h
    split
    · rename_i h2
      constructor
      · simp; omega
      · simp; omega
    · rename_i h2
      constructor
      · simp; omega
      · simp; omega

/-- **C46** (finding) Over HTTP a connection error is not retried but raised, whatever was answered before. -/
theorem C46_http_raises : (httpExport false (fun _ => .exception)).1 = .raised ∧
    (httpMetricExport (fun i => if i = 0 then .status 503 else .exception)).1 = .raised := by
  constructor
  · unfold httpExport
    rw [loop, dif_neg (backoff_lt 0 (by decide)).2]; rfl
  · unfold httpMetricExport
    rw [loop, dif_neg (backoff_lt 0 (by decide)).2]
    have hv : httpVerdict (.status 503) = .retry none := rfl
    simp only [Bool.false_eq_true, if_false, if_true, hv, Option.getD_none]
    rw [if_neg (by decide), loop, dif_neg (backoff_lt 1 (by decide)).2]
    rfl

/-- Six attempts that all fail: the last wait, of 32 s, is followed by no attempt. -/
example : attempts (loop (fun _ => false) (fun _ => .retry none) 0).2 = [0, 1, 2, 3, 4, 5] ∧
    sleeps (loop (fun _ => false) (fun _ => .retry none) 0).2 = [1000000000, 2000000000, 4000000000, 8000000000, 16000000000, 32000000000] := by
  rw [loop, loop, loop, loop, loop, loop, loop]; decide

end Export
end Otel
