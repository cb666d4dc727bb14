import Verif.Lemmas.Hex
import Verif.Lemmas.TraceState
import Verif.Spec.TraceContext
namespace Otel
namespace TraceContext
open Spec

theorem isLowerHex_iff (c : Char) : isLowerHex c = true ↔ ('0' ≤ c ∧ c ≤ '9') ∨ ('a' ≤ c ∧ c ≤ 'f') := by
  simp only [isLowerHex, isDig, Bool.or_eq_true, inRange_iff, char_le_iff]; rfl

theorem hex_iff (n : Nat) (s : Str) : Hex n s ↔ s.length = n ∧ ∀ c ∈ s, isLowerHex c = true := by
  simp only [Hex, isLowerHex_iff]

theorem isBlank_iff (c : Char) : isBlank c = true ↔ c = ' ' ∨ c = '\t' := by simp [isBlank]

theorem lowerHex_not_blank (c : Char) (h : isLowerHex c = true) : isBlank c = false := by
  cases hb : isBlank c with
  | false => rfl
  | true =>
    rw [isBlank_iff] at hb
    rcases hb with rfl | rfl <;> exact absurd h (by decide)

theorem dropWhile_blanks (pre s : Str) (h : Blanks pre) (hs : ∀ c, s.head? = some c → isBlank c = false) :
    (pre ++ s).dropWhile isBlank = s := by
  induction pre with
  | nil => exact lstripBy_eq_self isBlank s hs
  | cons c pre ih =>
    rw [List.cons_append, List.dropWhile_cons, if_pos ((isBlank_iff c).mpr (h c (by simp)))]
    exact ih (fun c hc => h c (by simp [hc]))

theorem takeHex_ok (n : Nat) (u v : Str) (h : Hex n u) : takeHex n (u ++ v) = some (u, v) := by
  rw [hex_iff] at h
  have := takeHex_append u v h.2
  rwa [h.1] at this

theorem tailMatch_ok (ext post : Str) (he : ext = [] ∨ ∃ e, ext = '-' :: e ∧ '\n' ∉ e)
    (hp : ∃ bl, Blanks bl ∧ (post = bl ∨ post = bl ++ ['\n'])) :
    ∃ r, tailMatch (ext ++ post) = some r ∧ (ext = [] → r = []) := by
  obtain ⟨bl, hb, hp⟩ := hp
  have hnl : ∀ c ∈ bl, (c != '\n') = true := by
    intro c hc; rcases hb c hc with rfl | rfl <;> decide
  rcases he with rfl | ⟨e, rfl, he⟩
  · refine ⟨[], ?_, fun _ => rfl⟩
    have key : atEnd (post.dropWhile isBlank) = true := by
      rcases hp with rfl | rfl
      · have := dropWhile_blanks post [] hb (by simp)
        rw [List.append_nil] at this; rw [this]; rfl
      · rw [dropWhile_blanks bl ['\n'] hb (by intro c hc; simp at hc; subst hc; decide)]; rfl
    rw [List.nil_append]
    unfold tailMatch
    split
    · rename_i cs
      exfalso
      have hm : ('-' : Char) ∈ bl ∨ '-' = '\n' := by
        rcases hp with h | h
        · left; rw [← h]; simp
        · cases bl with
          | nil => simp at h
          | cons b bl => left; simp at h; simp [← h.1]
      rcases hm with hm | hm
      · rcases hb _ hm with h | h <;> exact absurd h (by decide)
      · exact absurd hm (by decide)
    · rw [if_pos key]
  · have hsplit : ∀ x : Str, '\n' ∉ x → ∀ y : Str, (y = [] ∨ y = ['\n']) →
        (x ++ y).takeWhile (· != '\n') = x ∧ (x ++ y).dropWhile (· != '\n') = y := by
      intro x hx y hy
      induction x with
      | nil => rcases hy with rfl | rfl <;> decide
      | cons c x ih =>
        simp only [List.mem_cons, not_or] at hx
        have hc : (c != '\n') = true := by simpa using Ne.symm hx.1
        have := ih hx.2
        simp only [List.cons_append, List.takeWhile_cons, List.dropWhile_cons, hc, if_true]
        exact ⟨by rw [this.1], this.2⟩
    have hnotin : '\n' ∉ e ++ bl := by
      simp only [List.mem_append, not_or]
      exact ⟨he, fun hm => absurd (hnl _ hm) (by decide)⟩
    refine ⟨'-' :: (e ++ bl), ?_, by simp⟩
    rcases hp with rfl | rfl
    · obtain ⟨h1, h2⟩ := hsplit (e ++ post) hnotin [] (Or.inl rfl)
      rw [List.append_nil] at h1 h2
      simp [tailMatch, h1, h2, atEnd]
    · obtain ⟨h1, h2⟩ := hsplit (e ++ bl) hnotin ['\n'] (Or.inr rfl)
      rw [List.append_assoc] at h1 h2
      simp [tailMatch, h1, h2, atEnd]

theorem tailMatch_sound (s r : Str) (h : tailMatch s = some r) :
    ∃ ext post, s = ext ++ post ∧ r = ext ∧ (ext = [] ∨ ∃ e, ext = '-' :: e ∧ '\n' ∉ e) ∧
      (∃ bl, Blanks bl ∧ (post = bl ∨ post = bl ++ ['\n'])) := by
  have hend : ∀ x : Str, atEnd x = true → x = [] ∨ x = ['\n'] := by
    intro x hx; simp only [atEnd, Bool.or_eq_true, List.isEmpty_iff, beq_iff_eq] at hx; exact hx
  have htw : ∀ cs : Str, '\n' ∉ cs.takeWhile (· != '\n') := by
    intro cs hm
    have := mem_takeWhile_imp _ cs _ hm
    simp at this
  unfold tailMatch at h
  split at h
  · rename_i cs
    simp only at h
    split at h
    · rename_i hc
      injection h with h
      refine ⟨'-' :: cs.takeWhile (· != '\n'), cs.dropWhile (· != '\n'), ?_, h.symm, Or.inr ⟨_, rfl, htw cs⟩, [],
        by simp [Blanks], ?_⟩
      · rw [List.cons_append, List.takeWhile_append_dropWhile]
      · exact hend _ hc
    · cases h
  · split at h
    · rename_i hc
      injection h with h
      refine ⟨[], s, rfl, h.symm, Or.inl rfl, s.takeWhile isBlank, ?_, ?_⟩
      · intro c hc; exact (isBlank_iff c).mp (mem_takeWhile_imp _ _ _ hc)
      · have e := List.takeWhile_append_dropWhile (p := isBlank) (l := s)
        rcases hend _ hc with h2 | h2
        · left; rw [h2, List.append_nil] at e; exact e.symm
        · right; rw [h2] at e; exact e.symm
    · cases h

theorem takeDash_some (s t : Str) (h : takeDash s = some t) : s = '-' :: t := by
  unfold takeDash at h; split at h
  · injection h with h; rw [h]
  · cases h

theorem match_ok (h ver tid sid fl ext : Str) (ht : Traceparent h ver tid sid fl ext) :
    ∃ r, matchTraceparent h = some ⟨ver, tid, sid, fl, r⟩ ∧ (ext = [] → r = []) := by
  obtain ⟨pre, post, rfl, hb, hv, htid, hsid, hfl, he, hp⟩ := ht
  obtain ⟨r, hr, hr2⟩ := tailMatch_ok ext post he hp
  refine ⟨r, ?_, hr2⟩
  unfold matchTraceparent
  rw [dropWhile_blanks pre _ hb]
  · simp only [takeHex_ok 2 ver _ hv, takeDash, takeHex_ok 32 tid _ htid, takeHex_ok 16 sid _ hsid,
      takeHex_ok 2 fl _ hfl, hr]
  · intro c hc
    rw [hex_iff] at hv
    cases ver with
    | nil => simp at hv
    | cons d ver =>
      simp at hc; subst hc
      exact lowerHex_not_blank _ (hv.2 d (by simp))

theorem match_sound (h : Str) (g : Groups) (hm : matchTraceparent h = some g) :
    Traceparent h g.version g.traceId g.spanId g.flags g.rest := by
  unfold matchTraceparent at hm
  cases h1 : takeHex 2 (h.dropWhile isBlank) with
  | none => simp [h1] at hm
  | some p1 =>
  obtain ⟨v, s1⟩ := p1
  simp only [h1] at hm
  cases h2 : takeDash s1 with
  | none => simp [h2] at hm
  | some s2 =>
  simp only [h2] at hm
  cases h3 : takeHex 32 s2 with
  | none => simp [h3] at hm
  | some p3 =>
  obtain ⟨t, s3⟩ := p3
  simp only [h3] at hm
  cases h4 : takeDash s3 with
  | none => simp [h4] at hm
  | some s4 =>
  simp only [h4] at hm
  cases h5 : takeHex 16 s4 with
  | none => simp [h5] at hm
  | some p5 =>
  obtain ⟨p, s5⟩ := p5
  simp only [h5] at hm
  cases h6 : takeDash s5 with
  | none => simp [h6] at hm
  | some s6 =>
  simp only [h6] at hm
  cases h7 : takeHex 2 s6 with
  | none => simp [h7] at hm
  | some p7 =>
  obtain ⟨f, s7⟩ := p7
  simp only [h7] at hm
  cases h8 : tailMatch s7 with
  | none => simp [h8] at hm
  | some r =>
  simp only [h8, Option.some.injEq] at hm
  subst hm
  obtain ⟨ext, post, e8, rfl, he, hp⟩ := tailMatch_sound _ _ h8
  obtain ⟨e1, l1, a1⟩ := takeHex_some _ _ _ _ h1
  obtain ⟨e3, l3, a3⟩ := takeHex_some _ _ _ _ h3
  obtain ⟨e5, l5, a5⟩ := takeHex_some _ _ _ _ h5
  obtain ⟨e7, l7, a7⟩ := takeHex_some _ _ _ _ h7
  have e2 := takeDash_some _ _ h2
  have e4 := takeDash_some _ _ h4
  have e6 := takeDash_some _ _ h6
  refine ⟨h.takeWhile isBlank, post, ?_, ?_, (hex_iff _ _).mpr ⟨l1, a1⟩, (hex_iff _ _).mpr ⟨l3, a3⟩,
    (hex_iff _ _).mpr ⟨l5, a5⟩, (hex_iff _ _).mpr ⟨l7, a7⟩, he, hp⟩
  · conv => lhs; rw [← List.takeWhile_append_dropWhile (p := isBlank) (l := h)]
    rw [e1, e2, e3, e4, e5, e6, e7, e8]
  · intro c hc; exact (isBlank_iff c).mp (mem_takeWhile_imp _ _ _ hc)

/-- The value of a hex field that is not all zeros is positive. -/
theorem hex_pos (n : Nat) (s : Str) (h : Hex n s) (hz : s ≠ List.replicate n '0') :
    0 < hexVal s ∧ hexVal s < 16 ^ n := by
  rw [hex_iff] at h
  have h1 := hexVal_lt s
  have h2 := hexVal_eq_zero s h.2
  rw [h.1] at h1 h2
  refine ⟨?_, h1⟩
  rcases Nat.eq_zero_or_pos (hexVal s) with h0 | h0
  · exact absurd (h2.mp h0) hz
  · exact h0

theorem _root_.Otel.isValid_iff (sc : SpanContext) : sc.isValid = true ↔
    0 < sc.traceId ∧ sc.traceId < 2 ^ 128 ∧ 0 < sc.spanId ∧ sc.spanId < 2 ^ 64 := by
  simp only [SpanContext.isValid, Bool.and_eq_true, decide_eq_true_eq]
  omega

theorem currentSpan_setSpan (c : Ctx) (sc : SpanContext) : (c.setSpan sc).currentSpan = sc := by
  simp [Ctx.currentSpan, Ctx.setSpan, Ctx.setValue, Ctx.getValue]

end TraceContext
end Otel
