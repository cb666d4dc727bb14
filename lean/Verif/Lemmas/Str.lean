import Verif.Model.Py
/-! Lemmas about the string functions. -/
namespace Otel

theorem char_le_iff (a b : Char) : a ≤ b ↔ a.toNat ≤ b.toNat := by
  rw [Char.le_def, UInt32.le_iff_toNat_le]; rfl

theorem char_eq_iff (a b : Char) : a = b ↔ a.toNat = b.toNat := by
  constructor
  · rintro rfl; rfl
  · intro h; exact Char.ext (UInt32.toNat_inj.mp h)

theorem inRange_iff (lo hi : Nat) (c : Char) : inRange lo hi c = true ↔ lo ≤ c.toNat ∧ c.toNat ≤ hi := by
  simp [inRange]

theorem splitC_ne_nil (sep : Char) (s : Str) : splitC sep s ≠ [] := by
  induction s with
  | nil => simp [splitC]
  | cons c s ih =>
    simp only [splitC]; split
    · simp
    · split <;> simp

theorem splitC_of_not_mem (sep : Char) (s : Str) (h : sep ∉ s) : splitC sep s = [s] := by
  induction s with
  | nil => rfl
  | cons c s ih =>
    simp only [List.mem_cons, not_or] at h
    simp [splitC, Ne.symm h.1, ih h.2]

theorem splitC_append (sep : Char) (s t : Str) (h : sep ∉ s) :
    splitC sep (s ++ sep :: t) = s :: splitC sep t := by
  induction s with
  | nil => simp [splitC]
  | cons c s ih =>
    simp only [List.mem_cons, not_or] at h
    simp [splitC, Ne.symm h.1, ih h.2]

theorem splitC_joinS (sep : Char) (ps : List Str) (h : ∀ p ∈ ps, sep ∉ p) (hne : ps ≠ []) :
    splitC sep (joinS [sep] ps) = ps := by
  induction ps with
  | nil => exact absurd rfl hne
  | cons p ps ih =>
    cases ps with
    | nil => exact splitC_of_not_mem _ _ (h p (by simp))
    | cons q ps =>
      simp only [joinS, List.append_assoc, List.singleton_append]
      rw [splitC_append _ _ _ (h p (by simp)), ih (fun p hp => h p (List.mem_cons_of_mem _ hp)) (by simp)]

theorem joinS_splitC (sep : Char) (s : Str) : joinS [sep] (splitC sep s) = s := by
  induction s with
  | nil => rfl
  | cons c s ih =>
    simp only [splitC]; split
    · rename_i h; subst h
      cases hs : splitC c s with
      | nil => exact absurd hs (splitC_ne_nil _ _)
      | cons p ps => rw [hs] at ih; simp [joinS, ih]
    · cases hs : splitC sep s with
      | nil => exact absurd hs (splitC_ne_nil _ _)
      | cons p ps =>
        rw [hs] at ih
        cases ps with
        | nil => simp [joinS] at *; exact ih
        | cons q ps => simp [joinS] at *; exact ih

theorem splitC_parts_not_mem (sep : Char) (s : Str) : ∀ p ∈ splitC sep s, sep ∉ p := by
  induction s with
  | nil => simp [splitC]
  | cons c s ih =>
    simp only [splitC]; split
    · simpa using ih
    · rename_i hc
      cases hs : splitC sep s with
      | nil => exact absurd hs (splitC_ne_nil _ _)
      | cons p ps =>
        rw [hs] at ih
        intro q hq
        rcases List.mem_cons.mp hq with rfl | hq
        · simp only [List.mem_cons, not_or]; exact ⟨fun h => hc h.symm, ih p (by simp)⟩
        · exact ih q (by simp [hq])

theorem cutC_append (sep : Char) (s t : Str) (h : sep ∉ s) : cutC sep (s ++ sep :: t) = (s, some t) := by
  induction s with
  | nil => simp [cutC]
  | cons c s ih =>
    simp only [List.mem_cons, not_or] at h
    simp [cutC, Ne.symm h.1, ih h.2]

theorem cutC_of_not_mem (sep : Char) (s : Str) (h : sep ∉ s) : cutC sep s = (s, none) := by
  induction s with
  | nil => rfl
  | cons c s ih =>
    simp only [List.mem_cons, not_or] at h
    simp [cutC, Ne.symm h.1, ih h.2]

theorem cutC_some (sep : Char) (s k t : Str) (h : cutC sep s = (k, some t)) :
    s = k ++ sep :: t ∧ sep ∉ k := by
  induction s generalizing k with
  | nil => simp [cutC] at h
  | cons c s ih =>
    simp only [cutC] at h; split at h
    · rename_i hc; subst hc; simp at h; obtain ⟨rfl, rfl⟩ := h; simp
    · rename_i hc
      simp only [Prod.mk.injEq] at h
      obtain ⟨h1, h2⟩ := h
      have := ih (cutC sep s).1 (by rw [← h2])
      subst h1
      refine ⟨by rw [List.cons_append, ← this.1], ?_⟩
      simp only [List.mem_cons, not_or]; exact ⟨fun h => hc h.symm, this.2⟩

theorem lstripBy_eq_self (p : Char → Bool) (s : Str) (h : ∀ c, s.head? = some c → p c = false) :
    lstripBy p s = s := by
  cases s with
  | nil => rfl
  | cons c s => simp [lstripBy, List.dropWhile_cons, h c rfl]

theorem rstripBy_eq_self (p : Char → Bool) (s : Str) (h : ∀ c, s.getLast? = some c → p c = false) :
    rstripBy p s = s := by
  have := lstripBy_eq_self p s.reverse (by intro c hc; rw [List.head?_reverse] at hc; exact h c hc)
  unfold lstripBy at this
  simp [rstripBy, this]

theorem stripBy_eq_self (p : Char → Bool) (s : Str) (h1 : ∀ c, s.head? = some c → p c = false)
    (h2 : ∀ c, s.getLast? = some c → p c = false) : stripBy p s = s := by
  rw [stripBy, lstripBy_eq_self p s h1, rstripBy_eq_self p s h2]

theorem lstripBy_suffix (p : Char → Bool) (s : Str) : lstripBy p s <:+ s := List.dropWhile_suffix p

theorem rstripBy_prefix (p : Char → Bool) (s : Str) : rstripBy p s <+: s := by
  have := List.dropWhile_suffix p (l := s.reverse)
  have := List.reverse_prefix.mpr this
  simpa [rstripBy] using this

theorem rstripBy_getLast? (p : Char → Bool) (s : Str) (c : Char) (h : (rstripBy p s).getLast? = some c) :
    p c = false := by
  simp only [rstripBy, List.getLast?_reverse] at h
  have := List.head?_dropWhile_not p s.reverse
  rw [h] at this; simpa using this

theorem mem_takeWhile_imp (p : Char → Bool) (s : Str) (c : Char) (h : c ∈ s.takeWhile p) : p c = true := by
  induction s with
  | nil => simp at h
  | cons d s ih =>
    simp only [List.takeWhile_cons] at h
    split at h
    · rename_i hd; rcases List.mem_cons.mp h with rfl | h
      · exact hd
      · exact ih h
    · simp at h

theorem dropWhile_eq_nil (p : Char → Bool) (s : Str) (h : ∀ c ∈ s, p c = true) : s.dropWhile p = [] := by
  induction s with
  | nil => rfl
  | cons d s ih =>
    rw [List.dropWhile_cons, if_pos (h d (by simp))]; exact ih (fun c hc => h c (by simp [hc]))

/-- The stripped part consists of characters satisfying `p`. -/
theorem rstripBy_spec (p : Char → Bool) (s : Str) :
    ∃ t, s = rstripBy p s ++ t ∧ ∀ c ∈ t, p c = true := by
  refine ⟨(s.reverse.takeWhile p).reverse, ?_, ?_⟩
  · have := List.takeWhile_append_dropWhile (p := p) (l := s.reverse)
    have h2 := congrArg List.reverse this
    rw [List.reverse_append, List.reverse_reverse] at h2
    exact h2.symm
  · intro c hc
    rw [List.mem_reverse] at hc
    exact mem_takeWhile_imp p _ _ hc

theorem rstripBy_append (p : Char → Bool) (s t : Str) (h : ∀ c ∈ t, p c = true)
    (h2 : ∀ c, s.getLast? = some c → p c = false) : rstripBy p (s ++ t) = s := by
  have e := rstripBy_eq_self p s h2
  unfold rstripBy at *
  rw [List.reverse_append, List.dropWhile_append]
  have : (t.reverse.dropWhile p) = [] := by
    apply dropWhile_eq_nil; intro x hx; exact h x (List.mem_reverse.mp hx)
  simp [this, e]

theorem pyStrip_idem (p : Char → Bool) (s : Str) : rstripBy p (rstripBy p s) = rstripBy p s :=
  rstripBy_eq_self _ _ (rstripBy_getLast? p s)

end Otel
