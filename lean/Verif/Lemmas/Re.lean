import Verif.Model.Py
/-! The denotation of the regular-expression fragment and the correctness of `Re.fullmatch`. -/
namespace Otel
namespace Re

/-- The language of a regular expression (textbook denotation). -/
def Lang : Re → Str → Prop
  | empty, _ => False
  | eps, s => s = []
  | cls p, s => ∃ c, s = [c] ∧ p c = true
  | rep p lo hi, s => (∀ c ∈ s, p c = true) ∧ lo ≤ s.length ∧ s.length ≤ hi
  | seq a b, s => ∃ u v, s = u ++ v ∧ a.Lang u ∧ b.Lang v
  | alt a b, s => a.Lang s ∨ b.Lang s
  | star a, s => ∃ ws : List Str, s = ws.flatten ∧ ∀ w ∈ ws, a.Lang w

theorem nullable_iff (r : Re) : r.nullable = true ↔ r.Lang [] := by
  induction r with
  | empty => simp [nullable, Lang]
  | eps => simp [nullable, Lang]
  | cls p => simp [nullable, Lang]
  | rep p lo hi => simp [nullable, Lang]
  | seq a b iha ihb =>
    simp only [nullable, Lang, Bool.and_eq_true, iha, ihb]
    constructor
    · rintro ⟨h1, h2⟩; exact ⟨[], [], rfl, h1, h2⟩
    · rintro ⟨u, v, h, h1, h2⟩
      have := List.append_eq_nil_iff.mp h.symm
      rw [this.1] at h1; rw [this.2] at h2; exact ⟨h1, h2⟩
  | alt a b iha ihb => simp [nullable, Lang, iha, ihb]
  | star a _ => simp only [nullable, Lang, true_iff]; exact ⟨[], rfl, by simp⟩

theorem deriv_iff (r : Re) (c : Char) : ∀ s, (r.deriv c).Lang s ↔ r.Lang (c :: s) := by
  induction r with
  | empty => intro s; simp [deriv, Lang]
  | eps => intro s; simp [deriv, Lang]
  | cls p =>
    intro s
    by_cases h : p c = true
    · simp only [deriv, h, if_true, Lang]
      constructor
      · rintro rfl; exact ⟨c, rfl, h⟩
      · rintro ⟨d, hd, _⟩; simp at hd; exact hd.2
    · simp only [deriv, h, Lang]
      constructor
      · intro h2; cases h2
      · rintro ⟨d, hd, h3⟩; simp at hd; rw [← hd.1] at h3; exact absurd h3 h
  | rep p lo hi =>
    intro s
    by_cases h : p c = true
    · by_cases h0 : 0 < hi
      · simp only [deriv, h, h0, decide_true, Bool.and_self, if_true, Lang, List.mem_cons, forall_eq_or_imp,
          true_and, List.length_cons]
        constructor
        · rintro ⟨h1, h2, h3⟩; exact ⟨h1, by omega, by omega⟩
        · rintro ⟨h1, h2, h3⟩; exact ⟨h1, by omega, by omega⟩
      · simp only [deriv, h, h0, decide_false, Bool.and_false, if_false, Lang, List.length_cons]
        constructor
        · intro h2; simp [Lang] at h2
        · rintro ⟨_, _, h3⟩; omega
    · simp [deriv, h, Lang]
  | seq a b iha ihb =>
    intro s
    have key : (∃ u v, s = u ++ v ∧ (a.deriv c).Lang u ∧ b.Lang v) ∨ (a.Lang [] ∧ b.Lang (c :: s)) ↔
        (seq a b).Lang (c :: s) := by
      simp only [Lang]
      constructor
      · rintro (⟨u, v, rfl, h1, h2⟩ | ⟨h1, h2⟩)
        · exact ⟨c :: u, v, rfl, (iha u).mp h1, h2⟩
        · exact ⟨[], c :: s, rfl, h1, h2⟩
      · rintro ⟨u, v, h, h1, h2⟩
        cases u with
        | nil => right; simp at h; subst h; exact ⟨h1, h2⟩
        | cons d u =>
          left; simp at h; obtain ⟨rfl, rfl⟩ := h
          exact ⟨u, v, rfl, (iha u).mpr h1, h2⟩
    by_cases hn : a.nullable = true
    · rw [← key]; simp only [deriv, hn, if_true, Lang, ihb, ← nullable_iff, true_and]
    · rw [← key]; simp only [deriv, hn, Lang, ← nullable_iff]; simp [Lang]
  | alt a b iha ihb => intro s; simp [deriv, Lang, iha, ihb]
  | star a iha =>
    intro s
    simp only [deriv, Lang]
    constructor
    · rintro ⟨u, v, rfl, h1, ws, rfl, h2⟩
      refine ⟨(c :: u) :: ws, rfl, ?_⟩
      intro w hw
      rcases List.mem_cons.mp hw with rfl | hw
      · exact (iha u).mp h1
      · exact h2 w hw
    · rintro ⟨ws, h, h2⟩
      induction ws with
      | nil => simp at h
      | cons w ws ih =>
        cases w with
        | nil => exact ih (by simpa using h) (fun w hw => h2 w (List.mem_cons_of_mem _ hw))
        | cons d w =>
          simp at h; obtain ⟨rfl, rfl⟩ := h
          exact ⟨w, ws.flatten, rfl, (iha w).mpr (h2 _ (List.mem_cons_self ..)), ws, rfl,
            fun w hw => h2 w (List.mem_cons_of_mem _ hw)⟩

/-- `fullmatch` decides membership in the language. -/
theorem fullmatch_iff (r : Re) (s : Str) : r.fullmatch s = true ↔ r.Lang s := by
  induction s generalizing r with
  | nil => exact nullable_iff r
  | cons c s ih => simp only [fullmatch]; rw [ih, deriv_iff]

@[simp] theorem lang_chr (c : Char) (s : Str) : (chr c).Lang s ↔ s = [c] := by
  simp only [chr, Lang]
  constructor
  · rintro ⟨d, rfl, h⟩; simp at h; simp [h]
  · rintro rfl; exact ⟨c, rfl, by simp⟩

theorem lang_lit (l s : Str) : (lit l).Lang s ↔ s = l := by
  induction l generalizing s with
  | nil => simp [lit, Lang]
  | cons c l ih =>
    simp only [lit, Lang, lang_chr]
    constructor
    · rintro ⟨u, v, rfl, rfl, h⟩; simp [(ih v).mp h]
    · rintro rfl; exact ⟨[c], l, rfl, rfl, (ih l).mpr rfl⟩

end Re
end Otel
