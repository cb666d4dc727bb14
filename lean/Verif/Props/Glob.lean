import Verif.Model.Glob
import Verif.Props.Limits
/-!
# C63: which instruments a view's name pattern selects
-/
namespace Otel
namespace Metrics
variable {α : Type}

/-- What a pattern with `*` and `?` means: `*` stands for any string, `?` for any character, everything else for itself. -/
inductive Stands : Str → Str → Prop
  | nil : Stands [] []
  | star (p t s r : Str) (hr : r = t ++ s) : Stands p s → Stands ('*' :: p) r
  | any (p s : Str) (d : Char) : Stands p s → Stands ('?' :: p) (d :: s)
  | lit (p s : Str) (c : Char) (h : c ≠ '*') (h' : c ≠ '?') : Stands p s → Stands (c :: p) (c :: s)

theorem starMatch_iff (k : Str → Bool) (s : Str) : starMatch k s = true ↔ ∃ t u, s = t ++ u ∧ k u = true := by
  induction s with
  | nil => simp [starMatch]
  | cons c s ih =>
    simp only [starMatch, Bool.or_eq_true, ih]
    constructor
    · rintro (h | ⟨t, u, rfl, h⟩)
      · exact ⟨[], c :: s, rfl, h⟩
      · exact ⟨c :: t, u, rfl, h⟩
    · rintro ⟨t, u, h, hk⟩
      cases t with
      | nil => left; rw [List.nil_append] at h; rw [h]; exact hk
      | cons d t => right; injection h with _ h; exact ⟨t, u, h, hk⟩

/-- **C63** The matcher decides what patterns mean. -/
theorem C63_fnmatch (p s : Str) : fnmatch s p = true ↔ Stands p s := by
  unfold fnmatch
  induction p generalizing s with
  | nil =>
    cases s with
    | nil => exact ⟨fun _ => .nil, fun _ => rfl⟩
    | cons d s => exact ⟨fun h => by simp [glob] at h, fun h => by cases h⟩
  | cons c p ih =>
    by_cases hc : c = '*'
    · subst hc
      simp only [glob, if_true, starMatch_iff]
      constructor
      · rintro ⟨t, u, rfl, h⟩; exact .star p t u _ rfl ((ih u).1 h)
      · intro h
        cases h with
        | star _ t u _ hr h => exact ⟨t, u, hr, (ih u).2 h⟩
        | lit _ _ _ h _ _ => exact absurd rfl h
    · simp only [glob, if_neg hc]
      cases s with
      | nil =>
        constructor
        · intro h; simp at h
        · intro h
          cases h with
          | star => exact absurd rfl hc
      | cons d s =>
        simp only [Bool.and_eq_true, Bool.or_eq_true, beq_iff_eq, ih]
        constructor
        · rintro ⟨rfl | rfl, h⟩
          · exact .any p s d h
          · by_cases hq : c = '?'
            · subst hq; exact .any p s _ h
            · exact .lit p s c hc hq h
        · intro h
          cases h with
          | star => exact absurd rfl hc
          | any _ _ _ h => exact ⟨.inl rfl, h⟩
          | lit _ _ _ _ _ h => exact ⟨.inr rfl, h⟩

example : fnmatch "http.server.duration".toList "http.*.dur?tion".toList = true := by decide +kernel
example : fnmatch "http.server.duration".toList "http.?.duration".toList = false := by decide +kernel

theorem stands_mem (p s : Str) (h : Stands p s) (c : Char) (hc : c ∈ p) (h1 : c ≠ '*') (h2 : c ≠ '?') : c ∈ s := by
  induction h with
  | nil => simp at hc
  | star p t s r hr _ ih => rcases List.mem_cons.1 hc with rfl | hc; · exact absurd rfl h1
                            subst hr; exact List.mem_append_right _ (ih hc)
  | any p s d _ ih => rcases List.mem_cons.1 hc with rfl | hc; · exact absurd rfl h2
                      exact List.mem_cons_of_mem _ (ih hc)
  | lit p s d _ _ _ ih =>
    rcases List.mem_cons.1 hc with rfl | hc
    · exact List.mem_cons_self ..
    · exact List.mem_cons_of_mem _ (ih hc)

theorem isUpper_iff (c : Char) : isUpper c = true ↔ 65 ≤ c.toNat ∧ c.toNat ≤ 90 := by
  simp only [isUpper, inRange, Bool.and_eq_true, decide_eq_true_eq]

theorem lower_no_upper (s : Str) (c : Char) (h : c ∈ Meter.lower s) : isUpper c = false := by
  simp only [Meter.lower, List.mem_map] at h
  obtain ⟨d, _, rfl⟩ := h
  unfold Meter.lowerC
  split
  · rename_i hd
    have := Limits.toNat_ofNat_add d hd
    rw [isUpper_iff] at hd
    rw [Bool.eq_false_iff, ne_eq, isUpper_iff]
    omega
  · rename_i hd; simpa using hd

theorem lower_id (s : Str) (h : ∀ c ∈ s, isUpper c = false) : Meter.lower s = s := by
  unfold Meter.lower
  conv_rhs => rw [← List.map_id s]
  apply List.map_congr_left
  intro c hc
  simp [Meter.lowerC, h c hc]

/-- A pattern means the same up to case. -/
def Names (pattern given : Str) : Prop := Stands (Meter.lower pattern) (Meter.lower given)

/-- **C63 (partial)** A view whose name pattern has no upper-case letter selects an instrument exactly if the pattern stands for its name
regardless of case (and the other criteria hold). *Missing*: patterns with upper-case letters, where this is false (`C63_upper_never`), and
patterns with `[`. -/
theorem C63_lowercase_partial (w : View α) (i : Instr α) (given p : Str) (hi : i.name = instrName given) (hp : w.instrumentName = some p)
    (hl : ∀ c ∈ p, isUpper c = false) (_hb : '[' ∉ p) :
    w.matches fnmatch i = true ↔ Names p given ∧ { w with instrumentName := none }.matches fnmatch i = true := by
  have h := C63_fnmatch p i.name
  unfold Names
  rw [lower_id p hl]
  rw [hi] at h
  unfold instrName at h
  rw [← h]
  unfold View.matches
  simp only [hp, hi, instrName]
  by_cases h1 : fnmatch (Meter.lower given) p = true
  · simp [h1]
  · simp [h1]

/-- **C63** (refutation) A view whose name pattern contains an upper-case letter selects no instrument at all, whatever name the instrument
was created with. -/
theorem C63_upper_never (w : View α) (i : Instr α) (given p : Str) (hi : i.name = instrName given) (hp : w.instrumentName = some p)
    (c : Char) (hc : c ∈ p) (hu : isUpper c = true) (_hb : '[' ∉ p) : w.matches fnmatch i = false := by
  have hf : fnmatch i.name p = false := by
    rw [Bool.eq_false_iff]
    intro h
    have := stands_mem p i.name ((C63_fnmatch p i.name).1 h) c hc (by rintro rfl; revert hu; decide) (by rintro rfl; revert hu; decide)
    rw [hi] at this
    rw [lower_no_upper given c this] at hu
    cases hu
  unfold View.matches
  simp [hp, hf]

/-- A view for `Requests` does not select the counter created as `Requests`, one for `requests` does. -/
example :
    (⟨none, some "Requests".toList, none, none, none, none, none, none, none, .default⟩ : View Int).matches fnmatch
      ⟨0, .counter, instrName "Requests".toList, [], [], ⟨['m'], none, none⟩, none⟩ = false ∧
    (⟨none, some "requests".toList, none, none, none, none, none, none, none, .default⟩ : View Int).matches fnmatch
      ⟨0, .counter, instrName "Requests".toList, [], [], ⟨['m'], none, none⟩, none⟩ = true := by decide +kernel

end Metrics
end Otel
