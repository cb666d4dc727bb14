import Verif.Props.Prometheus
import Mathlib.Tactic.SplitIfs
/-!
# C88: units in the Prometheus exporter
-/
namespace Otel
namespace Prom

/-! ## Specification -/

/-- The abbreviations that are spelled out, by quantity. -/
def Spelled : List (String × String) :=
  -- time
  [("ns", "nanoseconds"), ("us", "microseconds"), ("ms", "milliseconds"), ("s", "seconds"), ("min", "minutes"), ("h", "hours"), ("d", "days")] ++
  -- information, binary and decimal
  [("By", "bytes"), ("KiBy", "kibibytes"), ("MiBy", "mebibytes"), ("GiBy", "gibibytes"), ("TiBy", "tibibytes")] ++
  [("KBy", "kilobytes"), ("MBy", "megabytes"), ("GBy", "gigabytes"), ("TBy", "terabytes")] ++
  -- physics
  [("m", "meters"), ("g", "grams"), ("A", "amperes"), ("V", "volts"), ("W", "watts"), ("J", "joules"), ("Hz", "hertz"), ("Cel", "celsius")] ++
  -- numbers
  [("%", "percent"), ("1", "")]

/-- The abbreviations that are spelled out after “per”. -/
def SpelledPer : List (String × String) :=
  [("s", "second"), ("m", "minute"), ("h", "hour"), ("d", "day"), ("w", "week"), ("mo", "month"), ("y", "year")]

/-- `s` spelled out according to the table, or as it is. -/
def spell (table : List (String × String)) (s n : Str) : Prop :=
  (∃ p ∈ table, p.1.toList = s ∧ p.2.toList = n) ∨ ((∀ p ∈ table, p.1.toList ≠ s) ∧ n = s)

/-- Only letters, digits and colons. -/
def Plain (s : Str) : Prop := ∀ c ∈ s, nameChar c = true
instance (s : Str) : Decidable (Plain s) := inferInstanceAs (Decidable (∀ c ∈ s, _))

/-! ## Proofs -/

theorem spell_get (d : Dict Str Str) (table : List (String × String)) (h : ∀ p ∈ table, Dict.get? d p.1.toList = some p.2.toList)
    (h' : ∀ kv ∈ d, ∃ p ∈ table, p.1.toList = kv.1) (s n : Str) : (Dict.get? d s).getD s = n ↔ spell table s n := by
  constructor
  · rintro rfl
    cases hg : Dict.get? d s with
    | some n =>
      obtain ⟨p, hp, e⟩ := h' _ (Dict.mem_of_get? _ _ _ hg)
      have := h p hp
      simp only at e
      rw [e, hg] at this
      exact .inl ⟨p, hp, e, (Option.some.inj this).symm⟩
    | none =>
      refine .inr ⟨?_, rfl⟩
      rintro p hp rfl
      rw [h p hp] at hg
      simp at hg
  · rintro (⟨p, hp, rfl, rfl⟩ | ⟨hn, rfl⟩)
    · rw [h p hp]; rfl
    · cases hg : Dict.get? d n with
      | none => rfl
      | some m =>
        obtain ⟨p, hp, e⟩ := h' _ (Dict.mem_of_get? _ _ _ hg)
        exact absurd e (hn p hp)

theorem spell_units (s n : Str) : (Dict.get? unitMappings s).getD s = n ↔ spell Spelled s n :=
  spell_get _ _ (by decide +kernel) (by decide +kernel) s n
theorem spell_per (s n : Str) : (Dict.get? perMappings s).getD s = n ↔ spell SpelledPer s n :=
  spell_get _ _ (by decide +kernel) (by decide +kernel) s n

theorem sanitize_plain (s : Str) (h : Plain s) : sanitizeName s = s := by
  unfold sanitizeName
  induction s with
  | nil => rfl
  | cons c s ih => rw [subRuns, if_pos (h c (by simp)), ih (fun x hx => h x (by simp [hx]))]

theorem plain_not (s : Str) (h : Plain s) (c : Char) (hc : nameChar c = false) : c ∉ s := by
  intro hm; rw [h c hm] at hc; simp at hc

theorem cutAnnotations_none (s : Str) (h : '{' ∉ s) (hl : '\n' ∉ s) : cutAnnotations s = s := by
  unfold cutAnnotations
  rw [splitC_of_not_mem _ _ hl]
  simp only [List.map_cons, List.map_nil, joinS]
  unfold cutLine
  rw [cutC_of_not_mem _ _ h]

theorem strip_none (p : Char → Bool) (s : Str) (h : ∀ c ∈ s, p c = false) : stripBy p s = s := by
  have hl : ∀ l : Str, (∀ c ∈ l, p c = false) → l.dropWhile p = l := by
    intro l hl
    cases l with
    | nil => rfl
    | cons c l => simp [List.dropWhile, hl c]
  simp only [stripBy, rstripBy, lstripBy]
  rw [hl s h, hl s.reverse (fun c hc => h c (List.mem_reverse.1 hc)), List.reverse_reverse]

theorem afterLast_none (s : Str) (h : '}' ∉ s) : afterLast s = none := by
  induction s with
  | nil => rfl
  | cons c s ih =>
    simp only [List.mem_cons, not_or] at h
    rw [afterLast, ih h.2, if_neg (Ne.symm h.1)]

theorem afterLast_append (a b : Str) (h : '}' ∉ b) : afterLast (a ++ '}' :: b) = some b := by
  induction a with
  | nil => rw [List.nil_append, afterLast, afterLast_none b h]; simp
  | cons c a ih => rw [List.cons_append, afterLast, ih]

/-- **C88** The unit of a metric with no annotation and no slash is spelled out, and kept if it is not in the table. -/
theorem C88_simple (u n : Str) (h : Plain u ∨ u = ['%']) : mapUnit u = n ↔ spell Spelled u n := by
  have hb : '{' ∉ u := by rcases h with h | rfl
                          · exact plain_not u h _ (by decide)
                          · decide
  have hl : '\n' ∉ u := by rcases h with h | rfl
                           · exact plain_not u h _ (by decide)
                           · decide
  have hs : '/' ∉ u := by rcases h with h | rfl
                          · exact plain_not u h _ (by decide)
                          · decide
  rw [← spell_units]
  unfold mapUnit
  rw [cutAnnotations_none u hb hl]
  simp only [ratio, cutC_of_not_mem _ _ hs]
  cases hg : Dict.get? unitMappings u with
  | some r => rfl
  | none =>
    rcases h with h | rfl
    · simp only [Option.getD_none]
      rw [sanitize_plain u h, strip_none]
      intro c hc
      have := h c hc
      cases hh : c == '_'
      · rfl
      · rw [beq_iff_eq] at hh; subst hh; exact absurd this (by decide)
    · exact absurd hg (by decide +kernel)

/-- **C88** A unit `a/b` is `a` spelled out, `_per_`, and the singular of `b`; without `a`, or with the unit `1`, it begins with `per_`. -/
theorem C88_ratio (a b a' b' : Str) (ha : Plain a) (hb : Plain b) (hne : b ≠ []) (h1 : spell Spelled a a') (h2 : spell SpelledPer b b') :
    mapUnit (a ++ '/' :: b) = (if a' = [] then "per_".toList else a' ++ "_per_".toList) ++ b' := by
  rw [← spell_units] at h1
  rw [← spell_per] at h2
  have n1 : ∀ c : Char, nameChar c = false → c ≠ '/' → c ∉ a ++ '/' :: b := by
    intro c hc hs hm
    rcases List.mem_append.1 hm with hm | hm
    · exact plain_not a ha c hc hm
    · rcases List.mem_cons.1 hm with hm | hm
      · exact hs hm
      · exact plain_not b hb c hc hm
  unfold mapUnit
  rw [cutAnnotations_none _ (n1 _ (by decide) (by decide)) (n1 _ (by decide) (by decide))]
  have hg : Dict.get? unitMappings (a ++ '/' :: b) = none := by
    cases hg : Dict.get? unitMappings (a ++ '/' :: b) with
    | none => rfl
    | some r =>
      have hm := Dict.mem_of_get? _ _ _ hg
      have : ∀ kv ∈ unitMappings, '/' ∉ kv.1 := by decide +kernel
      exact absurd (List.mem_append.2 (.inr (List.mem_cons_self))) (this _ hm)
  have hemp : b.isEmpty = false := by cases b <;> simp_all
  simp only [hg, ratio, cutC_append _ _ _ (plain_not a ha '/' (by decide)), sanitize_plain a ha, sanitize_plain b hb, h1, h2, hemp]
  cases a' <;> simp

/-- **C88** An annotation in braces does not matter. -/
theorem C88_annotation (a x b : Str) (ha : '{' ∉ a) (hb : '}' ∉ b) (hl : '\n' ∉ a ∧ '\n' ∉ x ∧ '\n' ∉ b) :
    mapUnit (a ++ '{' :: x ++ '}' :: b) = mapUnit (a ++ b) := by
  have e1 : cutAnnotations (a ++ '{' :: x ++ '}' :: b) = a ++ b := by
    unfold cutAnnotations
    rw [splitC_of_not_mem]
    · simp only [List.map_cons, List.map_nil, joinS]
      unfold cutLine
      rw [List.append_assoc, List.cons_append, cutC_append _ _ _ ha]
      simp only [afterLast_append x b hb]
    · simp only [List.mem_append, List.mem_cons, not_or]
      exact ⟨⟨hl.1, by decide, hl.2.1⟩, by decide, hl.2.2⟩
  have e2 : cutAnnotations (a ++ b) = a ++ b := by
    unfold cutAnnotations
    rw [splitC_of_not_mem]
    · simp only [List.map_cons, List.map_nil, joinS]
      unfold cutLine
      cases hc : cutC '{' (a ++ b) with
      | mk k o =>
        cases o with
        | none => rfl
        | some t =>
          obtain ⟨e, hk⟩ := cutC_some _ _ _ _ hc
          have hm : ∀ c ∈ t, c ∈ b := by
            intro c hct
            rw [List.append_eq_append_iff] at e
            rcases e with ⟨l, rfl, e⟩ | ⟨l, e, e'⟩
            · rw [e]; simp [hct]
            · cases l with
              | nil => rw [List.nil_append] at e'; rw [← e']; simp [hct]
              | cons y l =>
                rw [List.cons_append, List.cons.injEq] at e'
                exact absurd (by rw [e, ← e'.1]; simp) ha
          simp only
          rw [afterLast_none t (fun h => hb (hm _ h))]
    · simp only [List.mem_append, not_or]
      exact ⟨hl.1, hl.2.2⟩
  unfold mapUnit
  rw [e1, e2]

/-- **C88** (refutation) With two annotations the text between them is lost too. -/
theorem C88_two_annotations :
    mapUnit "By{sent}/s".toList = "bytes_per_second".toList ∧ mapUnit "By/s{wall}".toList = "bytes_per_second".toList ∧
    mapUnit "By{sent}/s{wall}".toList = "bytes".toList := by
  refine ⟨by decide +kernel, by decide +kernel, by decide +kernel⟩

example : mapUnit "1/s".toList = "per_second".toList :=
  C88_ratio ['1'] ['s'] [] "second".toList (by decide) (by decide) (by decide) (.inl ⟨("1", ""), by decide, rfl, rfl⟩)
    (.inl ⟨("s", "second"), by decide, rfl, rfl⟩)
example : mapUnit "furlong".toList = "furlong".toList := (C88_simple _ _ (.inl (by decide))).2 (.inr ⟨by decide, rfl⟩)
example : mapUnit "{a{b}}By".toList = "bytes".toList := by
  have := C88_annotation [] "a{b}".toList "By".toList (by decide) (by decide) (by decide)
  exact this.trans ((C88_simple _ _ (.inl (by decide))).2 (.inl ⟨("By", "bytes"), by decide, rfl, rfl⟩))

end Prom
end Otel
