import Verif.Model.Prometheus
import Verif.Props.Histogram
import Verif.Lemmas.Dict
import Verif.Props.OtlpGroup
import Verif.Lemmas.Str
/-!
# C48, C49, C72: the Prometheus exporter
-/
namespace Otel
namespace Prom

/-! ## C48 -/
section Buckets
variable {β : Type}

theorem convertLoop_get (t : Nat) (bs : List β) (cs : List Nat) (i : Nat) :
    (convertLoop t bs cs)[i]? = match bs[i]?, cs[i]? with
      | some b, some _ => some (b, t + (cs.take (i + 1)).sum)
      | _, _ => none := by
  induction bs generalizing t cs i with
  | nil => simp [convertLoop]
  | cons b bs ih =>
    cases cs with
    | nil => simp [convertLoop]
    | cons c cs =>
      cases i with
      | zero => simp [convertLoop]
      | succ i =>
        simp only [convertLoop, List.getElem?_cons_succ, ih, List.take_succ_cons, List.sum_cons]
        cases bs[i]? <;> cases cs[i]? <;> simp [Nat.add_assoc]

theorem convertLoop_labels (t : Nat) (bs : List β) (cs : List Nat) (h : bs.length = cs.length) : (convertLoop t bs cs).map Prod.fst = bs := by
  induction bs generalizing t cs with
  | nil => simp [convertLoop]
  | cons b bs ih =>
    cases cs with
    | nil => simp at h
    | cons c cs => simp only [List.length_cons] at h; simp [convertLoop, ih _ cs (by omega)]

theorem convertLoop_ge (t : Nat) (bs : List β) (cs : List Nat) : ∀ q ∈ convertLoop t bs cs, t ≤ q.2 := by
  induction bs generalizing t cs with
  | nil => simp [convertLoop]
  | cons b bs ih =>
    cases cs with
    | nil => simp [convertLoop]
    | cons c cs =>
      intro q hq
      rcases List.mem_cons.1 hq with rfl | hq
      · simp
      · have := ih _ _ q hq; omega

theorem convertLoop_mono (t : Nat) (bs : List β) (cs : List Nat) : (convertLoop t bs cs).Pairwise (fun a b => a.2 ≤ b.2) := by
  induction bs generalizing t cs with
  | nil => simp [convertLoop]
  | cons b bs ih =>
    cases cs with
    | nil => simp [convertLoop]
    | cons c cs => exact List.pairwise_cons.2 ⟨convertLoop_ge _ _ _, ih _ _⟩

/-- **C48** For every histogram point, whatever its counts, the exposed buckets are the boundaries in order and then `+Inf`, and their
counts never decrease. -/
theorem C48_shape {α : Type} (counts : List Nat) (bounds : List α) (h : counts.length = bounds.length + 1) :
    (convertBuckets counts bounds).map Prod.fst = bounds.map some ++ [none] ∧ (convertBuckets counts bounds).Pairwise (fun a b => a.2 ≤ b.2) ∧
    (convertBuckets counts bounds).getLast? = some (none, counts.sum) := by
  refine ⟨convertLoop_labels _ _ _ (by simp [h]), convertLoop_mono _ _ _, ?_⟩
  have hlen : (convertBuckets counts bounds).length = bounds.length + 1 := by
    have := congrArg List.length (convertLoop_labels 0 (bounds.map some ++ [none]) counts (by simp [h]))
    simpa [convertBuckets] using this
  rw [List.getLast?_eq_getElem?, hlen, convertBuckets, convertLoop_get, Nat.add_sub_cancel]
  rw [List.getElem?_eq_getElem (show bounds.length < counts.length by omega), ← h, List.take_length]
  simp

variable {α : Type} [AddCommGroup α] [LinearOrder α]
open Metrics

theorem bisect_le (bounds : List α) (hs : bounds.Pairwise (· ≤ ·)) (v b : α) (k : Nat) (hk : bounds[k]? = some b) :
    bisectLeft bounds v ≤ k ↔ v ≤ b := by
  obtain ⟨h0, h1, h2⟩ := bisectLoop_spec bounds v hs bounds.length 0 bounds.length (by omega) (by omega) le_rfl
    (by omega) (by intro j y hj hy; rw [List.getElem?_eq_none hj] at hy; cases hy)
  change ∀ j y, j < bisectLeft bounds v → _ at h1
  change ∀ j y, bisectLeft bounds v ≤ j → _ at h2
  constructor
  · intro h; exact h2 k b h hk
  · intro h
    by_contra hc
    exact absurd (h1 k b (by omega) hk) (not_lt.2 h)

theorem take_sum (counts vs : List Nat) (h : ∀ i, i < counts.length → counts[i]? = some (vs.countP (fun x => decide (x = i)))) (k : Nat)
    (hk : k ≤ counts.length) : (counts.take k).sum = vs.countP (fun x => decide (x < k)) := by
  induction k with
  | zero => simp
  | succ k ih =>
    have hget := h k (by omega)
    rw [List.take_succ, hget]
    simp only [Option.toList_some, List.sum_append, List.sum_cons, List.sum_nil, Nat.add_zero, ih (by omega)]
    clear h hget ih
    induction vs with
    | nil => rfl
    | cons x vs ih =>
      simp only [List.countP_cons, decide_eq_true_eq]
      by_cases h1 : x < k
      · rw [if_pos h1, if_neg (by omega), if_pos (by omega)]; omega
      · by_cases h2 : x = k
        · rw [if_neg h1, if_pos h2, if_pos (by omega)]; omega
        · rw [if_neg h1, if_neg h2, if_neg (by omega)]; omega

/-- **C48** If a histogram point describes the measurements `vs`, the exposed bucket of boundary `b` is the number of measurements at most
`b`, and the bucket `+Inf` is the number of all of them. -/
theorem C48_le (p : HistPoint α) (bounds : List α) (hs : bounds.Pairwise (· ≤ ·)) (mm : Bool) (vs : List α) (h : Describes p bounds mm vs) :
    convertBuckets p.buckets p.bounds = bounds.map (fun b => (some b, vs.countP (fun v => decide (v ≤ b)))) ++ [(none, vs.length)] := by
  have hb : ∀ i, i < p.buckets.length → p.buckets[i]? = some ((vs.map (bisectLeft bounds)).countP (fun x => decide (x = i))) := by
    intro i hi
    have hi' : i ≤ bounds.length := by have := h.one_more; omega
    have hd : DecidablePred (inBucket bounds i) := fun v => decidable_of_iff _ (C30_bucket_of bounds hs v i hi')
    rw [h.bucket i hi' hd, List.countP_map]
    congr 1
    apply List.countP_congr
    intro v _
    simp [C30_bucket_of bounds hs v i hi']
  rw [h.bounds_eq]
  apply List.ext_getElem?
  intro i
  rw [convertBuckets, convertLoop_get]
  by_cases hi : i < bounds.length
  · have hi2 : i < p.buckets.length := by have := h.one_more; omega
    rw [take_sum p.buckets _ hb (i + 1) (by omega)]
    rw [List.getElem?_append_left (by simpa using hi), List.getElem?_append_left (by simpa using hi)]
    simp only [List.getElem?_map, List.getElem?_eq_getElem hi, List.getElem?_eq_getElem hi2, Option.map_some, Nat.zero_add, List.countP_map]
    congr 2
    apply List.countP_congr
    intro v _
    simp only [Function.comp, decide_eq_true_eq, Nat.lt_succ_iff]
    exact bisect_le bounds hs v _ i (List.getElem?_eq_getElem hi)
  · by_cases hi1 : i = bounds.length
    · subst hi1
      have hi2 : bounds.length < p.buckets.length := by have := h.one_more; omega
      rw [show bounds.length + 1 = p.buckets.length from h.one_more.symm, List.take_length, h.total, h.count_eq]
      simp [List.getElem?_eq_getElem hi2]
    · rw [List.getElem?_eq_none (l := bounds.map some ++ [none]) (by simp; omega), List.getElem?_eq_none (l := _ ++ [_]) (by simp; omega)]

/-- **C48** End to end: whatever was recorded, by whatever histories of measurements and scrapes, the buckets of the `i`-th scrape count
the measurements made before it. -/
theorem C48_scrape (start : Int) (bounds : List α) (hs : bounds.Pairwise (· ≤ ·)) (mm : Bool) (l : List (Op α)) (i : Nat)
    (c : Cycle α) (hc : (cycles start l)[i]? = some c) :
    ∃ p, ((histM .delta .cumulative start bounds mm).out l)[i]? = some (some p) ∧
      convertBuckets p.buckets p.bounds = bounds.map (fun b => (some b, c.all.countP (fun v => decide (v ≤ b)))) ++ [(none, c.all.length)] := by
  obtain ⟨p, h1, _, _, h2⟩ := C30_cumulative start bounds hs mm l i c hc
  exact ⟨p, h1, C48_le p bounds hs mm _ h2⟩

example : ((histM (α := Int) .delta .cumulative 0 [0, 5, 10] true).out [.meas 5, .meas 6, .coll 1, .meas 11, .coll 2]).map
    (·.map (fun p => convertBuckets p.buckets p.bounds)) =
    [some [(some 0, 0), (some 5, 1), (some 10, 2), (none, 2)], some [(some 0, 0), (some 5, 1), (some 10, 2), (none, 3)]] := by decide

end Buckets

/-! ## C49 -/

/-- The grammar `[a-zA-Z_:][a-zA-Z0-9_:]*` of Prometheus metric names. -/
def LegalName : Str → Prop
  | [] => False
  | c :: cs => (isLower c = true ∨ isUpper c = true ∨ c = '_' ∨ c = ':') ∧
      ∀ x ∈ cs, isLower x = true ∨ isUpper x = true ∨ isDig x = true ∨ x = '_' ∨ x = ':'

/-- The grammar `[a-zA-Z_][a-zA-Z0-9_]*` of Prometheus label names. -/
def LegalLabel : Str → Prop
  | [] => False
  | c :: cs => (isLower c = true ∨ isUpper c = true ∨ c = '_') ∧ ∀ x ∈ cs, isLower x = true ∨ isUpper x = true ∨ isDig x = true ∨ x = '_'

/-- Python's `isdigit` on ASCII characters; beyond them it may say anything. -/
def DigitOk (isdigit : Char → Bool) : Prop := ∀ c : Char, c.toNat < 128 → isdigit c = isDig c

variable {keep : Char → Bool}

theorem subRuns_chars (run : Bool) (s : Str) : ∀ x ∈ subRuns keep run s, keep x = true ∨ x = '_' := by
  induction s generalizing run with
  | nil => simp [subRuns]
  | cons c cs ih =>
    intro x hx
    rw [subRuns] at hx
    split at hx
    · rcases List.mem_cons.1 hx with rfl | hx
      · left; assumption
      · exact ih _ x hx
    · split at hx
      · exact ih _ x hx
      · rcases List.mem_cons.1 hx with rfl | hx
        · right; rfl
        · exact ih _ x hx

/-- No two consecutive underscores. -/
def NoDouble (s : Str) : Prop := ¬ ['_', '_'] <:+: s

theorem infix_cons {α : Type} (l : List α) (a : α) (s : List α) : l <:+: a :: s ↔ l <+: a :: s ∨ l <:+: s := List.infix_cons_iff

theorem subRuns_fix (hk : keep '_' = false) (run : Bool) (s : Str) (hrun : run = true → s.head? ≠ some '_')
    (hc : ∀ x ∈ s, keep x = true ∨ x = '_') (hd : NoDouble s) : subRuns keep run s = s := by
  induction s generalizing run with
  | nil => simp [subRuns]
  | cons c cs ih =>
    have hd' : NoDouble cs := fun h => hd ((infix_cons _ _ _).2 (.inr h))
    have hc' : ∀ x ∈ cs, keep x = true ∨ x = '_' := fun x hx => hc x (List.mem_cons_of_mem _ hx)
    rw [subRuns]
    by_cases h : keep c = true
    · rw [if_pos h, ih false (by simp) hc' hd']
    · have hcu : c = '_' := (hc c List.mem_cons_self).resolve_left h
      subst hcu
      rw [if_neg h]
      cases run with
      | true => exact absurd rfl (hrun rfl)
      | false =>
        simp only [Bool.false_eq_true, if_false]
        rw [ih true ?_ hc' hd']
        intro _ hh
        cases cs with
        | nil => simp at hh
        | cons x xs =>
          simp only [List.head?_cons, Option.some.injEq] at hh
          subst hh
          exact hd ⟨[], xs, rfl⟩

theorem subRuns_noDouble (hk : keep '_' = false) (run : Bool) (s : Str) : NoDouble (subRuns keep run s) ∧ (run = true → (subRuns keep run s).head? ≠ some '_') := by
  induction s generalizing run with
  | nil => simp [subRuns, NoDouble]
  | cons c cs ih =>
    rw [subRuns]
    by_cases h : keep c = true
    · rw [if_pos h]
      have hc : c ≠ '_' := by rintro rfl; simp [hk] at h
      refine ⟨?_, by simp [hc]⟩
      intro hi
      rcases (infix_cons _ _ _).1 hi with hp | hi
      · exact hc ((List.cons_prefix_cons.1 hp).1).symm
      · exact (ih false).1 hi
    · rw [if_neg h]
      cases run with
      | true => simpa using ih true
      | false =>
        simp only [Bool.false_eq_true, if_false, false_implies, and_true]
        intro hi
        rcases (infix_cons _ _ _).1 hi with hp | hi
        · have := (List.cons_prefix_cons.1 hp).2
          apply (ih true).2 rfl
          cases hq : subRuns keep true cs with
          | nil => rw [hq] at this; simp at this
          | cons x xs => rw [hq] at this; simp [(List.cons_prefix_cons.1 this).1.symm]
        · exact (ih true).1 hi

theorem subRuns_head (c : Char) (cs : Str) : ∃ r, subRuns keep false (c :: cs) = (if keep c then c else '_') :: r := by
  rw [subRuns]
  split <;> simp

theorem nameChar_underscore : nameChar '_' = false := by decide
theorem keyChar_underscore : keyChar '_' = false := by decide

theorem nameChar_iff (c : Char) : nameChar c = true ↔ isLower c = true ∨ isUpper c = true ∨ isDig c = true ∨ c = ':' := by
  simp [nameChar, or_assoc]
theorem keyChar_iff (c : Char) : keyChar c = true ↔ isLower c = true ∨ isUpper c = true ∨ isDig c = true := by
  simp [keyChar, or_assoc]

theorem ascii_of_name {c : Char} (h : nameChar c = true ∨ c = '_') : c.toNat < 128 := by
  rcases h with h | rfl
  · rcases (nameChar_iff c).1 h with h | h | h | rfl
    · simp only [isLower, inRange, Bool.and_eq_true, decide_eq_true_eq] at h; omega
    · simp only [isUpper, inRange, Bool.and_eq_true, decide_eq_true_eq] at h; omega
    · simp only [isDig, inRange, Bool.and_eq_true, decide_eq_true_eq] at h; omega
    · decide
  · decide

theorem not_dig {c : Char} (h : isLower c = true ∨ isUpper c = true ∨ c = '_' ∨ c = ':') : isDig c = false := by
  rcases h with h | h | rfl | rfl
  · simp only [isLower, inRange, Bool.and_eq_true, decide_eq_true_eq] at h
    simp only [isDig, inRange, Bool.and_eq_false_iff, decide_eq_false_iff_not]; omega
  · simp only [isUpper, inRange, Bool.and_eq_true, decide_eq_true_eq] at h
    simp only [isDig, inRange, Bool.and_eq_false_iff, decide_eq_false_iff_not]; omega
  · decide
  · decide

theorem lead_head (isdigit : Char → Bool) (hd : DigitOk isdigit) (c : Char) (cs : Str) :
    ∃ x, lead isdigit (c :: cs) = x :: cs ∧ isDig x = false ∧ (x = '_' ∨ x = c) := by
  rw [lead]
  by_cases h : isdigit c = true
  · exact ⟨'_', by simp [h], by decide, .inl rfl⟩
  · refine ⟨c, by simp [h], ?_, .inr rfl⟩
    by_contra hc
    have hc : isDig c = true := by simpa using hc
    rw [hd c (ascii_of_name (.inl ((nameChar_iff c).2 (.inr (.inr (.inl hc))))))] at h
    exact h hc

/-- **C49** The name of every exposed metric with a non-empty name is legal. -/
theorem C49_name_legal (isdigit : Char → Bool) (hd : DigitOk isdigit) (s : Str) (hs : s ≠ []) : LegalName (sanitizeFullName isdigit s) := by
  cases s with
  | nil => exact absurd rfl hs
  | cons c cs =>
    obtain ⟨x, hx, hdig, _⟩ := lead_head isdigit hd c cs
    rw [sanitizeFullName, hx, sanitizeName]
    obtain ⟨r, hr⟩ := subRuns_head (keep := nameChar) x cs
    have hall := subRuns_chars (keep := nameChar) false (x :: cs)
    rw [hr] at hall ⊢
    refine ⟨?_, ?_⟩
    · split
      · next hn => rcases (nameChar_iff x).1 hn with h | h | h | h
                   · exact .inl h
                   · exact .inr (.inl h)
                   · simp [hdig] at h
                   · exact .inr (.inr (.inr h))
      · exact .inr (.inr (.inl rfl))
    · intro y hy
      rcases hall y (List.mem_cons_of_mem _ hy) with h | h
      · rcases (nameChar_iff y).1 h with h | h | h | h <;> simp [h]
      · simp [h]

/-- **C49** The label of every attribute with a non-empty key is legal. -/
theorem C49_label_legal (isdigit : Char → Bool) (hd : DigitOk isdigit) (s : Str) (hs : s ≠ []) : LegalLabel (sanitizeAttribute isdigit s) := by
  cases s with
  | nil => exact absurd rfl hs
  | cons c cs =>
    obtain ⟨x, hx, hdig, _⟩ := lead_head isdigit hd c cs
    rw [sanitizeAttribute, hx]
    obtain ⟨r, hr⟩ := subRuns_head (keep := keyChar) x cs
    have hall := subRuns_chars (keep := keyChar) false (x :: cs)
    rw [hr] at hall ⊢
    refine ⟨?_, ?_⟩
    · split
      · next hn => rcases (keyChar_iff x).1 hn with h | h | h
                   · exact .inl h
                   · exact .inr (.inl h)
                   · simp [hdig] at h
      · exact .inr (.inr rfl)
    · intro y hy
      rcases hall y (List.mem_cons_of_mem _ hy) with h | h
      · rcases (keyChar_iff y).1 h with h | h | h <;> simp [h]
      · simp [h]

theorem legalName_chars {s : Str} (h : LegalName s) : ∀ x ∈ s, nameChar x = true ∨ x = '_' := by
  cases s with
  | nil => simp
  | cons c cs =>
    intro x hx
    rcases List.mem_cons.1 hx with rfl | hx
    · rcases h.1 with h | h | h | h
      · simp [nameChar, h]
      · simp [nameChar, h]
      · exact .inr h
      · simp [nameChar, h]
    · rcases h.2 x hx with h | h | h | h | h
      · simp [nameChar, h]
      · simp [nameChar, h]
      · simp [nameChar, h]
      · exact .inr h
      · simp [nameChar, h]

theorem legalLabel_chars {s : Str} (h : LegalLabel s) : ∀ x ∈ s, keyChar x = true ∨ x = '_' := by
  cases s with
  | nil => simp
  | cons c cs =>
    intro x hx
    rcases List.mem_cons.1 hx with rfl | hx
    · rcases h.1 with h | h | h
      · simp [keyChar, h]
      · simp [keyChar, h]
      · exact .inr h
    · rcases h.2 x hx with h | h | h | h
      · simp [keyChar, h]
      · simp [keyChar, h]
      · simp [keyChar, h]
      · exact .inr h

theorem lead_legal (isdigit : Char → Bool) (hd : DigitOk isdigit) {s : Str} (h : LegalName s) : lead isdigit s = s := by
  cases s with
  | nil => rfl
  | cons c cs =>
    have : isdigit c = false := by rw [hd c (ascii_of_name (legalName_chars h c List.mem_cons_self))]; exact not_dig h.1
    simp [lead, this]

theorem lead_legal_label (isdigit : Char → Bool) (hd : DigitOk isdigit) {s : Str} (h : LegalLabel s) : lead isdigit s = s := by
  cases s with
  | nil => rfl
  | cons c cs =>
    have hn : nameChar c = true ∨ c = '_' := by
      rcases legalLabel_chars h c List.mem_cons_self with h | h
      · rcases (keyChar_iff c).1 h with h | h | h <;> simp [nameChar, h]
      · exact .inr h
    have : isdigit c = false := by
      rw [hd c (ascii_of_name hn)]
      exact not_dig (by rcases h.1 with h | h | h <;> simp [h])
    simp [lead, this]

/-- **C49** Which legal metric names are exposed unchanged: exactly those without two consecutive underscores. What is missing from the
property is that names with two consecutive underscores are legal too, and are changed (`C49_underscores`). -/
theorem C49_unchanged_partial (isdigit : Char → Bool) (hd : DigitOk isdigit) (s : Str) (h : LegalName s) :
    sanitizeFullName isdigit s = s ↔ ¬ ['_', '_'] <:+: s := by
  rw [sanitizeFullName, lead_legal isdigit hd h]
  constructor
  · intro he; rw [← he]; exact (subRuns_noDouble nameChar_underscore false s).1
  · exact subRuns_fix nameChar_underscore false s (by simp) (legalName_chars h)

/-- **C49** Likewise for labels. -/
theorem C49_label_unchanged_partial (isdigit : Char → Bool) (hd : DigitOk isdigit) (s : Str) (h : LegalLabel s) :
    sanitizeAttribute isdigit s = s ↔ ¬ ['_', '_'] <:+: s := by
  rw [sanitizeAttribute, lead_legal_label isdigit hd h]
  constructor
  · intro he; rw [← he]; exact (subRuns_noDouble keyChar_underscore false s).1
  · exact subRuns_fix keyChar_underscore false s (by simp) (legalLabel_chars h)

/-- **C49** Sanitising twice is sanitising once. -/
theorem C49_idempotent (isdigit : Char → Bool) (hd : DigitOk isdigit) (s : Str) :
    sanitizeFullName isdigit (sanitizeFullName isdigit s) = sanitizeFullName isdigit s ∧
    sanitizeAttribute isdigit (sanitizeAttribute isdigit s) = sanitizeAttribute isdigit s := by
  cases s with
  | nil => exact ⟨rfl, rfl⟩
  | cons c cs =>
    exact ⟨(C49_unchanged_partial isdigit hd _ (C49_name_legal isdigit hd (c :: cs) (by simp))).2 (subRuns_noDouble nameChar_underscore false _).1,
      (C49_label_unchanged_partial isdigit hd _ (C49_label_legal isdigit hd (c :: cs) (by simp))).2 (subRuns_noDouble keyChar_underscore false _).1⟩

/-- **C49** The refuted part: a legal name that is changed. -/
theorem C49_underscores (isdigit : Char → Bool) (hd : DigitOk isdigit) :
    LegalName "a__b".toList ∧ sanitizeFullName isdigit "a__b".toList = "a_b".toList := by
  refine ⟨?_, ?_⟩
  · refine ⟨by decide, ?_⟩
    decide
  · rw [sanitizeFullName, lead_legal isdigit hd (show LegalName "a__b".toList from ⟨by decide, by decide⟩)]
    decide

/-- **C49** Labels are not distinct: different attribute keys of one data point may get the same label, `s` and `s` followed by
any characters outside the grammar collide with `s` followed by an underscore. -/
theorem C49_label_collision (isdigit : Char → Bool) (s : Str) (c d : Char) (hs : s ≠ []) (hc : keyChar c = false) (hd : keyChar d = false) :
    sanitizeAttribute isdigit (s ++ [c]) = sanitizeAttribute isdigit (s ++ [d]) := by
  have key : ∀ (run : Bool) (s : Str), subRuns keyChar run (s ++ [c]) = subRuns keyChar run (s ++ [d]) := by
    intro run s
    induction s generalizing run with
    | nil => simp [subRuns, hc, hd]
    | cons x xs ih => simp only [List.cons_append, subRuns, ih]
  cases s with
  | nil => exact absurd rfl hs
  | cons x xs =>
    simp only [sanitizeAttribute, List.cons_append, lead]
    split
    · exact key false ('_' :: xs)
    · exact key false (x :: xs)

/-- Letters, digits, underscores and colons. -/
def UnitChars (s : Str) : Prop := ∀ x ∈ s, isLower x = true ∨ isUpper x = true ∨ isDig x = true ∨ x = '_' ∨ x = ':'

theorem unitChars_sanitize (s : Str) : UnitChars (sanitizeName s) := by
  intro x hx
  rcases subRuns_chars false s x hx with h | h
  · rcases (nameChar_iff x).1 h with h | h | h | h <;> simp [h]
  · simp [h]

instance (s : Str) : Decidable (UnitChars s) := inferInstanceAs (Decidable (∀ x ∈ s, _))

theorem unitChars_get (d : Dict Str Str) (hd : ∀ kv ∈ d, UnitChars kv.2) (k r : Str) (h : Dict.get? d k = some r) : UnitChars r :=
  hd _ (Dict.mem_of_get? _ _ _ h)

theorem unitMappings_ok : ∀ kv ∈ unitMappings, UnitChars kv.2 := by decide +kernel
theorem perMappings_ok : ∀ kv ∈ perMappings, UnitChars kv.2 := by decide +kernel

theorem unitChars_append {a b : Str} (ha : UnitChars a) (hb : UnitChars b) : UnitChars (a ++ b) := by
  intro x hx; rcases List.mem_append.1 hx with h | h
  · exact ha x h
  · exact hb x h

theorem mem_stripBy {p : Char → Bool} {s : Str} {x : Char} (h : x ∈ stripBy p s) : x ∈ s := by
  simp only [stripBy, rstripBy, lstripBy, List.mem_reverse] at h
  have h1 := (List.dropWhile_sublist _).subset h
  exact (List.dropWhile_sublist _).subset (List.mem_reverse.1 h1)

theorem unitChars_mapUnit (u : Str) : UnitChars (mapUnit u) := by
  unfold mapUnit
  simp only
  cases hg : Dict.get? unitMappings (cutAnnotations u) with
  | some r => exact unitChars_get _ unitMappings_ok _ _ hg
  | none =>
    simp only
    unfold ratio
    cases hc : cutC '/' (cutAnnotations u) with
    | mk a o =>
      cases o with
      | none => intro x hx; exact unitChars_sanitize _ x (mem_stripBy hx)
      | some b =>
        simp only
        split
        · intro x hx; exact unitChars_sanitize _ x (mem_stripBy hx)
        · have hb : UnitChars ((Dict.get? perMappings (sanitizeName b)).getD (sanitizeName b)) := by
            cases hg : Dict.get? perMappings (sanitizeName b) with
            | none => exact unitChars_sanitize _
            | some r => exact unitChars_get _ perMappings_ok _ _ hg
          have ha : UnitChars ((Dict.get? unitMappings (sanitizeName a)).getD (sanitizeName a)) := by
            cases hg : Dict.get? unitMappings (sanitizeName a) with
            | none => exact unitChars_sanitize _
            | some r => exact unitChars_get _ unitMappings_ok _ _ hg
          simp only [Option.getD_some]
          split
          · exact unitChars_append (by decide) hb
          · exact unitChars_append (unitChars_append ha (by decide)) hb

/-- **C49** A name with the unit appended, as the client library exposes it, is legal, for all names and units. -/
theorem C49_unit_legal (isdigit : Char → Bool) (hd : DigitOk isdigit) (s u : Str) (hs : s ≠ []) :
    LegalName (sanitizeFullName isdigit s ++ '_' :: mapUnit u) := by
  have h := C49_name_legal isdigit hd s hs
  cases hn : sanitizeFullName isdigit s with
  | nil => rw [hn] at h; exact h.elim
  | cons c cs =>
    rw [hn] at h
    refine ⟨h.1, ?_⟩
    intro x hx
    rcases List.mem_append.1 hx with hx | hx
    · exact h.2 x hx
    · rcases List.mem_cons.1 hx with rfl | hx
      · simp
      · exact unitChars_mapUnit u x hx

example : sanitizeFullName isDig "1.http-server µs".toList = "_http_server_s".toList ∧ mapUnit "{req}/s".toList = "per_second".toList ∧
    mapUnit "By/{x}m".toList = "bytes_per_minute".toList ∧ mapUnit "m/s".toList = "meters_per_second".toList ∧ mapUnit "1".toList = [] ∧
    mapUnit "_foo bar_".toList = "foo_bar".toList ∧ DigitOk isDig := by
  refine ⟨by decide +kernel, by decide +kernel, by decide +kernel, by decide +kernel, by decide +kernel, by decide +kernel, fun _ _ => rfl⟩

end Prom
end Otel
