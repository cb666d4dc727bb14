import Verif.Spec.Rounding
import Verif.Lemmas.Rounding
import Verif.Lemmas.Metrics
import Verif.Props.Metrics
import Verif.Props.Histogram
/-!
# C104: totals of floats
-/
namespace Otel
namespace Rounding
open Metrics

/-! ## Approximation -/

/-- `v` approximates `S`, whose size is at most `A`. -/
def Approx (k : ℕ) (v S A : ℚ) : Prop := Within k S A v ∧ |S| ≤ A

theorem Approx.nonneg {k : ℕ} {v S A : ℚ} (h : Approx k v S A) : 0 ≤ A := le_trans (abs_nonneg S) h.2

theorem Approx.mono {k l : ℕ} {v S A : ℚ} (h : Approx k v S A) (hkl : k ≤ l) : Approx l v S A := by
  refine ⟨le_trans h.1 ?_, h.2⟩
  have : ((1 : ℚ) + 1 / 2 ^ 53) ^ k ≤ (1 + 1 / 2 ^ 53) ^ l := pow_le_pow_right₀ (by norm_num) hkl
  have := mul_le_mul_of_nonneg_right (sub_le_sub_right this 1) h.nonneg
  exact this

theorem Approx.self (v : ℚ) : Approx 0 v v |v| := ⟨by simp [Within], le_rfl⟩

theorem Approx.rn {k : ℕ} {v S A : ℚ} (h : Approx k v S A) (hg : Grid v) : Approx (k + 1) (rn v) S A := by
  refine ⟨?_, h.2⟩
  have h1 := rn_err v hg
  have h2 := h.1
  have h0 := h.nonneg
  unfold Within at *
  have h3 : |v| ≤ (1 + 1 / 2 ^ 53) ^ k * A := by
    have : |v| ≤ |v - S| + |S| := by have := abs_add_le (v - S) S; rwa [sub_add_cancel] at this
    have := h.2
    nlinarith
  have h4 : |Rounding.rn v - S| ≤ |Rounding.rn v - v| + |v - S| := abs_sub_le _ _ _
  have h5 : |v| / 2 ^ 53 ≤ (1 + 1 / 2 ^ 53) ^ k * A / 2 ^ 53 := by gcongr
  have : ((1 + 1 / 2 ^ 53) ^ (k + 1) - 1) * A =
      ((1 + 1 / 2 ^ 53) ^ k - 1) * A + (1 + 1 / 2 ^ 53) ^ k * A / 2 ^ 53 := by
    rw [pow_succ]; ring
  rw [this]; linarith

theorem Approx.add {k : ℕ} {v w S T A B : ℚ} (h : Approx k v S A) (h' : Approx k w T B) : Approx k (v + w) (S + T) (A + B) := by
  refine ⟨?_, le_trans (abs_add_le S T) (add_le_add h.2 h'.2)⟩
  have h1 := h.1
  have h2 := h'.1
  unfold Within at *
  have : |v + w - (S + T)| ≤ |v - S| + |w - T| := by
    have := abs_add_le (v - S) (w - T)
    rwa [show v - S + (w - T) = v + w - (S + T) by ring] at this
  rw [mul_add]; linarith

theorem Approx.neg {k : ℕ} {v S A : ℚ} (h : Approx k v S A) : Approx k (-v) (-S) A := by
  refine ⟨?_, by rw [abs_neg]; exact h.2⟩
  have h1 := h.1
  unfold Within at *
  rwa [show -v - -S = -(v - S) by ring, abs_neg]

/-! ## Python arithmetic -/

theorem toDbl_val (x : Num) : x.toDbl.1 = rn x.val := by
  cases x with
  | int z => rfl
  | flt d => exact (rn_dbl d.1 d.2).symm

theorem grid_val (x : Num) : Grid x.val := by
  cases x with
  | int z => exact Grid.int z
  | flt d => exact d.2.grid

theorem add_val (x y : Num) : (x + y).val = if x.isInt && y.isInt then x.val + y.val else rn (rn x.val + rn y.val) := by
  cases x <;> cases y
  · simp only [Num.isInt, Bool.and_self, if_true]
    exact Int.cast_add _ _
  · simp only [Num.isInt, Bool.and_false, if_neg Bool.false_ne_true]
    rw [← toDbl_val, ← toDbl_val]; rfl
  · simp only [Num.isInt, Bool.false_and, if_neg Bool.false_ne_true]
    rw [← toDbl_val, ← toDbl_val]; rfl
  · simp only [Num.isInt, Bool.and_false, if_neg Bool.false_ne_true]
    rw [← toDbl_val, ← toDbl_val]; rfl

theorem sub_val (x y : Num) : (x - y).val = if x.isInt && y.isInt then x.val - y.val else rn (rn x.val - rn y.val) := by
  cases x <;> cases y
  · simp only [Num.isInt, Bool.and_self, if_true]
    exact Int.cast_sub _ _
  · simp only [Num.isInt, Bool.and_false, if_neg Bool.false_ne_true]
    rw [← toDbl_val, ← toDbl_val]; rfl
  · simp only [Num.isInt, Bool.false_and, if_neg Bool.false_ne_true]
    rw [← toDbl_val, ← toDbl_val]; rfl
  · simp only [Num.isInt, Bool.and_false, if_neg Bool.false_ne_true]
    rw [← toDbl_val, ← toDbl_val]; rfl

theorem zero_val : (0 : Num).val = 0 := by show ((0 : ℤ) : ℚ) = 0; simp

theorem Approx.addNum {k : ℕ} {x y : Num} {S T A B : ℚ} (h : Approx k x.val S A) (h' : Approx k y.val T B) :
    Approx (k + 2) (x + y).val (S + T) (A + B) := by
  rw [add_val]
  split_ifs
  · exact (h.add h').mono (by omega)
  · exact ((h.rn (grid_val x)).add (h'.rn (grid_val y))).rn ((rn_isDbl _).grid.add (rn_isDbl _).grid)

theorem Approx.subNum {k : ℕ} {x y : Num} {S T A B : ℚ} (h : Approx k x.val S A) (h' : Approx k y.val T B) :
    Approx (k + 2) (x - y).val (S - T) (A + B) := by
  rw [sub_val]
  split_ifs
  · rw [sub_eq_add_neg, sub_eq_add_neg]; exact (h.add h'.neg).mono (by omega)
  · have := ((h.rn (grid_val x)).add (h'.rn (grid_val y)).neg)
    rw [← sub_eq_add_neg, ← sub_eq_add_neg] at this
    exact this.rn ((rn_isDbl _).grid.sub (rn_isDbl _).grid)

/-! ## Histories -/

/-- Like `run_eq`, for points that are described rather than determined. -/
theorem run_rel {α P : Type} (m : Machine α P) (R : m.S → List (Cycle α) → Int → List α → List α → Prop)
    (Q : List (Cycle α) → Cycle α → Option P → Prop)
    (hagg : ∀ s past since here all v, R s past since here all → R (m.aggregate s v) past since (here ++ [v]) (all ++ [v]))
    (hcol : ∀ s past since here all t, R s past since here all →
      Q past ⟨since, t, here, all⟩ (m.collect s t).1 ∧
      R (m.collect s t).2 (past ++ [⟨since, t, here, all⟩]) t [] all)
    (l : List (Op α)) (s : m.S) (past : List (Cycle α)) (since : Int) (here all : List α) (h : R s past since here all)
    (i : ℕ) (c : Cycle α) (hc : (cyclesFrom since here all l)[i]? = some c) :
    ∃ o, (m.run s l).2[i]? = some o ∧ Q (past ++ (cyclesFrom since here all l).take i) c o := by
  induction l generalizing s past since here all i with
  | nil => simp [cyclesFrom] at hc
  | cons o l ih =>
    cases o with
    | meas v => exact ih _ _ _ _ _ (hagg s past since here all v h) i hc
    | coll t =>
      obtain ⟨h1, h2⟩ := hcol s past since here all t h
      cases i with
      | zero =>
        simp only [cyclesFrom, List.getElem?_cons_zero, Option.some.injEq] at hc
        subst hc
        exact ⟨_, rfl, by simpa [cyclesFrom] using h1⟩
      | succ i =>
        simp only [cyclesFrom, List.getElem?_cons_succ] at hc
        obtain ⟨o, ho, hq⟩ := ih _ _ _ _ _ h2 i hc
        exact ⟨o, ho, by simpa [cyclesFrom] using hq⟩

theorem total_append (a b : List Num) : total (a ++ b) = total a + total b := by simp [total]
theorem mass_append (a b : List Num) : mass (a ++ b) = mass a + mass b := by simp [mass]
theorem total_one (v : Num) : total [v] = v.val := by simp [total]
theorem mass_one (v : Num) : mass [v] = |v.val| := by simp [mass]

/-- Adding up the measurements of one cycle. -/
theorem cycle_step {here : List Num} {val : Option Num} {v : Num}
    (h : Approx (2 * here.length) (val.getD 0).val (total here) (mass here)) :
    Approx (2 * (here ++ [v]).length) (val.getD 0 + v).val (total (here ++ [v])) (mass (here ++ [v])) := by
  rw [total_append, mass_append, total_one, mass_one]
  have := h.addNum (y := v) ((Approx.self v.val).mono (Nat.zero_le _))
  exact this.mono (by simp; omega)

theorem approx_zero (k : ℕ) : Approx k (0 : Num).val (total []) (mass []) := by
  constructor <;> simp [Within, total, mass, zero_val]

theorem approx_none (k : ℕ) : Approx k ((none : Option Num).getD 0).val (total []) (mass []) := approx_zero k

/-- **C104** Every rounded result is the nearest double. -/
theorem C104_nearest (x : ℚ) : IsDbl (rn x) ∧ ∀ d, IsDbl d → |rn x - x| ≤ |d - x| := ⟨rn_isDbl x, fun d hd => rn_nearest x d hd⟩

/-- **C104** A cumulative point of a synchronous counter is within `(1 + 2^-53)^(2(n+c)) - 1` of the true total of the `n`
measurements so far, relative to their sizes, where `c` is the number of collections. -/
theorem C104_cumulative (start : Int) (l : List (Op Num)) (i : ℕ) (c : Cycle Num) (hc : (cycles start l)[i]? = some c) :
    ∃ p, ((sumM .delta .cumulative start).out l)[i]? = some (some p) ∧ p.start = some start ∧ p.time = c.time ∧
      Within (2 * (c.all.length + (i + 1))) (total c.all) (mass c.all) p.value.val := by
  obtain ⟨o, ho, p, rfl, h1, h2, h3⟩ := run_rel (sumM (α := Num) .delta .cumulative start)
    (fun s past _ here all => s.inst = .delta ∧ s.start = start ∧
      Approx (2 * here.length) (s.value.getD 0).val (total here) (mass here) ∧
      ∃ before, all = before ++ here ∧ Approx (2 * (before.length + past.length)) s.prev.val (total before) (mass before))
    (fun past c o => ∃ p, o = some p ∧ p.start = some start ∧ p.time = c.time ∧
      Within (2 * (c.all.length + (past.length + 1))) (total c.all) (mass c.all) p.value.val)
    (by
      rintro s past since here all v ⟨h1, h2, h3, before, rfl, h4⟩
      exact ⟨h1, h2, by simp only [sumM, SumAgg.aggregate, Option.getD_some]; exact cycle_step h3, before, by simp, h4⟩)
    (by
      rintro s past since here all t ⟨h1, h2, h3, before, rfl, h4⟩
      have key : Approx (2 * ((before ++ here).length + (past.length + 1))) (s.value.getD 0 + s.prev).val
          (total (before ++ here)) (mass (before ++ here)) := by
        rw [total_append, mass_append, add_comm (total before), add_comm (mass before)]
        have := (h3.mono (l := 2 * ((before ++ here).length + past.length)) (by rw [List.length_append]; omega)).addNum
          (h4.mono (l := 2 * ((before ++ here).length + past.length)) (by rw [List.length_append]; omega))
        exact this.mono (by omega)
      simp only [sumM, SumAgg.collect, h1]
      exact ⟨⟨_, rfl, by rw [h2], rfl, key.1⟩, trivial, h2, approx_none _, before ++ here, (List.append_nil _).symm, by rw [List.length_append (as := past)]; exact key⟩)
    l (SumAgg.new .delta start) [] start [] [] ⟨rfl, rfl, approx_none _, [], rfl, approx_zero _⟩ i c hc
  refine ⟨p, ho, h1, h2, ?_⟩
  have hlen : i ≤ (cyclesFrom start [] [] l).length := by
    obtain ⟨hi, _⟩ := List.getElem?_eq_some_iff.mp hc
    exact le_of_lt hi
  simpa [Nat.min_eq_left hlen] using h3

/-- **C104** A delta point of a synchronous counter is within `(1 + 2^-53)^(2n) - 1` of the true total of its `n`
measurements. -/
theorem C104_delta (start : Int) (l : List (Op Num)) (i : ℕ) (c : Cycle Num) (hc : (cycles start l)[i]? = some c) :
    if c.here = [] then ((sumM .delta .delta start).out l)[i]? = some none
    else ∃ p, ((sumM .delta .delta start).out l)[i]? = some (some p) ∧ p.start = some c.since ∧ p.time = c.time ∧
      Within (2 * c.here.length) (total c.here) (mass c.here) p.value.val := by
  obtain ⟨o, ho, hq⟩ := run_rel (sumM (α := Num) .delta .delta start)
    (fun s _ since here _ => s.inst = .delta ∧ s.prevStart = since ∧ (s.value = none ↔ here = []) ∧
      Approx (2 * here.length) (s.value.getD 0).val (total here) (mass here))
    (fun _ c o => if c.here = [] then o = none else ∃ p, o = some p ∧ p.start = some c.since ∧ p.time = c.time ∧
      Within (2 * c.here.length) (total c.here) (mass c.here) p.value.val)
    (by
      rintro s past since here all v ⟨h1, h2, h3, h4⟩
      exact ⟨h1, h2, by simp [sumM, SumAgg.aggregate], by simp only [sumM, SumAgg.aggregate, Option.getD_some]; exact cycle_step h4⟩)
    (by
      rintro s past since here all t ⟨h1, h2, h3, h4⟩
      rcases hv : s.value with _ | v
      · have := h3.mp hv
        subst this
        simp only [sumM, SumAgg.collect, h1, hv]
        exact ⟨by simp, trivial, trivial, by simp, approx_none _⟩
      · have hne : here ≠ [] := fun h => by rw [h3.mpr h] at hv; cases hv
        simp only [sumM, SumAgg.collect, h1, hv]
        rw [hv] at h4
        exact ⟨by rw [if_neg hne]; exact ⟨_, rfl, by rw [h2], rfl, h4.1⟩, trivial, trivial, by simp, approx_none _⟩)
    l (SumAgg.new .delta start) [] start [] [] ⟨rfl, rfl, by simp [sumM, SumAgg.new], approx_none _⟩ i c hc
  split_ifs at hq ⊢ with hh
  · rw [← hq]; exact ho
  · obtain ⟨p, rfl, h⟩ := hq; exact ⟨p, ho, h⟩

/-! ## Exact totals -/

theorem add_exact {x y : Num} (hx : IsDbl x.val) (hy : IsDbl y.val) (h : IsDbl (x.val + y.val)) : (x + y).val = x.val + y.val := by
  rw [add_val, rn_dbl _ hx, rn_dbl _ hy, rn_dbl _ h]; simp

theorem abs_total_le (vs : List Num) : |total vs| ≤ mass vs := by
  induction vs with
  | nil => simp [total, mass]
  | cons v vs ih =>
    simp only [total, mass, List.map_cons, List.sum_cons] at ih ⊢
    exact le_trans (abs_add_le _ _) (by linarith)

theorem mass_nonneg (vs : List Num) : 0 ≤ mass vs := le_trans (abs_nonneg _) (abs_total_le vs)

theorem fits_left {a b : List Num} (h : FitsExactly (a ++ b)) : FitsExactly a := by
  obtain ⟨e, he, hm, hs⟩ := h
  refine ⟨e, he, fun v hv => hm v (List.mem_append_left _ hv), ?_⟩
  rw [mass_append] at hs
  linarith [mass_nonneg b]

theorem fits_right {a b : List Num} (h : FitsExactly (a ++ b)) : FitsExactly b := by
  obtain ⟨e, he, hm, hs⟩ := h
  refine ⟨e, he, fun v hv => hm v (List.mem_append_right _ hv), ?_⟩
  rw [mass_append] at hs
  linarith [mass_nonneg a]

theorem grid_total (e : ℤ) (vs : List Num) (h : ∀ v ∈ vs, ∃ m : ℤ, v.val = m * 2 ^ e) : ∃ m : ℤ, total vs = m * 2 ^ e := by
  induction vs with
  | nil => exact ⟨0, by simp [total]⟩
  | cons v vs ih =>
    obtain ⟨m, hm⟩ := ih (fun w hw => h w (List.mem_cons_of_mem _ hw))
    obtain ⟨n, hn⟩ := h v List.mem_cons_self
    refine ⟨n + m, ?_⟩
    simp only [total, List.map_cons, List.sum_cons] at hm ⊢
    rw [hm, hn]; push_cast; ring

theorem fits_dbl {vs : List Num} (h : FitsExactly vs) : IsDbl (total vs) := by
  obtain ⟨e, he, hm, hs⟩ := h
  obtain ⟨m, hm⟩ := grid_total e vs hm
  refine ⟨m, e, ?_, he, hm⟩
  have h1 := le_trans (abs_total_le vs) hs
  rw [hm, abs_mul, abs_of_pos (two_zpow_pos e)] at h1
  have h2 : |(m : ℚ)| ≤ 2 ^ 53 := le_of_mul_le_mul_right h1 (two_zpow_pos e)
  exact_mod_cast h2

theorem exact_step {here : List Num} {x v : Num} (hf : FitsExactly (here ++ [v])) (h : x.val = total here) :
    (x + v).val = total (here ++ [v]) := by
  have h1 : IsDbl x.val := h ▸ fits_dbl (fits_left hf)
  have h2 : IsDbl v.val := total_one v ▸ fits_dbl (fits_right hf)
  have h3 := fits_dbl hf
  rw [total_append, total_one, ← h] at h3 ⊢
  exact add_exact h1 h2 h3

/-- **C104** A cumulative total is exact as long as the measurements so far take at most 53 bits together: for instance
whole numbers, `int` or `float` or mixed, whose sizes add up to at most 2^53. -/
theorem C104_cumulative_exact (start : Int) (l : List (Op Num)) (i : ℕ) (c : Cycle Num) (hc : (cycles start l)[i]? = some c)
    (hf : FitsExactly c.all) :
    ∃ p, ((sumM .delta .cumulative start).out l)[i]? = some (some p) ∧ p.value.val = total c.all := by
  obtain ⟨o, ho, p, rfl, h⟩ := run_rel (sumM (α := Num) .delta .cumulative start)
    (fun s _ _ here all => s.inst = .delta ∧ ∃ before, all = before ++ here ∧
      (FitsExactly all → (s.value.getD 0).val = total here ∧ s.prev.val = total before))
    (fun _ c o => ∃ p, o = some p ∧ (FitsExactly c.all → p.value.val = total c.all))
    (by
      rintro s past since here all v ⟨h1, before, rfl, h2⟩
      refine ⟨h1, before, by simp, fun hf => ?_⟩
      obtain ⟨h3, h4⟩ := h2 (fits_left hf)
      refine ⟨?_, h4⟩
      simp only [sumM, SumAgg.aggregate, Option.getD_some]
      rw [List.append_assoc] at hf
      exact exact_step (fits_right hf) h3)
    (by
      rintro s past since here all t ⟨h1, before, rfl, h2⟩
      have key : FitsExactly (before ++ here) → (s.value.getD 0 + s.prev).val = total (before ++ here) := by
        intro hf
        obtain ⟨h3, h4⟩ := h2 hf
        have a := fits_dbl (fits_left hf)
        have b := fits_dbl (fits_right hf)
        have c := fits_dbl hf
        rw [total_append, add_comm, ← h3, ← h4] at c ⊢
        rw [← h3] at b
        rw [← h4] at a
        exact add_exact b a c
      simp only [sumM, SumAgg.collect, h1]
      exact ⟨⟨_, rfl, key⟩, trivial, before ++ here, (List.append_nil _).symm, fun hf => ⟨(zero_val : _ = _), key hf⟩⟩)
    l (SumAgg.new .delta start) [] start [] [] ⟨rfl, [], rfl, fun _ => ⟨zero_val, zero_val⟩⟩ i c hc
  exact ⟨p, ho, h hf⟩

/-- **C104** So is a delta point whose measurements take at most 53 bits together, whatever came before. -/
theorem C104_delta_exact (start : Int) (l : List (Op Num)) (i : ℕ) (c : Cycle Num) (hc : (cycles start l)[i]? = some c)
    (hf : FitsExactly c.here) (p : NumPoint Num) (hp : ((sumM .delta .delta start).out l)[i]? = some (some p)) :
    p.value.val = total c.here := by
  obtain ⟨o, ho, h⟩ := run_rel (sumM (α := Num) .delta .delta start)
    (fun s _ _ here _ => s.inst = .delta ∧ (FitsExactly here → (s.value.getD 0).val = total here))
    (fun _ c o => ∀ p, o = some p → FitsExactly c.here → p.value.val = total c.here)
    (by
      rintro s past since here all v ⟨h1, h2⟩
      refine ⟨h1, fun hf => ?_⟩
      simp only [sumM, SumAgg.aggregate, Option.getD_some]
      exact exact_step hf (h2 (fits_left hf)))
    (by
      rintro s past since here all t ⟨h1, h2⟩
      rcases hv : s.value with _ | v
      · simp only [sumM, SumAgg.collect, h1, hv]
        exact ⟨fun p hp => (by cases hp), trivial, fun _ => zero_val⟩
      · rw [hv] at h2
        simp only [sumM, SumAgg.collect, h1, hv]
        refine ⟨fun p hp hf => ?_, trivial, fun _ => zero_val⟩
        cases hp
        exact h2 hf)
    l (SumAgg.new .delta start) [] start [] [] ⟨rfl, fun _ => zero_val⟩ i c hc
  rw [show (((sumM (α := Num) .delta .delta start).run (SumAgg.new .delta start) l).2)[i]? = some (some p) from hp] at ho
  cases ho
  exact h p rfl hf

theorem int_add {x y : Num} (hx : x.isInt = true) (hy : y.isInt = true) : (x + y).isInt = true ∧ (x + y).val = x.val + y.val := by
  refine ⟨?_, by rw [add_val, hx, hy]; simp⟩
  cases x with
  | flt => cases hx
  | int a =>
    cases y with
    | flt => cases hy
    | int b => rfl

/-- **C104** Integers of any size are added exactly, and stay integers. -/
theorem C104_ints_exact (start : Int) (l : List (Op Num)) (i : ℕ) (c : Cycle Num) (hc : (cycles start l)[i]? = some c)
    (hi : ∀ v ∈ c.all, v.isInt = true) :
    ∃ p, ((sumM .delta .cumulative start).out l)[i]? = some (some p) ∧ p.value.isInt = true ∧ p.value.val = total c.all := by
  obtain ⟨o, ho, p, rfl, h⟩ := run_rel (sumM (α := Num) .delta .cumulative start)
    (fun s _ _ here all => s.inst = .delta ∧ ∃ before, all = before ++ here ∧
      ((∀ v ∈ all, v.isInt = true) → ((s.value.getD 0).isInt = true ∧ (s.value.getD 0).val = total here) ∧
        s.prev.isInt = true ∧ s.prev.val = total before))
    (fun _ c o => ∃ p, o = some p ∧ ((∀ v ∈ c.all, v.isInt = true) → p.value.isInt = true ∧ p.value.val = total c.all))
    (by
      rintro s past since here all v ⟨h1, before, rfl, h2⟩
      refine ⟨h1, before, by simp, fun hf => ?_⟩
      obtain ⟨⟨h3, h3'⟩, h4⟩ := h2 (fun w hw => hf w (List.mem_append_left _ hw))
      refine ⟨?_, h4⟩
      simp only [sumM, SumAgg.aggregate, Option.getD_some]
      have := int_add h3 (hf v (List.mem_append_right _ List.mem_cons_self))
      refine ⟨this.1, ?_⟩
      rw [this.2, h3', total_append, total_one])
    (by
      rintro s past since here all t ⟨h1, before, rfl, h2⟩
      have key : (∀ v ∈ before ++ here, v.isInt = true) →
          (s.value.getD 0 + s.prev).isInt = true ∧ (s.value.getD 0 + s.prev).val = total (before ++ here) := by
        intro hf
        obtain ⟨⟨h3, h3'⟩, h4, h4'⟩ := h2 hf
        have := int_add h3 h4
        refine ⟨this.1, ?_⟩
        rw [this.2, h3', h4', total_append, add_comm]
      simp only [sumM, SumAgg.collect, h1]
      exact ⟨⟨_, rfl, key⟩, trivial, before ++ here, (List.append_nil _).symm, fun hf => ⟨⟨(rfl : (0 : Num).isInt = true), zero_val⟩, key hf⟩⟩)
    l (SumAgg.new .delta start) [] start [] [] ⟨rfl, [], rfl, fun _ => ⟨⟨rfl, zero_val⟩, rfl, zero_val⟩⟩ i c hc
  exact ⟨p, ho, h hi⟩

/-! ## Counters that only go up -/

/-- The kinds of numbers whose sums do not go down: closed under addition, and adding something that is not negative
gives at least what there was. -/
structure Kind (K : Num → Prop) : Prop where
  zero : K 0
  add : ∀ x y, K x → K y → K (x + y)
  grows : ∀ x y, K x → K y → 0 ≤ x.val → y.val ≤ (x + y).val

theorem add_nonneg' {x y : Num} (hx : 0 ≤ x.val) (hy : 0 ≤ y.val) : 0 ≤ (x + y).val := by
  rw [add_val]
  split_ifs
  · linarith
  · exact rn_nonneg (add_nonneg (rn_nonneg hx) (rn_nonneg hy))

theorem kind_int : Kind (fun x => x.isInt = true) where
  zero := rfl
  add x y hx hy := (int_add hx hy).1
  grows x y hx hy h := by rw [(int_add hx hy).2]; linarith

theorem kind_flt : Kind (fun x => x.isInt = false ∨ x = 0) where
  zero := Or.inr rfl
  add x y hx hy := by
    rcases hx with hx | rfl <;> rcases hy with hy | rfl
    · left; cases x <;> cases y <;> first | rfl | cases hx | cases hy
    · left; cases x <;> first | rfl | cases hx
    · left; cases y <;> first | rfl | cases hy
    · right; rfl
  grows x y hx hy h := by
    have hd : IsDbl y.val := by
      rcases hy with hy | rfl
      · cases y with
        | int z => cases hy
        | flt d => exact d.2
      · rw [zero_val]; exact (0 : Dbl).2
    rw [add_val]
    split_ifs
    · linarith
    · have := rn_mono (x := y.val) (y := rn x.val + rn y.val) (by rw [rn_dbl _ hd]; linarith [rn_nonneg h])
      rw [rn_dbl _ hd] at this ⊢
      exact this

theorem grows_run {K : Num → Prop} (hK : Kind K) (start : Int) (l : List (Op Num)) (s : SumAgg Num) (hs : s.inst = .delta)
    (hv : K (s.value.getD 0)) (hv0 : 0 ≤ (s.value.getD 0).val) (hp : K s.prev)
    (hm : ∀ v ∈ measurements l, K v ∧ 0 ≤ v.val) :
    let out := ((sumM (α := Num) .delta .cumulative start).run s l).2
    (∀ p, some p ∈ out → s.prev.val ≤ p.value.val) ∧
    out.Pairwise (fun o o' => ∀ p q, o = some p → o' = some q → p.value.val ≤ q.value.val) := by
  induction l generalizing s with
  | nil => exact ⟨fun p hp => (by cases hp), List.Pairwise.nil⟩
  | cons o l ih =>
    cases o with
    | meas v =>
      have hv' := hm v List.mem_cons_self
      exact ih (s.aggregate v) hs (hK.add _ _ hv hv'.1) (add_nonneg' hv0 hv'.2) hp (fun w hw => hm w (List.mem_cons_of_mem _ hw))
    | coll t =>
      have hg := hK.grows _ _ hv hp hv0
      have hc1 : (s.collect .cumulative t).1 = some ⟨some s.start, t, s.value.getD 0 + s.prev⟩ := by
        simp [SumAgg.collect, hs]
      have hc2 : (s.collect .cumulative t).2 = { s with value := none, prev := s.value.getD 0 + s.prev } := by
        simp [SumAgg.collect, hs]
      obtain ⟨i1, i2⟩ := ih (s.collect .cumulative t).2 (by rw [hc2]; exact hs) (by rw [hc2]; exact hK.zero)
        (by rw [hc2]; exact le_of_eq zero_val.symm) (by rw [hc2]; exact hK.add _ _ hv hp) hm
      have ho : ((sumM (α := Num) .delta .cumulative start).run s (.coll t :: l)).2 =
          (s.collect .cumulative t).1 :: ((sumM (α := Num) .delta .cumulative start).run (s.collect .cumulative t).2 l).2 := rfl
      have hprev : (s.collect .cumulative t).2.prev = s.value.getD 0 + s.prev := by rw [hc2]
      rw [hprev] at i1
      simp only [ho, hc1]
      refine ⟨?_, List.pairwise_cons.mpr ⟨?_, i2⟩⟩
      · intro p hp
        rcases List.mem_cons.mp hp with h | h
        · cases h; exact hg
        · exact le_trans hg (i1 p h)
      · intro o' ho' p q hp hq
        cases hp
        subst hq
        exact i1 q ho'

/-- **C104** The cumulative total of a counter never goes down, rounding or not, as long as all its measurements are
`int`s or all are `float`s. -/
theorem C104_monotone (start : Int) (l : List (Op Num)) (h1 : OneType (measurements l)) (h0 : ∀ v ∈ measurements l, 0 ≤ v.val)
    (i j : ℕ) (hij : i < j) (p q : NumPoint Num) (hp : ((sumM .delta .cumulative start).out l)[i]? = some (some p))
    (hq : ((sumM .delta .cumulative start).out l)[j]? = some (some q)) : p.value.val ≤ q.value.val := by
  have key : ((sumM (α := Num) .delta .cumulative start).out l).Pairwise
      (fun o o' => ∀ p q, o = some p → o' = some q → p.value.val ≤ q.value.val) := by
    rcases h1 with h1 | h1
    · exact (grows_run kind_int start l (SumAgg.new .delta start) rfl rfl (le_of_eq zero_val.symm) rfl
        (fun v hv => ⟨h1 v hv, h0 v hv⟩)).2
    · exact (grows_run kind_flt start l (SumAgg.new .delta start) rfl (Or.inr rfl) (le_of_eq zero_val.symm) (Or.inr rfl)
        (fun v hv => ⟨Or.inl (h1 v hv), h0 v hv⟩)).2
  obtain ⟨hi, hp⟩ := List.getElem?_eq_some_iff.mp hp
  obtain ⟨hj, hq⟩ := List.getElem?_eq_some_iff.mp hq
  exact List.pairwise_iff_getElem.mp key i j hi hj hij p q hp hq

/-! ## Observed totals -/

/-- Python's running sum. -/
def runningSum (vs : List Num) : Num := vs.foldl (· + ·) 0

theorem runningSum_snoc (vs : List Num) (v : Num) : runningSum (vs ++ [v]) = runningSum vs + v := by simp [runningSum]

theorem runningSum_approx (vs : List Num) : Approx (2 * vs.length) (runningSum vs).val (total vs) (mass vs) := by
  induction vs using List.reverseRecOn with
  | nil => exact approx_zero _
  | append_singleton vs v ih =>
    rw [runningSum_snoc]
    exact cycle_step (val := some (runningSum vs)) ih

theorem zero_add_val (v : Num) : (0 + v).val = v.val := by
  rw [add_val, zero_val, rn_zero, zero_add, zero_add, rn_dbl _ (rn_isDbl _)]
  cases v with
  | int z => simp [Num.isInt, show (0 : Num).isInt = true from rfl]
  | flt d => simp only [Num.isInt, Bool.and_false, if_neg Bool.false_ne_true]; exact rn_dbl _ d.2

theorem zero_add_isInt (v : Num) : (0 + v).isInt = v.isInt := by cases v <;> rfl

theorem async_delta_out (start : Int) (l : List (Op Num)) (i : ℕ) (c : Cycle Num) (hc : (cycles start l)[i]? = some c) :
    ((sumM .cumulative .delta start).out l)[i]? = some (if c.here = [] then none else
      some ⟨some (((lastSeen ((cycles start l).take i)).map (·.time)).getD start), c.time,
        runningSum c.here - runningSum (lastHere ((cycles start l).take i))⟩) := by
  obtain ⟨o, ho, h⟩ := run_rel (sumM (α := Num) .cumulative .delta start)
    (fun s past _ here _ => s.inst = .cumulative ∧ (s.value = if here = [] then none else some (runningSum here)) ∧
      s.prevStart = ((lastSeen past).map (·.time)).getD start ∧ s.prev = runningSum (lastHere past))
    (fun past c o => o = if c.here = [] then none else
      some ⟨some (((lastSeen past).map (·.time)).getD start), c.time, runningSum c.here - runningSum (lastHere past)⟩)
    (by
      rintro s past since here all v ⟨h1, h2, h3, h4⟩
      refine ⟨h1, ?_, h3, h4⟩
      simp only [sumM, SumAgg.aggregate, h2]
      rw [if_neg (List.append_ne_nil_of_right_ne_nil _ (List.cons_ne_nil _ _)), runningSum_snoc]
      by_cases hh : here = []
      · subst hh; rfl
      · rw [if_neg hh]; rfl)
    (by
      rintro s past since here all t ⟨h1, h2, h3, h4⟩
      by_cases hh : here = []
      · subst hh
        rw [if_pos rfl] at h2
        have e : lastSeen (past ++ [⟨since, t, [], all⟩]) = lastSeen past := by simp [lastSeen]
        simp only [sumM, SumAgg.collect, h1, h2]
        exact ⟨by simp, trivial, by simp, by rw [e]; exact h3, by rw [lastHere, e]; exact h4⟩
      · rw [if_neg hh] at h2
        have e : lastSeen (past ++ [⟨since, t, here, all⟩]) = some ⟨since, t, here, all⟩ := by simp [lastSeen, hh]
        simp only [sumM, SumAgg.collect, h1, h2]
        exact ⟨by rw [if_neg hh, h3, h4], trivial, by simp, by rw [e]; rfl, by rw [lastHere, e]; rfl⟩)
    l (SumAgg.new .cumulative start) [] start [] [] ⟨rfl, rfl, rfl, rfl⟩ i c hc
  rw [List.nil_append] at h
  exact ho.trans (congrArg some h)

/-- **C104** An observable counter read with delta temporality: each point is within `(1 + 2^-53)^(2n+2) - 1` of the true
difference to the last observed cycle, where `n` observations were made in the two together (normally two). -/
theorem C104_observed_delta (start : Int) (l : List (Op Num)) (i : ℕ) (c : Cycle Num) (hc : (cycles start l)[i]? = some c) :
    if c.here = [] then ((sumM .cumulative .delta start).out l)[i]? = some none
    else ∃ p, ((sumM .cumulative .delta start).out l)[i]? = some (some p) ∧
      p.start = some (((lastSeen ((cycles start l).take i)).map (·.time)).getD start) ∧ p.time = c.time ∧
      Within (2 * (c.here.length + (lastHere ((cycles start l).take i)).length) + 2)
        (total c.here - total (lastHere ((cycles start l).take i))) (mass c.here + mass (lastHere ((cycles start l).take i)))
        p.value.val := by
  have h := async_delta_out start l i c hc
  split_ifs at h ⊢ with hh
  · exact h
  · refine ⟨_, h, rfl, rfl, ?_⟩
    exact (Approx.subNum ((runningSum_approx c.here).mono (by omega)) ((runningSum_approx _).mono (by omega))).1

/-- **C104** An observable counter whose callback reports one value per cycle, never smaller than the last, never has a
negative delta, whatever the types and sizes of the values. -/
theorem C104_observed_nonneg (start : Int) (l : List (Op Num)) (i : ℕ) (c : Cycle Num) (hc : (cycles start l)[i]? = some c)
    (v w : Num) (hv : c.here = [v]) (hw : lastHere ((cycles start l).take i) = [w]) (hle : w.val ≤ v.val) :
    ∃ p, ((sumM .cumulative .delta start).out l)[i]? = some (some p) ∧ 0 ≤ p.value.val := by
  have h := async_delta_out start l i c hc
  rw [hv, hw, if_neg (by simp)] at h
  refine ⟨_, h, ?_⟩
  show 0 ≤ ((0 + v) - (0 + w)).val
  rw [sub_val, zero_add_val, zero_add_val]
  split_ifs
  · linarith
  · exact rn_nonneg (by linarith [rn_mono hle])

/-- **C104** If the two values are floats, the delta is the double nearest to the true difference. -/
theorem C104_observed_rounded (start : Int) (l : List (Op Num)) (i : ℕ) (c : Cycle Num) (hc : (cycles start l)[i]? = some c)
    (v w : Num) (hv : c.here = [v]) (hw : lastHere ((cycles start l).take i) = [w]) (fv : v.isInt = false) (fw : w.isInt = false) :
    ∃ p, ((sumM .cumulative .delta start).out l)[i]? = some (some p) ∧
      (∀ d, IsDbl d → |p.value.val - (v.val - w.val)| ≤ |d - (v.val - w.val)|) ∧
      |p.value.val - (v.val - w.val)| ≤ |v.val - w.val| / 2 ^ 53 := by
  have h := async_delta_out start l i c hc
  rw [hv, hw, if_neg (by simp)] at h
  refine ⟨_, h, ?_⟩
  have e : ((0 + v) - (0 + w)).val = rn (v.val - w.val) := by
    rw [sub_val, zero_add_val, zero_add_val, zero_add_isInt, fv, Bool.false_and, if_neg Bool.false_ne_true]
    rw [rn_dbl v.val (by cases v with | int z => cases fv | flt d => exact d.2),
      rn_dbl w.val (by cases w with | int z => cases fw | flt d => exact d.2)]
  show (∀ d, IsDbl d → |((0 + v) - (0 + w)).val - _| ≤ _) ∧ |((0 + v) - (0 + w)).val - _| ≤ _
  rw [e]
  exact ⟨fun d hd => rn_nearest _ d hd, rn_err _ ((grid_val v).sub (grid_val w))⟩

/-! ## Histograms -/

/-- What a histogram reports besides the sum does not depend on how values are added. -/
theorem hist_any_sum {α : Type} [LinearOrder α] (z1 z2 : Zero α) (a1 a2 : Add α) (inst t : Temporality) (start : Int)
    (bounds : List α) (mm : Bool) (l : List (Op α)) (s1 s2 : HistAgg α)
    (h : ∃ x y, s2 = { s1 with sum := x, prevSum := y }) :
    List.Forall₂ (fun o1 o2 => (o1 = none ∧ o2 = none) ∨ ∃ p x, o1 = some p ∧ o2 = some { p with sum := x })
      ((@histM α z1 a1 _ inst t start bounds mm).run s1 l).2 ((@histM α z2 a2 _ inst t start bounds mm).run s2 l).2 := by
  induction l generalizing s1 s2 with
  | nil => exact List.Forall₂.nil
  | cons o l ih =>
    obtain ⟨x, y, rfl⟩ := h
    cases o with
    | meas v => exact ih _ _ ⟨_, y, rfl⟩
    | coll now =>
      refine List.Forall₂.cons ?_ (ih _ _ ?_)
      · simp only [histM, HistAgg.collect]
        cases s1.inst <;> cases t <;> cases s1.value <;> simp [HistAgg.empty]
      · simp only [histM, HistAgg.collect]
        cases s1.inst <;> cases t <;> cases s1.value <;> simp [HistAgg.empty]

theorem forall₂_getElem? {α β : Type} {R : α → β → Prop} {a : List α} {b : List β} (h : List.Forall₂ R a b) (i : ℕ) :
    (a[i]? = none ∧ b[i]? = none) ∨ ∃ x y, a[i]? = some x ∧ b[i]? = some y ∧ R x y := by
  induction h generalizing i with
  | nil => left; simp
  | cons h _ ih =>
    cases i with
    | zero => right; exact ⟨_, _, rfl, rfl, h⟩
    | succ i => simpa using ih i

/-- Some addition for which the theorems about exact histograms can be used. -/
def anyAdd : AddCommMonoid Dbl where
  add a b := if a = 0 then b else if b = 0 then a else max a b
  zero := 0
  add_assoc a b c := by
    show (if (if a = 0 then b else if b = 0 then a else max a b) = 0 then c else if c = 0 then (if a = 0 then b else if b = 0 then a else max a b) else max (if a = 0 then b else if b = 0 then a else max a b) c) =
      (if a = 0 then (if b = 0 then c else if c = 0 then b else max b c) else if (if b = 0 then c else if c = 0 then b else max b c) = 0 then a else max a (if b = 0 then c else if c = 0 then b else max b c))
    have hm : ∀ x y : Dbl, x ≠ 0 → y ≠ 0 → max x y ≠ 0 := by
      intro x y hx hy
      rcases max_choice x y with h | h <;> rw [h] <;> assumption
    by_cases ha : a = 0
    · simp only [if_pos ha]
    · by_cases hb : b = 0
      · simp only [if_neg ha, if_pos hb]
      · by_cases hc : c = 0
        · simp only [if_neg ha, if_neg hb, if_pos hc, if_neg (hm a b ha hb)]
        · simp only [if_neg ha, if_neg hb, if_neg hc, if_neg (hm a b ha hb), if_neg (hm b c hb hc)]
          exact max_assoc a b c
  zero_add a := by show (if (0 : Dbl) = 0 then a else _) = a; exact if_pos rfl
  add_zero a := by
    show (if a = 0 then (0 : Dbl) else if (0 : Dbl) = 0 then a else _) = a
    by_cases h : a = 0
    · rw [if_pos h, h]
    · rw [if_neg h, if_pos rfl]
  add_comm a b := by
    show (if a = 0 then b else if b = 0 then a else max a b) = (if b = 0 then a else if a = 0 then b else max b a)
    by_cases ha : a = 0 <;> by_cases hb : b = 0
    · simp only [if_pos ha, if_pos hb, ha, hb]
    · simp only [if_pos ha, if_neg hb]
    · simp only [if_neg ha, if_pos hb]
    · simp only [if_neg ha, if_neg hb]; exact max_comm a b
  nsmul := @nsmulRec Dbl ⟨0⟩ ⟨fun a b => if a = 0 then b else if b = 0 then a else max a b⟩

theorem butSum {p : HistPoint Dbl} {x : Dbl} {bounds : List Dbl} {mm : Bool} {vs : List Dbl}
    (h : @Describes Dbl anyAdd _ { p with sum := x } bounds mm vs) : DescribesButSum p bounds mm vs := by
  obtain ⟨a, b, c, d, e, _, f, g⟩ := h
  exact ⟨a, b, c, d, e, f, g⟩

theorem Approx.addDbl {k : ℕ} {x y : Dbl} {S T A B : ℚ} (h : Approx k x.1 S A) (h' : Approx k y.1 T B) :
    Approx (k + 1) (x + y).1 (S + T) (A + B) := (h.add h').rn (x.2.grid.add y.2.grid)

theorem hist_step {here : List Dbl} {x v : Dbl} (h : Approx here.length x.1 (total (here.map .flt)) (mass (here.map .flt))) :
    Approx (here ++ [v]).length (x + v).1 (total ((here ++ [v]).map .flt)) (mass ((here ++ [v]).map .flt)) := by
  rw [List.map_append, total_append, mass_append, List.map_singleton, total_one, mass_one, List.length_append]
  exact h.addDbl ((Approx.self v.1).mono (Nat.zero_le _))

theorem hist_nil (k : ℕ) : Approx k (0 : Dbl).1 (total (([] : List Dbl).map .flt)) (mass (([] : List Dbl).map .flt)) := approx_zero k

/-- **C104** A delta histogram of floats: everything but the sum is exact, and the sum is within `(1 + 2^-53)^n - 1` of the
true total of its `n` measurements. -/
theorem C104_histogram_delta (start : Int) (bounds : List Dbl) (hs : bounds.Pairwise (· ≤ ·)) (mm : Bool) (l : List (Op Dbl)) (i : ℕ)
    (c : Cycle Dbl) (hc : (cycles start l)[i]? = some c) :
    if c.here = [] then ((histM .delta .delta start bounds mm).out l)[i]? = some none
    else ∃ p, ((histM .delta .delta start bounds mm).out l)[i]? = some (some p) ∧ p.start = c.since ∧ p.time = c.time ∧
      DescribesButSum p bounds mm c.here ∧
      Within c.here.length (total (c.here.map .flt)) (mass (c.here.map .flt)) p.sum.1 := by
  obtain ⟨o, ho, hq⟩ := run_rel (histM (α := Dbl) .delta .delta start bounds mm)
    (fun s _ _ here _ => s.inst = .delta ∧ Approx here.length s.sum.1 (total (here.map .flt)) (mass (here.map .flt)))
    (fun _ c o => ∀ p, o = some p → Within c.here.length (total (c.here.map .flt)) (mass (c.here.map .flt)) p.sum.1)
    (by rintro s past since here all v ⟨h1, h2⟩; exact ⟨h1, hist_step h2⟩)
    (by
      rintro s past since here all t ⟨h1, h2⟩
      rcases hv : s.value with _ | v
      · simp only [histM, HistAgg.collect, h1, hv]
        exact ⟨fun p hp => (by cases hp), trivial, hist_nil _⟩
      · simp only [histM, HistAgg.collect, h1, hv]
        exact ⟨fun p hp => (by cases hp; exact h2.1), trivial, hist_nil _⟩)
    l (HistAgg.new .delta start bounds mm) [] start [] [] ⟨rfl, hist_nil _⟩ i c hc
  have ho' : ((histM (α := Dbl) .delta .delta start bounds mm).out l)[i]? = some o := ho
  have hsim := hist_any_sum (α := Dbl) inferInstance anyAdd.toZero inferInstance anyAdd.toAdd .delta .delta start bounds mm l
    (HistAgg.new .delta start bounds mm) (@HistAgg.new Dbl anyAdd.toZero .delta start bounds mm) ⟨_, _, rfl⟩
  have hex := @C30_delta Dbl anyAdd _ start bounds hs mm l i c hc
  split_ifs at hex ⊢ with hh
  · have := forall₂_getElem? hsim i
    rcases this with ⟨h, _⟩ | ⟨o1, o2, h1, h2, h3⟩
    · cases h.symm.trans ho
    · cases Option.some.inj (h2.symm.trans hex)
      rcases h3 with ⟨rfl, _⟩ | ⟨p, x, _, h⟩
      · exact h1
      · cases h
  · obtain ⟨p', hp', e1, e2, hd⟩ := hex
    rcases forall₂_getElem? hsim i with ⟨h, _⟩ | ⟨o1, o2, h1, h2, h3⟩
    · cases h.symm.trans ho
    · cases Option.some.inj (h2.symm.trans hp')
      rcases h3 with ⟨_, h⟩ | ⟨p, x, rfl, h⟩
      · cases h
      · cases h
        cases Option.some.inj (ho.symm.trans h1)
        exact ⟨p, h1, e1, e2, butSum hd, hq p rfl⟩

/-- **C104** A cumulative histogram of floats: everything but the sum is exact, and the sum is within
`(1 + 2^-53)^(n+c) - 1` of the true total of the `n` measurements so far, after `c` collections. -/
theorem C104_histogram_cumulative (start : Int) (bounds : List Dbl) (hs : bounds.Pairwise (· ≤ ·)) (mm : Bool) (l : List (Op Dbl)) (i : ℕ)
    (c : Cycle Dbl) (hc : (cycles start l)[i]? = some c) :
    ∃ p, ((histM .delta .cumulative start bounds mm).out l)[i]? = some (some p) ∧ p.start = start ∧ p.time = c.time ∧
      DescribesButSum p bounds mm c.all ∧
      Within (c.all.length + (i + 1)) (total (c.all.map .flt)) (mass (c.all.map .flt)) p.sum.1 := by
  obtain ⟨o, ho, hq⟩ := run_rel (histM (α := Dbl) .delta .cumulative start bounds mm)
    (fun s past _ here all => s.inst = .delta ∧ Approx here.length s.sum.1 (total (here.map .flt)) (mass (here.map .flt)) ∧
      ∃ before, all = before ++ here ∧
        Approx (before.length + past.length) s.prevSum.1 (total (before.map .flt)) (mass (before.map .flt)))
    (fun past c o => ∀ p, o = some p →
      Within (c.all.length + (past.length + 1)) (total (c.all.map .flt)) (mass (c.all.map .flt)) p.sum.1)
    (by
      rintro s past since here all v ⟨h1, h2, before, rfl, h3⟩
      exact ⟨h1, hist_step h2, before, by simp, h3⟩)
    (by
      rintro s past since here all t ⟨h1, h2, before, rfl, h3⟩
      have key : Approx ((before ++ here).length + (past.length + 1)) (s.sum + s.prevSum).1
          (total ((before ++ here).map .flt)) (mass ((before ++ here).map .flt)) := by
        rw [List.map_append, total_append, mass_append, add_comm (total (before.map _)), add_comm (mass (before.map _))]
        have := (h2.mono (l := (before ++ here).length + past.length) (by rw [List.length_append]; omega)).addDbl
          (h3.mono (l := (before ++ here).length + past.length) (by rw [List.length_append]; omega))
        exact this.mono (by omega)
      simp only [histM, HistAgg.collect, h1]
      exact ⟨fun p hp => (by cases hp; exact key.1), trivial, hist_nil _, before ++ here, (List.append_nil _).symm,
        by rw [List.length_append (as := past)]; exact key⟩)
    l (HistAgg.new .delta start bounds mm) [] start [] [] ⟨rfl, hist_nil _, [], rfl, hist_nil _⟩ i c hc
  have hsim := hist_any_sum (α := Dbl) inferInstance anyAdd.toZero inferInstance anyAdd.toAdd .delta .cumulative start bounds mm l
    (HistAgg.new .delta start bounds mm) (@HistAgg.new Dbl anyAdd.toZero .delta start bounds mm) ⟨_, _, rfl⟩
  obtain ⟨p', hp', e1, e2, hd⟩ := @C30_cumulative Dbl anyAdd _ start bounds hs mm l i c hc
  have hlen : i ≤ (cyclesFrom start [] [] l).length := by
    obtain ⟨hi, _⟩ := List.getElem?_eq_some_iff.mp hc
    exact le_of_lt hi
  rcases forall₂_getElem? hsim i with ⟨h, _⟩ | ⟨o1, o2, h1, h2, h3⟩
  · cases h.symm.trans ho
  · cases Option.some.inj (h2.symm.trans hp')
    rcases h3 with ⟨_, h⟩ | ⟨p, x, rfl, h⟩
    · cases h
    · cases h
      cases Option.some.inj (ho.symm.trans h1)
      refine ⟨p, h1, e1, e2, butSum hd, ?_⟩
      have := hq p rfl
      simpa [Nat.min_eq_left hlen] using this

/-! ## What rounding costs -/

/-- **C104** (refuted) A counter that takes both integers and floats can go down: after `add(2^53 + 1)`, `add(0.5)` makes
the cumulative total one less, although everything added is positive. -/
theorem C104_mixed_violated :
    ∃ l : List (Op Num), (∀ v ∈ measurements l, 0 < v.val) ∧
      ∃ p q, (sumM .delta .cumulative 0).out l = [some p, some q] ∧ q.value.val < p.value.val :=
  ⟨[.meas (.int (2 ^ 53 + 1)), .coll 1, .meas (.flt (Dbl.ofRat (1 / 2))), .coll 2], by decide +kernel,
    ⟨some 0, 1, .int (2 ^ 53 + 1)⟩, ⟨some 0, 2, .flt (Dbl.ofRat (2 ^ 53))⟩, by decide +kernel, by decide +kernel⟩

theorem stuck_add : (0 + Num.flt (Dbl.ofRat 1)) + Num.flt (Dbl.ofRat (2 ^ 53)) = Num.flt (Dbl.ofRat (2 ^ 53)) := by decide +kernel
theorem stuck_one : (0 : Num) + Num.flt (Dbl.ofRat 1) = Num.flt (Dbl.ofRat 1) := by decide +kernel
theorem stuck_first : ((0 : Num) + Num.flt (Dbl.ofRat (2 ^ 53))) + 0 = Num.flt (Dbl.ofRat (2 ^ 53)) := by decide +kernel

theorem stuck_cumulative (n : ℕ) (s : SumAgg Num) (h1 : s.inst = .delta) (h2 : s.value = none)
    (h3 : s.prev = .flt (Dbl.ofRat (2 ^ 53))) :
    ((sumM (α := Num) .delta .cumulative 0).run s (addOnes n)).2 =
      List.replicate n (some ⟨some s.start, 1, .flt (Dbl.ofRat (2 ^ 53))⟩) := by
  induction n generalizing s with
  | zero => rfl
  | succ n ih =>
    have e : ((s.aggregate (.flt (Dbl.ofRat 1))).collect .cumulative 1) =
        (some ⟨some s.start, 1, .flt (Dbl.ofRat (2 ^ 53))⟩, { s with value := none, prev := .flt (Dbl.ofRat (2 ^ 53)) }) := by
      simp only [SumAgg.aggregate, SumAgg.collect, h1, h2, h3, Option.getD_none, Option.getD_some, stuck_add]
    have h := ih { s with value := none, prev := .flt (Dbl.ofRat (2 ^ 53)) } h1 rfl rfl
    exact congrArg₂ List.cons (congrArg Prod.fst e) ((congrArg (fun st => ((sumM (α := Num) .delta .cumulative 0).run st
      (addOnes n)).2) (congrArg Prod.snd e)).trans h)

theorem stuck_delta (n : ℕ) (s : SumAgg Num) (h1 : s.inst = .delta) (h2 : s.value = none) :
    (((sumM (α := Num) .delta .delta 0).run s (addOnes n)).2).map
      (·.map (·.value)) = List.replicate n (some (.flt (Dbl.ofRat 1))) := by
  induction n generalizing s with
  | zero => rfl
  | succ n ih =>
    have e : ((s.aggregate (.flt (Dbl.ofRat 1))).collect .delta 1) =
        (some ⟨some s.prevStart, 1, .flt (Dbl.ofRat 1)⟩, { s with value := none, prevStart := 1 }) := by
      simp only [SumAgg.aggregate, SumAgg.collect, h1, h2, Option.getD_none, stuck_one]
    have h := ih { s with value := none, prevStart := 1 } h1 rfl
    exact congrArg₂ List.cons (congrArg (fun r => r.1.map NumPoint.value) e) ((congrArg (fun st => (((sumM (α := Num) .delta .delta 0).run st
      (addOnes n)).2).map (·.map (·.value))) (congrArg Prod.snd e)).trans h)

/-- **C104** (refuted) The cumulative total is not what the delta points add up to: a float counter that has reached 2^53
stays there for ever if it is collected after every `add(1.0)`, while a delta reader is given 1.0 each time. -/
theorem C104_stuck_violated (n : ℕ) :
    ((sumM .delta .cumulative 0).out (stuckHistory n)).map (·.map (·.value.val)) = List.replicate (n + 1) (some (2 ^ 53)) ∧
    ((sumM .delta .delta 0).out (stuckHistory n)).map (·.map (·.value.val)) = some (2 ^ 53) :: List.replicate n (some 1) := by
  have v53 : (Num.flt (Dbl.ofRat (2 ^ 53))).val = 2 ^ 53 := by decide +kernel
  have v1 : (Num.flt (Dbl.ofRat 1)).val = 1 := by decide +kernel
  constructor
  · have e : ((SumAgg.new (α := Num) .delta 0).aggregate (.flt (Dbl.ofRat (2 ^ 53)))).collect .cumulative 0 =
        (some ⟨some 0, 0, .flt (Dbl.ofRat (2 ^ 53))⟩,
          { SumAgg.new (α := Num) .delta 0 with value := none, prev := .flt (Dbl.ofRat (2 ^ 53)) }) := by
      simp only [SumAgg.new, SumAgg.aggregate, SumAgg.collect, Option.getD_none, Option.getD_some, stuck_first]
    have h := stuck_cumulative n { SumAgg.new (α := Num) .delta 0 with value := none, prev := .flt (Dbl.ofRat (2 ^ 53)) } rfl rfl rfl
    have out : (sumM (α := Num) .delta .cumulative 0).out (stuckHistory n) =
        some ⟨some 0, 0, .flt (Dbl.ofRat (2 ^ 53))⟩ :: List.replicate n (some ⟨some 0, 1, .flt (Dbl.ofRat (2 ^ 53))⟩) :=
      congrArg₂ List.cons (congrArg Prod.fst e) ((congrArg (fun st => ((sumM (α := Num) .delta .cumulative 0).run st
        (addOnes n)).2) (congrArg Prod.snd e)).trans h)
    rw [out, List.map_cons, List.map_replicate, List.replicate_succ]
    simp only [Option.map_some, v53]
  · have e : ((SumAgg.new (α := Num) .delta 0).aggregate (.flt (Dbl.ofRat (2 ^ 53)))).collect .delta 0 =
        (some ⟨some 0, 0, .flt (Dbl.ofRat (2 ^ 53))⟩, { SumAgg.new (α := Num) .delta 0 with value := none, prevStart := 0 }) := by
      simp only [SumAgg.new, SumAgg.aggregate, SumAgg.collect, Option.getD_none]
      rw [show (0 : Num) + Num.flt (Dbl.ofRat (2 ^ 53)) = Num.flt (Dbl.ofRat (2 ^ 53)) by decide +kernel]
    have h := stuck_delta n { SumAgg.new (α := Num) .delta 0 with value := none, prevStart := 0 } rfl rfl
    have out : ((sumM (α := Num) .delta .delta 0).out (stuckHistory n)).map (·.map (·.value)) =
        some (.flt (Dbl.ofRat (2 ^ 53))) :: List.replicate n (some (.flt (Dbl.ofRat 1))) :=
      congrArg₂ List.cons (congrArg (fun r => r.1.map NumPoint.value) e) ((congrArg (fun st => (((sumM (α := Num) .delta .delta 0).run st
        (addOnes n)).2).map (·.map (·.value))) (congrArg Prod.snd e)).trans h)
    have := congrArg (List.map (Option.map Num.val)) out
    rw [List.map_map, List.map_cons, List.map_replicate] at this
    simp only [Option.map_some, v53, v1] at this
    rw [← this]
    apply List.map_congr_left
    intro o _
    cases o <;> rfl

/-! ## The hypotheses can be met -/

/-- Ten times `add(0.1)` is not 1.0, but within the bound; half an hour in milliseconds adds up exactly. -/
example : ((sumM (α := Num) .delta .cumulative 0).out ((List.replicate 10 (.meas (.flt (Dbl.ofRat (1 / 10))))) ++ [.coll 1])).map (·.map (·.value.val)) =
    [some (9007199254740991 / 9007199254740992)] := by decide +kernel

example : FitsExactly [.int 1800000, .flt (Dbl.ofRat (1 / 2)), .int 7] :=
  ⟨-1, by norm_num, by
    intro v hv
    simp only [List.mem_cons, List.not_mem_nil, or_false] at hv
    rcases hv with rfl | rfl | rfl
    · exact ⟨3600000, by decide +kernel⟩
    · exact ⟨1, by decide +kernel⟩
    · exact ⟨14, by decide +kernel⟩, by decide +kernel⟩

example : OneType [.flt (Dbl.ofRat (1 / 10)), .flt (Dbl.ofRat 3)] := Or.inr (by decide +kernel)

end Rounding
end Otel
