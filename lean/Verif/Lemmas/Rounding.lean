import Verif.Model.Rounding
import Mathlib.Tactic.Linarith
import Mathlib.Tactic.Ring
import Mathlib.Tactic.FieldSimp
import Mathlib.Tactic.Positivity
import Mathlib.Tactic.GCongr
/-!
# Facts about rounding to double precision
-/
namespace Otel
namespace Rounding

theorem roundEven_err (q : ℚ) : |(roundEven q : ℚ) - q| ≤ 1 / 2 := by
  have h0 := Int.floor_le q
  have h1 := Int.lt_floor_add_one q
  rw [abs_le]
  unfold roundEven
  split_ifs <;> push_cast <;> constructor <;> linarith

/-- The rounded value is the nearest integer. -/
theorem roundEven_nearest (q : ℚ) (n : ℤ) : |(roundEven q : ℚ) - q| ≤ |(n : ℚ) - q| := by
  by_contra h
  rw [not_le] at h
  have he := roundEven_err q
  have hne : roundEven q ≠ n := by rintro rfl; exact lt_irrefl _ h
  have h1 : (1 : ℚ) ≤ |(roundEven q : ℚ) - n| := by
    have : (1 : ℤ) ≤ |roundEven q - n| := Int.one_le_abs (sub_ne_zero.mpr hne)
    exact_mod_cast this
  have h2 : |(roundEven q : ℚ) - n| ≤ |(roundEven q : ℚ) - q| + |(n : ℚ) - q| := by
    rw [abs_sub_comm (n : ℚ) q]; exact abs_sub_le _ _ _
  linarith

theorem roundEven_neg (q : ℚ) : roundEven (-q) = -roundEven q := by
  have h0 := Int.floor_le q
  have h1 := Int.lt_floor_add_one q
  by_cases hi : q = ⌊q⌋
  · rw [hi, ← Int.cast_neg, roundEven_int, roundEven_int]
  · have hlt : (⌊q⌋ : ℚ) < q := lt_of_le_of_ne h0 (Ne.symm hi)
    have hf : ⌊-q⌋ = -⌊q⌋ - 1 := by
      rw [Int.floor_eq_iff]; push_cast; constructor <;> linarith
    unfold roundEven
    rw [hf]
    push_cast
    split_ifs <;> first | omega | (exfalso; linarith)

theorem ulpExp_neg (x : ℚ) : ulpExp (-x) = ulpExp x := by unfold ulpExp; rw [abs_neg]

theorem rn_neg (x : ℚ) : rn (-x) = -rn x := by
  unfold rn
  rw [ulpExp_neg, neg_div, roundEven_neg]; push_cast; ring

theorem rn_zero : rn 0 = 0 := by
  unfold rn
  rw [zero_div]
  have := roundEven_int 0
  push_cast at this
  rw [this]; simp

/-- A multiple of the last place is not changed. -/
theorem rn_of_mul (x : ℚ) (k : ℤ) (h : x = k * 2 ^ ulpExp x) : rn x = x := by
  have hp := two_zpow_pos (ulpExp x)
  have : x / 2 ^ ulpExp x = k := by rw [div_eq_iff hp.ne']; exact h
  unfold rn
  rw [this, roundEven_int]; exact h.symm

/-- A multiple of a power of two is a multiple of any smaller one. -/
theorem mul_finer (m e e' : ℤ) (h : e' ≤ e) : ∃ k : ℤ, (m : ℚ) * 2 ^ e = k * 2 ^ e' := by
  obtain ⟨n, rfl⟩ := Int.le.dest h
  refine ⟨m * 2 ^ n, ?_⟩
  rw [zpow_add₀ (by norm_num)]; push_cast; rw [zpow_natCast]; ring

/-- Doubles are not changed by rounding. -/
theorem rn_dbl (x : ℚ) (h : IsDbl x) : rn x = x := by
  obtain ⟨m, e, hm, he, rfl⟩ := h
  by_cases h0 : m = 0
  · subst h0; simp [rn_zero]
  have hxpos : (0 : ℚ) < |(m : ℚ) * 2 ^ e| := abs_pos.mpr (mul_ne_zero (by exact_mod_cast h0) (two_zpow_pos e).ne')
  rcases lt_or_eq_of_le hm with hlt | heq
  · have hlog : Int.log 2 |(m : ℚ) * 2 ^ e| < e + 53 := by
      rw [← Int.lt_zpow_iff_log_lt (by norm_num) hxpos, abs_mul, abs_of_pos (two_zpow_pos e), zpow_add₀ (by norm_num)]
      have : (|(m : ℚ)|) < 2 ^ 53 := by exact_mod_cast hlt
      have e' : (2 : ℚ) ^ (53 : ℤ) = 2 ^ 53 := by norm_cast
      have h2 : (((2 : ℕ) : ℚ)) = 2 := by norm_num
      rw [h2, e', mul_comm]
      exact mul_lt_mul_of_pos_left this (two_zpow_pos _)
    have hle : ulpExp ((m : ℚ) * 2 ^ e) ≤ e := by unfold ulpExp; exact max_le (by omega) he
    obtain ⟨k, hk⟩ := mul_finer m e _ hle
    exact rn_of_mul _ k hk
  · have habs : |(m : ℚ) * 2 ^ e| = ((2 : ℕ) : ℚ) ^ (e + 53) := by
      rw [abs_mul, abs_of_pos (two_zpow_pos e), zpow_add₀ (by norm_num)]
      have : (|(m : ℚ)|) = 2 ^ 53 := by exact_mod_cast heq
      have h2 : (((2 : ℕ) : ℚ)) = 2 := by norm_num
      have e' : (2 : ℚ) ^ (53 : ℤ) = 2 ^ 53 := by norm_cast
      rw [this, h2, e']; ring
    have hu : ulpExp ((m : ℚ) * 2 ^ e) = e + 1 := by
      unfold ulpExp
      rw [habs, Int.log_zpow (by norm_num)]
      rw [max_eq_left (by omega)]; ring
    have h2 : (2 : ℤ) ∣ m := by
      rcases abs_choice m with h | h <;> omega
    obtain ⟨n, rfl⟩ := h2
    refine rn_of_mul _ n ?_
    rw [hu, zpow_add₀ (by norm_num)]; push_cast; ring

theorem abs_lt_ulp (x : ℚ) : |x| < 2 ^ (ulpExp x + 53) := by
  refine lt_of_lt_of_le (Int.lt_zpow_succ_log_self (b := 2) (by norm_num) |x|) ?_
  push_cast
  refine zpow_le_zpow_right₀ (by norm_num) ?_
  have := le_max_left (Int.log 2 |x| - 52) (-1074)
  unfold ulpExp; omega

theorem isDbl_zpow (e : ℤ) (h : -1074 ≤ e) : IsDbl (2 ^ e) := ⟨1, e, by norm_num, h, by simp⟩

/-- Rounding within one binade keeps the order. -/
theorem rn_mono_same {x y : ℚ} (h : x ≤ y) (he : ulpExp x = ulpExp y) : rn x ≤ rn y := by
  unfold rn
  rw [he]
  have hp := two_zpow_pos (ulpExp y)
  have : roundEven (x / 2 ^ ulpExp y) ≤ roundEven (y / 2 ^ ulpExp y) := roundEven_mono (by gcongr)
  have : ((roundEven (x / 2 ^ ulpExp y) : ℤ) : ℚ) ≤ (roundEven (y / 2 ^ ulpExp y) : ℤ) := by exact_mod_cast this
  gcongr

theorem rn_nonneg {x : ℚ} (h : 0 ≤ x) : 0 ≤ rn x := by
  unfold rn
  have hp := two_zpow_pos (ulpExp x)
  have := roundEven_mono (p := ((0 : ℤ) : ℚ)) (q := x / 2 ^ ulpExp x) (by push_cast; positivity)
  rw [roundEven_int] at this
  have : (0 : ℚ) ≤ (roundEven (x / 2 ^ ulpExp x) : ℤ) := by exact_mod_cast this
  positivity

/-- A double above a positive number stays above after rounding. -/
theorem rn_le_top (x : ℚ) : rn x ≤ 2 ^ (ulpExp x + 53) := by
  have hp := two_zpow_pos (ulpExp x)
  have h : x / 2 ^ ulpExp x ≤ ((2 ^ 53 : ℤ) : ℚ) := by
    have hlt := abs_lt_ulp x
    rw [div_le_iff₀ hp]
    rw [zpow_add₀ (by norm_num : (2 : ℚ) ≠ 0)] at hlt
    push_cast
    have e : (2 : ℚ) ^ (53 : ℤ) = 2 ^ 53 := by norm_cast
    rw [e] at hlt
    linarith [mul_comm ((2 : ℚ) ^ 53) (2 ^ ulpExp x), le_abs_self x]
  have := roundEven_mono h
  rw [roundEven_int] at this
  have : ((roundEven (x / 2 ^ ulpExp x) : ℤ) : ℚ) ≤ 2 ^ 53 := by exact_mod_cast this
  unfold rn
  rw [zpow_add₀ (by norm_num)]
  have e : (2 : ℚ) ^ (53 : ℤ) = 2 ^ 53 := by norm_cast
  rw [e, mul_comm]
  gcongr

theorem rn_mono_pos {x y : ℚ} (h0 : 0 < x) (h : x ≤ y) : rn x ≤ rn y := by
  have hy : 0 < y := lt_of_lt_of_le h0 h
  have hle : ulpExp x ≤ ulpExp y := by
    unfold ulpExp
    rw [abs_of_pos h0, abs_of_pos hy]
    have := Int.log_mono_right (b := 2) h0 h
    exact max_le_max (by omega) le_rfl
  rcases eq_or_lt_of_le hle with he | he
  · exact rn_mono_same h he
  · have hnt : ulpExp y = Int.log 2 y - 52 := by
      unfold ulpExp at he ⊢
      rw [abs_of_pos hy] at he ⊢
      have : -1074 < max (Int.log 2 y - 52) (-1074) := lt_of_le_of_lt (le_max_right _ _) he
      rcases le_total (Int.log 2 y - 52) (-1074) with h | h
      · rw [max_eq_right h] at this; omega
      · rw [max_eq_left h]
    have hge : -1074 ≤ ulpExp x := le_max_right _ _
    have hpow : (2 : ℚ) ^ (Int.log 2 y) ≤ y := by
      have := Int.zpow_log_le_self (b := 2) (by norm_num) hy; simpa using this
    have hu : ulpExp ((2 : ℚ) ^ (Int.log 2 y)) = ulpExp y := by
      unfold ulpExp
      rw [abs_of_pos (two_zpow_pos _), abs_of_pos hy]
      have := Int.log_zpow (R := ℚ) (b := 2) (by norm_num) (Int.log 2 y)
      push_cast at this
      rw [this]
    calc rn x ≤ 2 ^ (ulpExp x + 53) := rn_le_top x
      _ ≤ 2 ^ (Int.log 2 y) := zpow_le_zpow_right₀ (by norm_num) (by omega)
      _ = rn (2 ^ (Int.log 2 y)) := (rn_dbl _ (isDbl_zpow _ (by omega))).symm
      _ ≤ rn y := rn_mono_same hpow hu

/-- Rounding keeps the order. -/
theorem rn_mono {x y : ℚ} (h : x ≤ y) : rn x ≤ rn y := by
  rcases lt_trichotomy x 0 with hx | hx | hx
  · rcases le_or_gt 0 y with hy | hy
    · have := rn_nonneg (x := -x) (by linarith)
      rw [rn_neg] at this
      exact le_trans (by linarith) (rn_nonneg hy)
    · have := rn_mono_pos (x := -y) (y := -x) (by linarith) (by linarith)
      rw [rn_neg, rn_neg] at this
      linarith
  · subst hx; rw [rn_zero]; exact rn_nonneg h
  · exact rn_mono_pos hx h

/-- The multiples of the smallest positive double. -/
def Grid (x : ℚ) : Prop := ∃ k : ℤ, x = k * 2 ^ (-1074 : ℤ)

theorem IsDbl.grid {x : ℚ} (h : IsDbl x) : Grid x := by
  obtain ⟨m, e, _, he, rfl⟩ := h
  exact mul_finer m e _ he

theorem Grid.int (z : ℤ) : Grid z := by
  obtain ⟨k, hk⟩ := mul_finer z 0 (-1074) (by norm_num)
  exact ⟨k, by rw [← hk]; simp⟩

theorem Grid.add {x y : ℚ} (hx : Grid x) (hy : Grid y) : Grid (x + y) := by
  obtain ⟨a, rfl⟩ := hx; obtain ⟨b, rfl⟩ := hy
  exact ⟨a + b, by push_cast; ring⟩

theorem Grid.sub {x y : ℚ} (hx : Grid x) (hy : Grid y) : Grid (x - y) := by
  obtain ⟨a, rfl⟩ := hx; obtain ⟨b, rfl⟩ := hy
  exact ⟨a - b, by push_cast; ring⟩

/-- Half a unit in the last place. -/
theorem rn_half_ulp (x : ℚ) : |rn x - x| ≤ 2 ^ ulpExp x / 2 := by
  have hp := two_zpow_pos (ulpExp x)
  have h := roundEven_err (x / 2 ^ ulpExp x)
  have : rn x - x = ((roundEven (x / 2 ^ ulpExp x) : ℤ) - x / 2 ^ ulpExp x) * 2 ^ ulpExp x := by
    unfold rn; field_simp
  rw [this, abs_mul, abs_of_pos hp]
  have := mul_le_mul_of_nonneg_right h hp.le
  linarith

/-- The relative error of rounding a sum or difference of doubles and integers is at most 2^-53. -/
theorem rn_err (x : ℚ) (hg : Grid x) : |rn x - x| ≤ |x| / 2 ^ 53 := by
  by_cases h0 : x = 0
  · subst h0; simp [rn_zero]
  have hpos : 0 < |x| := abs_pos.mpr h0
  by_cases hu : ulpExp x = -1074
  · obtain ⟨k, hk⟩ := hg
    rw [rn_of_mul x k (by rw [hu]; exact hk), sub_self, abs_zero]
    positivity
  · have hu' : ulpExp x = Int.log 2 |x| - 52 := by
      unfold ulpExp at hu ⊢
      rcases max_choice (Int.log 2 |x| - 52) (-1074) with h | h
      · exact h
      · exact absurd h hu
    refine le_trans (rn_half_ulp x) ?_
    have := Int.zpow_log_le_self (b := 2) (by norm_num) hpos
    push_cast at this
    rw [hu', zpow_sub₀ (by norm_num), div_div]
    have e : (2 : ℚ) ^ (52 : ℤ) * 2 = 2 ^ 53 := by norm_num
    rw [e]
    gcongr

/-- The rounded value is a nearest double. -/
theorem rn_nearest (x d : ℚ) (hd : IsDbl d) : |rn x - x| ≤ |d - x| := by
  have hp := two_zpow_pos (ulpExp x)
  have grid : ∀ k : ℤ, |rn x - x| ≤ |(k : ℚ) * 2 ^ ulpExp x - x| := by
    intro k
    have h := roundEven_nearest (x / 2 ^ ulpExp x) k
    have e1 : rn x - x = ((roundEven (x / 2 ^ ulpExp x) : ℤ) - x / 2 ^ ulpExp x) * 2 ^ ulpExp x := by
      unfold rn; field_simp
    have e2 : (k : ℚ) * 2 ^ ulpExp x - x = (k - x / 2 ^ ulpExp x) * 2 ^ ulpExp x := by field_simp
    rw [e1, e2, abs_mul, abs_mul]
    exact mul_le_mul_of_nonneg_right h (abs_nonneg _)
  obtain ⟨m, e, hm, he, rfl⟩ := hd
  rcases le_or_gt (ulpExp x) e with hle | hgt
  · obtain ⟨k, hk⟩ := mul_finer m e _ hle
    rw [hk]; exact grid k
  · by_cases h0 : x = 0
    · subst h0; rw [rn_zero, sub_self, abs_zero]; exact abs_nonneg _
    have hpos : 0 < |x| := abs_pos.mpr h0
    have hu' : ulpExp x = Int.log 2 |x| - 52 := by
      unfold ulpExp at hgt ⊢
      rcases max_choice (Int.log 2 |x| - 52) (-1074) with h | h
      · exact h
      · rw [h] at hgt; omega
    have hlo := Int.zpow_log_le_self (b := 2) (by norm_num) hpos
    push_cast at hlo
    have hL : (2 : ℚ) ^ (Int.log 2 |x|) = 2 ^ 52 * 2 ^ ulpExp x := by
      rw [hu', zpow_sub₀ (by norm_num)]
      have e : (2 : ℚ) ^ (52 : ℤ) = 2 ^ 52 := by norm_cast
      rw [e]; field_simp
    have hdle : |(m : ℚ) * 2 ^ e| ≤ 2 ^ 52 * 2 ^ ulpExp x := by
      rw [abs_mul, abs_of_pos (two_zpow_pos e)]
      have h1 : |(m : ℚ)| ≤ 2 ^ 53 := by exact_mod_cast hm
      have h2 : (2 : ℚ) ^ e ≤ 2 ^ (ulpExp x - 1) := zpow_le_zpow_right₀ (by norm_num) (by omega)
      rw [zpow_sub₀ (by norm_num), zpow_one] at h2
      calc |(m : ℚ)| * 2 ^ e ≤ 2 ^ 53 * (2 ^ ulpExp x / 2) :=
            mul_le_mul h1 h2 (two_zpow_pos e).le (by norm_num)
        _ = 2 ^ 52 * 2 ^ ulpExp x := by ring
    have key : |x| - 2 ^ 52 * 2 ^ ulpExp x ≤ |(m : ℚ) * 2 ^ e - x| := by
      have := abs_sub_abs_le_abs_sub x ((m : ℚ) * 2 ^ e)
      rw [abs_sub_comm] at this
      linarith
    refine le_trans ?_ key
    rw [hL] at hlo
    rcases le_or_gt 0 x with hx | hx
    · refine le_trans (grid (2 ^ 52)) ?_
      rw [abs_of_nonneg hx] at hlo ⊢
      push_cast
      rw [abs_sub_comm, abs_of_nonneg (by linarith)]
      norm_num
    · refine le_trans (grid (-2 ^ 52)) ?_
      rw [abs_of_neg hx] at hlo ⊢
      push_cast
      rw [abs_of_nonneg (by linarith)]; linarith

end Rounding
end Otel
