import Verif.Model.ExpMapping
import Verif.Lemmas.ExpInsert
import Mathlib.Tactic.NormNum
import Mathlib.Tactic.Linarith
import Mathlib.Tactic.Ring
import Mathlib.Tactic.Positivity
import Mathlib.Tactic.FieldSimp
import Mathlib.Tactic.IntervalCases
/-!
# Bits and values
-/
namespace Otel
namespace Metrics
namespace Exp

theorem expo_eq {bits : Nat} (h : PosDouble bits) : expo bits = ((bits / 2 ^ 52 : Nat) : Int) - 1023 := by
  unfold expo
  rw [Nat.shiftRight_and_distrib]
  have h1 : (((1 <<< 11) - 1) <<< 52) >>> 52 = 2 ^ 11 - 1 := by decide
  rw [h1, Nat.and_two_pow_sub_one_eq_mod, Nat.shiftRight_eq_div_pow]
  rw [Nat.mod_eq_of_lt]
  have := h.2
  omega

theorem mant_eq (bits : Nat) : mant bits = bits % 2 ^ 52 := by
  unfold mant
  rw [show (1 <<< 52) - 1 = 2 ^ 52 - 1 by decide, Nat.and_two_pow_sub_one_eq_mod]

theorem zpow2_le {a b : Int} : (2 : ℚ) ^ a ≤ 2 ^ b ↔ a ≤ b := zpow_le_zpow_iff_right₀ (by norm_num)
theorem zpow2_lt {a b : Int} : (2 : ℚ) ^ a < 2 ^ b ↔ a < b := zpow_lt_zpow_iff_right₀ (by norm_num)

/-- A normal number lies between two powers of two; it is the lower one exactly if the mantissa is 0. -/
theorem normal_bounds {bits : Nat} (h : PosDouble bits) (hn : bits / 2 ^ 52 ≠ 0) :
    (2 : ℚ) ^ expo bits ≤ dval bits ∧ dval bits < (2 : ℚ) ^ (expo bits + 1) ∧ (dval bits = (2 : ℚ) ^ expo bits ↔ mant bits = 0) := by
  rw [expo_eq h, mant_eq]
  unfold dval
  rw [if_neg hn]
  generalize ((bits / 2 ^ 52 : Nat) : Int) = b
  have hm : bits % 2 ^ 52 < 2 ^ 52 := Nat.mod_lt _ (by norm_num)
  generalize bits % 2 ^ 52 = m at hm
  have hz : (0 : ℚ) < 2 ^ (b - 1075) := zpow_pos (by norm_num) _
  have e1 : (2 : ℚ) ^ (b - 1023) = (2 ^ 52 : Nat) * 2 ^ (b - 1075) := by
    rw [show b - 1023 = 52 + (b - 1075) by ring, zpow_add₀ (by norm_num)]
    norm_num
  have e2 : (2 : ℚ) ^ (b - 1023 + 1) = (2 ^ 53 : Nat) * 2 ^ (b - 1075) := by
    rw [show b - 1023 + 1 = 53 + (b - 1075) by ring, zpow_add₀ (by norm_num)]
    norm_num
  rw [e1, e2]
  refine ⟨?_, ?_, ?_⟩
  · apply mul_le_mul_of_nonneg_right _ hz.le
    exact_mod_cast Nat.le_add_right _ _
  · apply mul_lt_mul_of_pos_right _ hz
    have : 2 ^ 52 + m < 2 ^ 53 := by omega
    exact_mod_cast this
  · rw [mul_left_inj' hz.ne']
    norm_cast
    omega

theorem subnormal_iff {bits : Nat} (h : PosDouble bits) : dval bits < (2 : ℚ) ^ (-1022 : ℤ) ↔ bits / 2 ^ 52 = 0 := by
  constructor
  · intro hl
    by_contra hn
    obtain ⟨h1, _, _⟩ := normal_bounds h hn
    have h2 : (2 : ℚ) ^ (-1022 : ℤ) ≤ 2 ^ expo bits := by
      rw [zpow2_le, expo_eq h]; omega
    exact absurd (lt_of_lt_of_le hl (le_trans h2 h1)) (lt_irrefl _)
  · intro h0
    unfold dval
    rw [if_pos h0]
    have e : (2 : ℚ) ^ (-1022 : ℤ) = (2 ^ 52 : Nat) * 2 ^ (-1074 : ℤ) := by
      rw [show (-1022 : ℤ) = 52 + (-1074) by norm_num, zpow_add₀ (by norm_num)]
      norm_num
    rw [e]
    apply mul_lt_mul_of_pos_right _ (zpow_pos (by norm_num) _)
    exact_mod_cast Nat.mod_lt _ (by norm_num)

/-- The exponent corrected for exact powers of two. -/
def cexp (bits : Nat) : Int := expo bits + (if mant bits = 0 then -1 else 0)

theorem correction_eq (bits : Nat) : shr ((mant bits : Int) - 1) 52 = if mant bits = 0 then -1 else 0 := by
  have hm : mant bits < 2 ^ 52 := by rw [mant_eq]; exact Nat.mod_lt _ (by norm_num)
  rw [shr_iff]
  split <;> omega

theorem expIndex_normal {bits : Nat} (h : PosDouble bits) (hn : bits / 2 ^ 52 ≠ 0) (k : Nat) : expIndex k bits = shr (cexp bits) k := by
  unfold expIndex
  rw [if_neg (fun hc => hn ((subnormal_iff h).1 hc))]
  simp only [correction_eq]
  rfl

theorem minIndex_eq (k : Nat) (hk : k ≤ 10) : minIndex k = shr (-1023) k := by
  interval_cases k <;> decide

theorem cexp_bounds {bits : Nat} (h : PosDouble bits) (hn : bits / 2 ^ 52 ≠ 0) :
    (2 : ℚ) ^ cexp bits < dval bits ∧ dval bits ≤ (2 : ℚ) ^ (cexp bits + 1) := by
  obtain ⟨h1, h2, h3⟩ := normal_bounds h hn
  unfold cexp
  split
  · rename_i hm
    rw [h3.2 hm]
    refine ⟨?_, ?_⟩
    · rw [zpow2_lt]; omega
    · rw [zpow2_le]; omega
  · rename_i hm
    rw [add_zero]
    exact ⟨lt_of_le_of_ne h1 (fun hc => hm (h3.1 hc.symm)), h2.le⟩

theorem cexp_range {bits : Nat} (h : PosDouble bits) (hn : bits / 2 ^ 52 ≠ 0) : -1023 ≤ cexp bits ∧ cexp bits ≤ 1023 := by
  have := h.2
  unfold cexp
  rw [expo_eq h]
  constructor <;> split <;> omega

theorem mono_zpow_shr {e : Int} (k : Nat) : (2 : ℚ) ^ (shr e k * 2 ^ k) ≤ 2 ^ e ∧ (2 : ℚ) ^ (e + 1) ≤ 2 ^ ((shr e k + 1) * 2 ^ k) := by
  obtain ⟨h1, h2⟩ := (shr_iff e (shr e k) k).1 rfl
  rw [zpow2_le, zpow2_le]
  omega

theorem shr_pow_sub_one (k : Int) (s : Nat) : shr (k * 2 ^ s - 1) s = k - 1 := by
  rw [shr_iff]
  have h2 : (0 : Int) < 2 ^ s := by positivity
  constructor <;> nlinarith

theorem shr_pow_sub_one' (k : Int) (s j : Nat) (h : j ≤ s) : shr (k * 2 ^ s - 1) j = k * 2 ^ (s - j) - 1 := by
  have : k * 2 ^ s - 1 = k * 2 ^ (s - j) * 2 ^ j - 1 := by
    rw [mul_assoc, ← pow_add]; congr 3; omega
  rw [this, shr_pow_sub_one]

theorem shr_min (a b : Int) (k : Nat) : shr (min a b) k = min (shr a k) (shr b k) := by
  rcases le_total a b with h | h
  · rw [min_eq_left h, min_eq_left (shr_mono k h)]
  · rw [min_eq_right h, min_eq_right (shr_mono k h)]

theorem floor_shr (x : ℚ) (s j : Nat) (h : j ≤ s) : shr ⌊x * 2 ^ s⌋ j = ⌊x * 2 ^ (s - j)⌋ := by
  rw [shr_iff]
  have h2 : (0 : ℚ) < 2 ^ j := by positivity
  have e : x * 2 ^ s = x * 2 ^ (s - j) * 2 ^ j := by rw [mul_assoc, ← pow_add]; congr 2; omega
  rw [e]
  constructor
  · rw [Int.le_floor]
    push_cast
    exact mul_le_mul_of_nonneg_right (Int.floor_le _) h2.le
  · rw [Int.floor_lt]
    push_cast
    exact mul_lt_mul_of_pos_right (Int.lt_floor_add_one _) h2

theorem logIndex_shr (R : Nat → ℚ) (bits s j : Nat) (h : j ≤ s) : shr (logIndex R s bits) j = logIndex R (s - j) bits := by
  unfold logIndex
  split
  · exact shr_pow_sub_one' _ _ _ h
  · split
    · exact shr_pow_sub_one' _ _ _ h
    · rw [shr_min, floor_shr _ _ _ h, shr_pow_sub_one' _ _ _ h]

end Exp
end Metrics
end Otel
