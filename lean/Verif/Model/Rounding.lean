import Verif.Model.Metrics
import Mathlib.Data.Int.Log
import Mathlib.Data.Rat.Floor
/-!
# Python numbers: integers of any size and double-precision floats
`aggregation.py` adds and subtracts measurement values with Python's `+` and `-` (lines 193–196, 331–332, 374, 514–527,
590–596). The values are Python `int`s (exact) or `float`s (IEEE 754 binary64, rounding to nearest, ties to even); an
operation with one of each first converts the integer to the nearest float. Here a float is the rational number it
denotes. Simplifications: the exponent is not bounded above (in Python a sum of 2^1024 or more becomes `inf`, and an
integer that large next to a float raises `OverflowError`); infinities and NaN are in `Verif.Model.NonFinite`; `-0.0` is
`0.0`.
-/
namespace Otel
namespace Rounding

/-- Round a rational to an integer: to the nearest, ties to the even one. -/
def roundEven (q : ℚ) : ℤ :=
  if q - ⌊q⌋ < 1 / 2 then ⌊q⌋
  else if 1 / 2 < q - ⌊q⌋ then ⌊q⌋ + 1
  else if ⌊q⌋ % 2 = 0 then ⌊q⌋ else ⌊q⌋ + 1

/-- The exponent of the last place of a double near `x`: 53 significant bits, but never finer than 2^-1074. -/
def ulpExp (x : ℚ) : ℤ := max (Int.log 2 |x| - 52) (-1074)

/-- The double a rational is rounded to (IEEE 754 roundTiesToEven). -/
def rn (x : ℚ) : ℚ := roundEven (x / 2 ^ ulpExp x) * 2 ^ ulpExp x

/-- A rational that a double denotes (without the upper bound on the exponent). -/
def IsDbl (q : ℚ) : Prop := ∃ m e : ℤ, |m| ≤ 2 ^ 53 ∧ -1074 ≤ e ∧ q = m * 2 ^ e

/-- Python floats that are finite. -/
def Dbl : Type := { q : ℚ // IsDbl q }

instance : DecidableEq Dbl := inferInstanceAs (DecidableEq { q : ℚ // IsDbl q })
instance : LinearOrder Dbl := inferInstanceAs (LinearOrder { q : ℚ // IsDbl q })

theorem roundEven_lo (q : ℚ) : ⌊q⌋ ≤ roundEven q := by
  unfold roundEven; split_ifs <;> omega

theorem roundEven_hi (q : ℚ) : roundEven q ≤ ⌊q⌋ + 1 := by
  unfold roundEven; split_ifs <;> omega

theorem roundEven_int (n : ℤ) : roundEven (n : ℚ) = n := by
  unfold roundEven; norm_num [Int.floor_intCast]

theorem roundEven_mono {p q : ℚ} (h : p ≤ q) : roundEven p ≤ roundEven q := by
  rcases lt_or_eq_of_le (Int.floor_mono h) with hf | hf
  · have := roundEven_hi p
    have := roundEven_lo q
    omega
  · unfold roundEven
    rw [hf]
    split_ifs <;> first | omega | (exfalso; linarith)

theorem two_zpow_pos (e : ℤ) : (0 : ℚ) < 2 ^ e := zpow_pos (by norm_num) e

theorem rn_isDbl (x : ℚ) : IsDbl (rn x) := by
  refine ⟨roundEven (x / 2 ^ ulpExp x), ulpExp x, ?_, le_max_right _ _, rfl⟩
  have hlt : |x| < 2 ^ (ulpExp x + 53) := by
    refine lt_of_lt_of_le (Int.lt_zpow_succ_log_self (b := 2) (by norm_num) |x|) ?_
    push_cast
    refine zpow_le_zpow_right₀ (by norm_num) ?_
    have := le_max_left (Int.log 2 |x| - 52) (-1074)
    unfold ulpExp; omega
  have hp := two_zpow_pos (ulpExp x)
  have h : |x / 2 ^ ulpExp x| ≤ ((2 ^ 53 : ℤ) : ℚ) := by
    rw [abs_div, abs_of_pos hp, div_le_iff₀ hp]
    rw [zpow_add₀ (by norm_num : (2 : ℚ) ≠ 0)] at hlt
    push_cast
    have e : (2 : ℚ) ^ (53 : ℤ) = 2 ^ 53 := by norm_cast
    rw [e] at hlt
    linarith [mul_comm ((2 : ℚ) ^ 53) (2 ^ ulpExp x)]
  obtain ⟨h1, h2⟩ := abs_le.mp h
  rw [abs_le]
  constructor
  · have := roundEven_mono (p := ((-(2 ^ 53 : ℤ) : ℤ) : ℚ)) (by push_cast at h1 ⊢; exact h1)
    rwa [roundEven_int] at this
  · have := roundEven_mono h2
    rwa [roundEven_int] at this

/-- The float nearest to a rational. -/
def Dbl.ofRat (x : ℚ) : Dbl := ⟨rn x, rn_isDbl x⟩

/-- `0.0`. -/
instance : Zero Dbl := ⟨⟨0, 0, 0, by norm_num, by norm_num, by norm_num⟩⟩
/-- `float.__add__`. -/
instance : Add Dbl := ⟨fun a b => Dbl.ofRat (a.1 + b.1)⟩
/-- `float.__sub__`. -/
instance : Sub Dbl := ⟨fun a b => Dbl.ofRat (a.1 - b.1)⟩

/-- A Python number: `int` or finite `float`. -/
inductive Num where
  | int (z : ℤ)
  | flt (d : Dbl)
deriving DecidableEq

/-- `float(x)`. -/
def Num.toDbl : Num → Dbl
  | .int z => Dbl.ofRat z
  | .flt d => d

/-- The literal `0` of `self._value = 0` and `self._previous_value = 0` (aggregation.py:185, 194). -/
instance : Zero Num := ⟨.int 0⟩

/-- `+` on numbers. -/
instance : Add Num := ⟨fun
  | .int a, .int b => .int (a + b)
  | x, y => .flt (x.toDbl + y.toDbl)⟩

/-- `-` on numbers. -/
instance : Sub Num := ⟨fun
  | .int a, .int b => .int (a - b)
  | x, y => .flt (x.toDbl - y.toDbl)⟩

/-- The rational a Python number denotes. -/
def Num.val : Num → ℚ
  | .int z => z
  | .flt d => d.1

end Rounding
end Otel
