import Verif.Model.ExpHist
import Mathlib.Algebra.Order.Floor.Ring
import Mathlib.Data.Rat.Floor
/-!
# The two mappings of exponential histograms
Models `ieee_754.py`, `exponent_mapping.py` and `logarithm_mapping.py` in `sdk/metrics/_internal/exponential_histogram/mapping`.
A positive finite double is given by its 64 bits.
-/
namespace Otel
namespace Metrics
namespace Exp

/-- The bit patterns of the positive finite doubles: sign 0, not zero, exponent field not all ones. -/
def PosDouble (bits : Nat) : Prop := 0 < bits ∧ bits < 2047 * 2 ^ 52

/-- The number an IEEE 754 double with these bits (sign 0, finite) is. This is the standard's definition, not code of the repository. -/
def dval (bits : Nat) : ℚ :=
  if bits / 2 ^ 52 = 0 then (bits % 2 ^ 52 : Nat) * (2 : ℚ) ^ (-1074 : ℤ)
  else ((2 ^ 52 + bits % 2 ^ 52 : Nat) : ℚ) * (2 : ℚ) ^ (((bits / 2 ^ 52 : Nat) : ℤ) - 1075)

/-- `get_ieee_754_exponent` (ieee_754.py:63–107): `((bits & EXPONENT_MASK) >> 52) - 1023`. -/
def expo (bits : Nat) : Int := (((bits &&& (((1 <<< 11) - 1) <<< 52)) >>> 52 : Nat) : Int) - 1023

/-- `get_ieee_754_mantissa` (ieee_754.py:110–117): `bits & MANTISSA_MASK`. -/
def mant (bits : Nat) : Nat := bits &&& ((1 <<< 52) - 1)

/-- `_min_normal_lower_boundary_index` of `ExponentMapping` at scale `-k` (exponent_mapping.py:61–75). -/
def minIndex (k : Nat) : Int := if k < 2 then shr (-1022) k - 1 else shr (-1022) k

/-- `_max_normal_lower_boundary_index` of `ExponentMapping` at scale `-k` (exponent_mapping.py:85–87). -/
def maxIndex (k : Nat) : Int := shr 1023 k

/-- `ExponentMapping.map_to_index` at scale `-k` (exponent_mapping.py:89–128). -/
def expIndex (k : Nat) (bits : Nat) : Int :=
  if dval bits < (2 : ℚ) ^ (-1022 : ℤ) then minIndex k
  else
    let correction := shr ((mant bits : Int) - 1) 52
    shr (expo bits + correction) k

/-- `ExponentMapping.get_lower_boundary` at scale `-k` (exponent_mapping.py:130–137); `none` is one of its two exceptions. The result
of `ldexp` is exact, as the exponent is between −1024 and 1023. -/
def expLower (k : Nat) (index : Int) : Option ℚ :=
  if index < minIndex k then none
  else if index > maxIndex k then none
  else some ((2 : ℚ) ^ (index * 2 ^ k))

/-- `LogarithmMapping.map_to_index` at scale `s ≥ 1` (logarithm_mapping.py:98–115). `R bits` is the double `log(value) * (1 / log(2))`:
`ldexp(1 / log(2), scale)` only changes its exponent, so `log(value) * scale_factor` is exactly `R bits * 2 ** scale` (no overflow or
underflow occurs: a logarithm that is not 0 is between 2^-53 and 745 in magnitude). What `math.log` computes is not modelled. -/
def logIndex (R : Nat → ℚ) (s : Nat) (bits : Nat) : Int :=
  if dval bits ≤ (2 : ℚ) ^ (-1022 : ℤ) then -1022 * 2 ^ s - 1
  else if mant bits = 0 then expo bits * 2 ^ s - 1
  else min ⌊R bits * 2 ^ s⌋ (1024 * 2 ^ s - 1)

/-- `_new_mapping(scale).map_to_index(value)` (aggregation.py:1103–1107, 751): the exponent mapping at scales up to 0, else the
logarithm mapping. -/
def mapIndex (R : Nat → ℚ) (s : Int) (bits : Nat) : Int :=
  if s ≤ 0 then expIndex (-s).toNat bits else logIndex R s.toNat bits

end Exp
end Metrics
end Otel
