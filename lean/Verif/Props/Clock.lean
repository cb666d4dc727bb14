import Verif.Model.Clock
import Verif.Spec.Clock
import Verif.Lemmas.Rounding
import Mathlib.Tactic.NormNum
import Mathlib.Tactic.Linarith
import Mathlib.Tactic.Zify
import Mathlib.Tactic.Qify
/-!
# C122: times converted through floats
-/
namespace Otel
namespace Clock
open Rounding

/-- The error of rounding a number up to `2^k` is at most `2^(k-54)`. -/
theorem rn_err_le (x : ℚ) (k : ℤ) (hk : -1021 ≤ k) (h : |x| ≤ 2 ^ k) : |rn x - x| ≤ 2 ^ (k - 54) := by
  by_cases h0 : x = 0
  · subst h0; rw [rn_zero, sub_self, abs_zero]; exact (two_zpow_pos _).le
  rcases lt_or_eq_of_le h with hlt | heq
  · refine le_trans (rn_half_ulp x) ?_
    have hu : ulpExp x ≤ k - 53 := by
      unfold ulpExp
      refine max_le ?_ (by omega)
      have hpos : 0 < |x| := abs_pos.mpr h0
      have : Int.log 2 |x| < k := (Int.lt_zpow_iff_log_lt (b := 2) (by norm_num) hpos).1 (by push_cast; exact hlt)
      omega
    have h2 : (2 : ℚ) ^ ulpExp x ≤ 2 ^ (k - 53) := zpow_le_zpow_right₀ (by norm_num) hu
    have h3 : (2 : ℚ) ^ (k - 53) = 2 ^ (k - 54) * 2 := by
      rw [← zpow_add_one₀ (by norm_num)]; congr 1; ring
    linarith
  · have : IsDbl x := by
      rcases abs_choice x with hx | hx
      · rw [← hx, heq]; exact isDbl_zpow k (by omega)
      · have : x = -2 ^ k := by rw [← heq, hx, neg_neg]
        rw [this]
        exact ⟨-1, k, by norm_num, by omega, by push_cast; ring⟩
    rw [rn_dbl x this, sub_self, abs_zero]
    exact (two_zpow_pos _).le

theorem err61 (x : ℚ) (h : |x| ≤ 2147483648 * 1000000000) : |rn x - x| ≤ 128 := by
  have := rn_err_le x 61 (by norm_num) (le_trans h (by norm_num))
  norm_num at this
  exact this

theorem err31 (x : ℚ) (h : |x| ≤ 2147483648) : |rn x - x| ≤ 1 / 8388608 := by
  have := rn_err_le x 31 (by norm_num) (le_trans h (by norm_num))
  norm_num at this
  linarith

theorem trunc_err (x : ℚ) : |(trunc x : ℚ) - x| < 1 := by
  unfold trunc
  split_ifs with h
  · have h1 := Int.floor_le x
    have h2 := Int.lt_floor_add_one x
    rw [abs_lt]; constructor <;> linarith
  · have h1 := Int.floor_le (-x)
    have h2 := Int.lt_floor_add_one (-x)
    rw [abs_lt]; push_cast; constructor <;> linarith

theorem trunc_int (n : ℤ) : trunc (n : ℚ) = n := by
  unfold trunc
  split_ifs
  · exact Int.floor_intCast n
  · rw [← Int.cast_neg, Int.floor_intCast, neg_neg]

theorem trunc_mono {x y : ℚ} (h : x ≤ y) : trunc x ≤ trunc y := by
  unfold trunc
  split_ifs with hx hy hy
  · exact Int.floor_mono h
  · exact absurd (le_trans hx h) hy
  · have h1 : 0 ≤ ⌊-x⌋ := Int.floor_nonneg.2 (by push Not at hx; linarith)
    have h2 : 0 ≤ ⌊y⌋ := Int.floor_nonneg.2 hy
    omega
  · have := Int.floor_mono (neg_le_neg h)
    omega

/-! ## Seconds to nanoseconds -/

/-- The time of a log record, and a time given to the OpenTracing shim: until 2038 it is off by less than 129 ns from the number of seconds; whole seconds are exact; and the order of times is kept. -/
theorem C122_to_ns :
    (∀ t : ℚ, |t| ≤ Spec.y2038 → |(toNs t : ℚ) - t * 1000000000| < 129) ∧
    (∀ k : ℤ, |k| ≤ Spec.y2038 → toNs k = k * 1000000000) ∧
    (∀ s t : ℚ, s ≤ t → toNs s ≤ toNs t) := by
  refine ⟨fun t ht => ?_, fun k hk => ?_, fun s t h => ?_⟩
  · simp only [Spec.y2038, Int.cast_ofNat] at ht
    have h1 := err61 (t * 1000000000) (by rw [abs_mul, abs_of_pos (by norm_num : (0 : ℚ) < 1000000000)]; linarith)
    have h2 := trunc_err (rn (t * 1000000000))
    rw [abs_le] at h1
    rw [abs_lt] at h2 ⊢
    unfold toNs
    constructor <;> linarith
  · simp only [Spec.y2038] at hk
    have hd : IsDbl ((k : ℚ) * 1000000000) := by
      refine ⟨k * 1953125, 9, ?_, by norm_num, by push_cast; norm_num; ring⟩
      rw [abs_mul]
      norm_num
      omega
    unfold toNs
    rw [rn_dbl _ hd]
    have := trunc_int (k * 1000000000)
    push_cast at this
    exact this
  · exact trunc_mono (rn_mono (by linarith))

/-! ## Nanoseconds to seconds and back -/

theorem isDbl_top : IsDbl ((2147483648 : ℚ) * 1000000000) := ⟨1953125, 40, by norm_num, by norm_num, by norm_num⟩
theorem isDbl_y2038 : IsDbl (2147483648 : ℚ) := ⟨1, 31, by norm_num, by norm_num, by norm_num⟩

/-- What is known of the two roundings in `fromNs`. -/
theorem fromNs_parts (n : ℤ) (h0 : 0 ≤ n) (h1 : n ≤ 2147483648 * 1000000000) :
    0 ≤ rn (n : ℚ) ∧ rn (n : ℚ) ≤ 2147483648 * 1000000000 ∧ |rn (n : ℚ) - n| ≤ 128 ∧ 0 ≤ fromNs n ∧ fromNs n ≤ 2147483648 ∧
      |fromNs n * 1000000000 - rn (n : ℚ)| ≤ 120 := by
  have a0 : (0 : ℚ) ≤ n := by exact_mod_cast h0
  have a1 : (n : ℚ) ≤ 2147483648 * 1000000000 := by exact_mod_cast h1
  have b0 := rn_nonneg a0
  have b1 : rn (n : ℚ) ≤ 2147483648 * 1000000000 := by
    have := rn_mono a1
    rwa [rn_dbl _ isDbl_top] at this
  have b2 := err61 n (by rw [abs_of_nonneg a0]; exact a1)
  have c0 : 0 ≤ rn (n : ℚ) / 1000000000 := by positivity
  have c1 : rn (n : ℚ) / 1000000000 ≤ 2147483648 := by rw [div_le_iff₀ (by norm_num)]; exact b1
  have d0 : 0 ≤ fromNs n := rn_nonneg c0
  have d1 : fromNs n ≤ 2147483648 := by
    have := rn_mono c1
    rwa [rn_dbl _ isDbl_y2038] at this
  have d2 := err31 (rn (n : ℚ) / 1000000000) (by rw [abs_of_nonneg c0]; exact c1)
  refine ⟨b0, b1, b2, d0, d1, ?_⟩
  have e : rn (n : ℚ) / 1000000000 * 1000000000 = rn (n : ℚ) := by field_simp
  rw [abs_le] at d2 ⊢
  unfold fromNs
  constructor <;> nlinarith [d2.1, d2.2]

/-- Seconds as the OpenTracing shim and `to_json` compute them: off by at most 248 ns, in order. -/
theorem C122_from_ns : (∀ n : ℤ, 0 ≤ n → n ≤ Spec.y2038 * 1000000000 → |fromNs n * 1000000000 - n| ≤ 248) ∧ (∀ n m : ℤ, n ≤ m → fromNs n ≤ fromNs m) := by
  refine ⟨fun n h0 h1 => ?_, fun n m h => ?_⟩
  · obtain ⟨-, -, h2, -, -, h3⟩ := fromNs_parts n h0 h1
    rw [abs_le] at *
    constructor <;> linarith
  · have : (n : ℚ) ≤ m := by exact_mod_cast h
    unfold fromNs
    have h2 := rn_mono this
    exact rn_mono (by gcongr)

/-- From 2008 to 2038, a time converted to seconds and back is the nearest double: off by at most 128 ns, converting it again changes nothing more, and it is
unchanged exactly when it is a multiple of 256 ns. -/
theorem C122_round_trip (n : ℤ) (h0 : Spec.y2008 * 1000000000 ≤ n) (h1 : n ≤ Spec.y2038 * 1000000000) :
    ((toNs (fromNs n) : ℤ) : ℚ) = rn n ∧ |toNs (fromNs n) - n| ≤ 128 ∧ toNs (fromNs (toNs (fromNs n))) = toNs (fromNs n) ∧
      (toNs (fromNs n) = n ↔ 256 ∣ n) := by
  simp only [Spec.y2008, Spec.y2038] at h0 h1
  have key : ∀ n : ℤ, 1200000000 * 1000000000 - 128 ≤ n → n ≤ 2147483648 * 1000000000 → ((toNs (fromNs n) : ℤ) : ℚ) = rn n ∧ 256 ∣ toNs (fromNs n) := by
    intro n h0 h1
    obtain ⟨b0, b1, b2, d0, d1, d2⟩ := fromNs_parts n (by omega) h1
    have a0 : (1200000000 * 1000000000 - 128 : ℚ) ≤ n := by exact_mod_cast h0
    have a1 : (n : ℚ) ≤ 2147483648 * 1000000000 := by exact_mod_cast h1
    -- doubles between 2^60 and 2^61 are multiples of 256
    have ulp : ∀ x : ℚ, 2 ^ 60 ≤ x → x < 2 ^ 61 → ulpExp x = 8 := by
      intro x hx hx'
      have hpos : 0 < x := lt_of_lt_of_le (by norm_num) hx
      unfold ulpExp
      rw [abs_of_pos hpos]
      have h1 : (60 : ℤ) ≤ Int.log 2 x := (Int.zpow_le_iff_le_log (b := 2) (by norm_num) hpos).1 (by push_cast; exact_mod_cast hx)
      have h2 : Int.log 2 x < 61 := (Int.lt_zpow_iff_log_lt (b := 2) (by norm_num) hpos).1 (by push_cast; exact_mod_cast hx')
      have h3 : Int.log 2 x = 60 := by omega
      rw [h3]; norm_num
    have um : ulpExp (n : ℚ) = 8 := ulp _ (by norm_num at a0 ⊢; linarith) (by norm_num at a1 ⊢; linarith)
    obtain ⟨k, hk⟩ : ∃ k : ℤ, rn (n : ℚ) = k * 256 := ⟨roundEven ((n : ℚ) / 2 ^ (8 : ℤ)), by unfold rn; rw [um]; norm_num⟩
    rw [abs_le] at b2 d2
    have up : ulpExp (fromNs n * 1000000000) = 8 := ulp _ (by norm_num at a0 ⊢; linarith) (by norm_num at b1 ⊢; linarith)
    obtain ⟨l, hl⟩ : ∃ l : ℤ, rn (fromNs n * 1000000000) = l * 256 := ⟨roundEven (fromNs n * 1000000000 / 2 ^ (8 : ℤ)), by unfold rn; rw [up]; norm_num⟩
    have near := rn_nearest (fromNs n * 1000000000) (rn (n : ℚ)) (rn_isDbl _)
    have near' : |rn (n : ℚ) - fromNs n * 1000000000| ≤ 120 := by rw [abs_le]; constructor <;> linarith
    have hnear := le_trans near near'
    rw [abs_le] at hnear
    have hkl : l = k := by
      have g1 : (l : ℚ) * 256 - k * 256 ≤ 240 := by rw [← hl, ← hk]; linarith
      have g2 : (-240 : ℚ) ≤ (l : ℚ) * 256 - k * 256 := by rw [← hl, ← hk]; linarith
      have g1' : l * 256 - k * 256 ≤ 240 := by exact_mod_cast g1
      have g2' : -240 ≤ l * 256 - k * 256 := by exact_mod_cast g2
      omega
    unfold toNs
    rw [hl, hkl, hk]
    have := trunc_int (k * 256)
    push_cast at this
    rw [this]; exact ⟨by push_cast; ring, ⟨k, by ring⟩⟩
  have ⟨e, dv⟩ := key n (by omega) h1
  obtain ⟨b0, b1, b2, -⟩ := fromNs_parts n (by omega) h1
  rw [← e] at b1 b2
  have b2' : |toNs (fromNs n) - n| ≤ 128 := by exact_mod_cast b2
  have b1' : toNs (fromNs n) ≤ 2147483648 * 1000000000 := by exact_mod_cast b1
  refine ⟨e, b2', ?_, fun h => h ▸ dv, fun ⟨k, hk⟩ => ?_⟩
  swap
  · have hd : IsDbl (n : ℚ) := ⟨k, 8, by rw [abs_le]; constructor <;> omega, by norm_num, by rw [hk]; push_cast; norm_num; ring⟩
    rw [rn_dbl _ hd] at e
    exact_mod_cast e
  have ⟨e', _⟩ := key (toNs (fromNs n)) (by rw [abs_le] at b2'; omega) b1'
  have : rn ((toNs (fromNs n) : ℤ) : ℚ) = ((toNs (fromNs n) : ℤ) : ℚ) := by
    rw [e]; exact rn_dbl _ (rn_isDbl _)
  rw [this] at e'
  exact_mod_cast e'

/-! ## Texts -/

theorem micros_err (s : ℚ) : |(micros s : ℚ) - s * 1000000| ≤ 5001 / 10000 := by
  have f0 := Int.floor_le s
  have f1 := Int.lt_floor_add_one s
  have h0 : 0 ≤ (s - ⌊s⌋) * 1000000 := by nlinarith
  have h1 : (s - ⌊s⌋) * 1000000 ≤ 1000000 := by nlinarith
  have p20 : (2 : ℚ) ^ (20 : ℤ) = 1048576 := by norm_num
  have p34 : (2 : ℚ) ^ ((20 : ℤ) - 54) = 1 / 17179869184 := by norm_num
  have h2 := rn_err_le ((s - ⌊s⌋) * 1000000) 20 (by norm_num) (by rw [abs_of_nonneg h0, p20]; linarith)
  rw [p34] at h2
  have h3 := roundEven_err (rn ((s - ⌊s⌋) * 1000000))
  rw [abs_le] at *
  unfold micros
  push_cast
  constructor <;> linarith

theorem micros_mono {s t : ℚ} (h : s ≤ t) : micros s ≤ micros t := by
  have part : ∀ x : ℚ, 0 ≤ roundEven (rn ((x - ⌊x⌋) * 1000000)) ∧ roundEven (rn ((x - ⌊x⌋) * 1000000)) ≤ 1000000 := by
    intro x
    have f0 := Int.floor_le x
    have f1 := Int.lt_floor_add_one x
    have h0 : 0 ≤ (x - ⌊x⌋) * 1000000 := by nlinarith
    have h1 : (x - ⌊x⌋) * 1000000 ≤ 1000000 := by nlinarith
    constructor
    · have := roundEven_mono (p := ((0 : ℤ) : ℚ)) (by push_cast; exact rn_nonneg h0)
      rwa [roundEven_int] at this
    · have hd : IsDbl (1000000 : ℚ) := ⟨1000000, 0, by norm_num, by norm_num, by norm_num⟩
      have := rn_mono h1
      rw [rn_dbl _ hd] at this
      have := roundEven_mono (q := ((1000000 : ℤ) : ℚ)) (by push_cast; exact this)
      rwa [roundEven_int] at this
  rcases lt_or_eq_of_le (Int.floor_mono h) with hf | hf
  · have h1 := (part s).2
    have h2 := (part t).1
    unfold micros
    omega
  · unfold micros
    rw [hf]
    have : roundEven (rn ((s - ⌊t⌋) * 1000000)) ≤ roundEven (rn ((t - ⌊t⌋) * 1000000)) := by
      apply roundEven_mono
      apply rn_mono
      linarith
    omega

theorem shown_err (n : ℤ) (h0 : 0 ≤ n) (h1 : n ≤ 2147483648 * 1000000000) : |(shown n : ℚ) * 1000 - n| < 749 := by
  obtain ⟨-, -, h2, -, -, h3⟩ := fromNs_parts n h0 h1
  have h4 := micros_err (fromNs n)
  rw [abs_le] at *
  rw [abs_lt]
  unfold shown
  constructor <;> linarith

/-- The time shown by the console exporters and `to_json`: until 2038 it is one of the two microseconds next to the time, so a time of whole microseconds is shown exactly, and later times are
never shown as earlier ones. -/
theorem C122_shown :
    (∀ n : ℤ, 0 ≤ n → n ≤ Spec.y2038 * 1000000000 → n / 1000 ≤ shown n ∧ shown n * 1000 < n + 1000) ∧
    (∀ k : ℤ, 0 ≤ k → k ≤ Spec.y2038 * 1000000 → shown (k * 1000) = k) ∧
    (∀ n m : ℤ, n ≤ m → shown n ≤ shown m) := by
  refine ⟨fun n h0 h1 => ?_, fun k h0 h1 => ?_, fun n m h => micros_mono (C122_from_ns.2 n m h)⟩
  · have h := shown_err n h0 h1
    rw [abs_lt] at h
    have g1 : -749 < shown n * 1000 - n := by exact_mod_cast h.1
    have g2 : shown n * 1000 - n < 749 := by exact_mod_cast h.2
    omega
  · simp only [Spec.y2038] at h1
    have h := shown_err (k * 1000) (by omega) (by omega)
    rw [abs_lt] at h
    have g1 : -749 < shown (k * 1000) * 1000 - k * 1000 := by exact_mod_cast h.1
    have g2 : shown (k * 1000) * 1000 - k * 1000 < 749 := by exact_mod_cast h.2
    omega

/-- Times of the OpenCensus shim: off by less than 248 ns from the text's microseconds, and shown as the same text again. -/
theorem C122_opencensus (sec us : ℤ) (h0 : 0 ≤ sec) (h1 : sec < Spec.y2038) (h2 : 0 ≤ us) (h3 : us < 1000000) :
    |ocNs sec us - (sec * 1000000 + us) * 1000| < 248 ∧ shown (ocNs sec us) = sec * 1000000 + us := by
  simp only [Spec.y2038] at h1
  have a0 : (0 : ℚ) ≤ sec := by exact_mod_cast h0
  have a1 : (sec : ℚ) ≤ 2147483647 := by exact_mod_cast (by omega : sec ≤ 2147483647)
  have a2 : (0 : ℚ) ≤ us := by exact_mod_cast h2
  have a3 : (us : ℚ) ≤ 999999 := by exact_mod_cast (by omega : us ≤ 999999)
  have b0 : (0 : ℚ) ≤ us / 1000000 := by positivity
  have b1 : (us : ℚ) / 1000000 ≤ 1 := by rw [div_le_iff₀ (by norm_num)]; linarith
  have b2 := rn_err_le ((us : ℚ) / 1000000) 0 (by norm_num) (by rw [abs_of_nonneg b0]; norm_num; exact b1)
  norm_num at b2
  have b3 := rn_nonneg b0
  have b4 : rn ((us : ℚ) / 1000000) ≤ 1 := by
    have hd : IsDbl (1 : ℚ) := ⟨1, 0, by norm_num, by norm_num, by norm_num⟩
    have := rn_mono b1
    rwa [rn_dbl _ hd] at this
  have c2 := err31 ((sec : ℚ) + rn ((us : ℚ) / 1000000)) (by rw [abs_of_nonneg (by linarith)]; linarith)
  have c3 : 0 ≤ timestamp sec us := rn_nonneg (by linarith)
  have c4 : timestamp sec us ≤ 2147483648 := by
    have := rn_mono (show (sec : ℚ) + rn ((us : ℚ) / 1000000) ≤ 2147483648 by linarith)
    rwa [rn_dbl _ isDbl_y2038] at this
  have d2 := err61 (timestamp sec us * 1000000000) (by rw [abs_of_nonneg (by positivity)]; linarith)
  have e2 := roundEven_err (rn (timestamp sec us * 1000000000))
  have main : |(ocNs sec us : ℚ) - (sec * 1000000 + us) * 1000| < 248 := by
    have hus : (us : ℚ) / 1000000 * 1000000 = us := by field_simp
    have ht : timestamp sec us = rn ((sec : ℚ) + rn ((us : ℚ) / 1000000)) := rfl
    rw [← ht] at c2
    rw [abs_le] at *
    rw [abs_lt]
    unfold ocNs
    constructor <;> linarith
  have main' : |ocNs sec us - (sec * 1000000 + us) * 1000| < 248 := by exact_mod_cast main
  refine ⟨main', ?_⟩
  rw [abs_lt] at main'
  by_cases hneg : 0 ≤ ocNs sec us
  · have h := shown_err (ocNs sec us) hneg (by omega)
    rw [abs_lt] at h
    have g1 : -749 < shown (ocNs sec us) * 1000 - ocNs sec us := by exact_mod_cast h.1
    have g2 : shown (ocNs sec us) * 1000 - ocNs sec us < 749 := by exact_mod_cast h.2
    omega
  · exfalso
    have : (0 : ℤ) ≤ ocNs sec us := by
      have := roundEven_mono (p := ((0 : ℤ) : ℚ)) (by push_cast; exact rn_nonneg (x := timestamp sec us * 1000000000) (by positivity))
      rwa [roundEven_int] at this
    exact hneg this

/-! ## What does not hold -/

/-- Converting a time to seconds and back does not give it back: it can be off by 128 ns (`C122_round_trip` says which times are kept). -/
theorem C122_round_trip_violated : (∃ n, Spec.y2008 * 1000000000 ≤ n ∧ n ≤ Spec.y2038 * 1000000000 ∧ n - toNs (fromNs n) = 128) := by
  refine ⟨1700000000000000128, ?_, ?_, ?_⟩ <;> decide +kernel

/-- The text does not show the nearest microsecond, nor the one that has begun. -/
theorem C122_nearest_violated : shown 1631050295264000557 = 1631050295264000 ∧ shown 1716266264331145387 = 1716266264331146 := by
  constructor <;> decide +kernel

/-- The OpenCensus shim's times are not the microseconds of the text. -/
theorem C122_opencensus_violated : ∃ sec us, 0 ≤ us ∧ us < 1000000 ∧ ocNs sec us ≠ (sec * 1000000 + us) * 1000 := by
  refine ⟨1700000000, 1, ?_, ?_, ?_⟩ <;> decide +kernel

/-! ## Examples -/

example : toNs (fromNs 1700000000123456789) = 1700000000123456768 := by decide +kernel
example : shown 1700000000123456789 = 1700000000123457 := by decide +kernel
example : ocNs 1700000000 123456 = 1700000000123456000 := by decide +kernel

end Clock
end Otel
