import Verif.Model.Severity
import Mathlib.Tactic.SplitIfs
/-!
# C54: severities
-/
namespace Otel
namespace Severity

/-- The specification: levels below 10 are unspecified; the decades 10, 20, 30, 40, 50 are DEBUG, INFO, WARN, ERROR, FATAL, and the last
digit, at most 3, is the place within them; above that everything is FATAL4. -/
def spec (l : Int) : Nat :=
  if l < 10 then 0
  else if 53 < l then 24
  else (4 * (l / 10) + 1 + min (l % 10) 3).toNat

theorem within (l : Int) (h1 : 10 ≤ l) (h2 : l ≤ 53) : Dict.get? stdToOtelMap l = some (spec l) := by
  obtain ⟨n, rfl⟩ := Int.eq_ofNat_of_zero_le (show 0 ≤ l by omega)
  have h : ∀ n : Nat, n < 54 → 10 ≤ n → Dict.get? stdToOtelMap (n : Int) = some (spec n) := by decide
  exact h n (by omega) (by omega)

/-- **C54** Every level has a severity, and which one. -/
theorem C54_total (l : Int) : stdToOtel l = some (spec l) := by
  unfold stdToOtel
  by_cases h1 : l < 10
  · rw [if_pos h1, spec, if_pos h1]
  · by_cases h2 : 53 < l
    · rw [if_neg h1, if_pos h2, spec, if_neg h1, if_pos h2]
    · rw [if_neg h1, if_neg h2]; exact within l (by omega) (by omega)

/-- **C54** A more severe level never gets a smaller severity, and the severity is one of the 25 defined ones. -/
theorem C54_monotone (l l' : Int) (h : l ≤ l') (n n' : Nat) (hn : stdToOtel l = some n) (hn' : stdToOtel l' = some n') : n ≤ n' ∧ n' ≤ 24 := by
  rw [C54_total, Option.some.injEq] at hn hn'
  subst hn hn'
  unfold spec
  constructor <;> (split_ifs <;> omega)

/-- **C54** The ends of the scale, and the standard levels DEBUG, INFO, WARNING, ERROR and CRITICAL. -/
theorem C54_ends (l : Int) : (stdToOtel l = some 0 ↔ l < 10) ∧ (stdToOtel l = some 24 ↔ 53 ≤ l) ∧ stdToOtel 10 = some 5 ∧ stdToOtel 20 = some 9 ∧
    stdToOtel 30 = some 13 ∧ stdToOtel 40 = some 17 ∧ stdToOtel 50 = some 21 := by
  refine ⟨?_, ?_, by decide, by decide, by decide, by decide, by decide⟩
  · rw [C54_total, Option.some.injEq]; unfold spec
    by_cases h1 : l < 10
    · simp [h1]
    · rw [if_neg h1]
      by_cases h2 : 53 < l
      · rw [if_pos h2]; exact ⟨fun h => absurd h (by decide), fun h => absurd h h1⟩
      · rw [if_neg h2]; omega
  · rw [C54_total, Option.some.injEq]; unfold spec
    by_cases h1 : l < 10
    · rw [if_pos h1]; omega
    · rw [if_neg h1]
      by_cases h2 : 53 < l
      · rw [if_pos h2]; omega
      · rw [if_neg h2]; omega

/-- **C54** The severity text is the name of the level, except that `WARNING` is written `WARN`. -/
theorem C54_text (s : Str) : (s ≠ "WARNING".toList → severityText s = s) ∧ severityText "WARNING".toList = "WARN".toList :=
  ⟨fun h => if_neg h, if_pos rfl⟩

example : (stdToOtel (-5), stdToOtel 17, stdToOtel 32, stdToOtel 1000) = (some 0, some 8, some 15, some 24) := by decide

end Severity
end Otel
