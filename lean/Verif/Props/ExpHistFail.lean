import Verif.Props.ExpHist
import Mathlib.Tactic.NormNum
import Mathlib.Tactic.Linarith
import Mathlib.Tactic.Ring
/-!
# C37: how a cumulative exponential-histogram collection fails
-/
namespace Otel
namespace Metrics
namespace Exp
open Buckets
variable {α : Type}

section Fail
variable [AddCommGroup α] [LinearOrder α] [IsOrderedAddMonoid α]

/-- **C37** (refutation of the full property) A stream of which the first cycle holds only a zero (or any cycle in which a sign has
not been seen yet), followed by a positive measurement whose index at scale `min 0 maxScale` is `maxSize` or more away from 0, makes
the next cumulative collection raise. With the default `maxSize = 160` that is every value above 2^160 or not above 2^-160. -/
theorem C37_zero_then_large_raises {idx : Int → α → Int} {V : α → Prop} (hco : Coherent idx V) (start maxSize maxScale t1 t2 : Int) (s : Agg α)
    (hs : Agg.new .delta start maxSize maxScale = some s) (v : α) (hv : 0 < v) (hV : V v)
    (hfar : maxSize ≤ idx (min 0 maxScale) v ∨ idx (min 0 maxScale) v ≤ -maxSize) :
    ∃ (s' : Agg α) (p : Point α), run idx .cumulative s [.meas 0, .coll t1, .meas v, .coll t2] = some (s', [.returned (some p), .raised]) ∧
      p.count = 1 ∧ p.zeroCount = 1 ∧ p.scale = some 0 := by
  unfold Agg.new newMapping at hs
  split at hs
  · cases hs
  split at hs
  · cases hs
  split at hs
  swap
  · cases hs
  rename_i h1 h2 h3
  simp only [Option.map_some, Option.some.injEq] at hs
  subst hs
  have hne : v ≠ 0 := ne_of_gt hv
  obtain ⟨n, rfl⟩ : ∃ n : Nat, maxSize = n := ⟨maxSize.toNat, by omega⟩
  have hsh : idx (min 0 maxScale) v = shr (idx maxScale v) (maxScale - min 0 maxScale).toNat := by
    have := hco.shift v hV maxScale (maxScale - min 0 maxScale).toNat h3.2 (by omega)
    rwa [show maxScale - ((maxScale - min 0 maxScale).toNat : Int) = min 0 maxScale by omega] at this
  have hsc : ∀ (m : Nat) (a : Int), 2 ≤ m → scaleChange m (scaleFuel a a) a a = 0 := by
    intro m a hm
    simp [scaleFuel, scaleChange]; omega
  have hsc' : ∀ (m : Nat), scaleChange m (scaleFuel 0 (-1)) 0 (-1) = 0 := by
    intro m
    simp [scaleFuel, scaleChange]; omega
  simp only [run]
  simp [Agg.aggregate, hne, hv]
  simp [insert, Agg.collect, Agg.collectCumulative, pair, pairScale, Buckets.new, Buckets.copyEmpty, Buckets.len, Buckets.getItem, Buckets.bias, lowHighBoth, lowHigh, merge, mergeLoop, mergeOne, hsc', Buckets.extend, Buckets.add, Buckets.incAt, hsc n _ (by omega)]
  have hnew : (if 0 ≤ maxScale then (⟨[0], 0, 0, 0⟩ : Buckets) else (⟨[0], 0, 0, 0⟩ : Buckets).downscale (-min 0 maxScale).toNat) = ⟨[0], 0, 0, 0⟩ := by
    split
    · rfl
    · exact new_downscale _
  simp only [hnew, ← hsh]
  generalize idx (min 0 maxScale) v = x at hfar
  rcases hfar with hfar | hfar
  · simp [show ¬ x < 0 by omega, show 0 < x by omega, hfar]
  · simp [show x < 0 by omega, show (n : Int) ≤ -x by omega]

end Fail

/-- A mapping of positive integers, like the one of the code on powers of two: at scale 0 the bucket `i` is `(2^i, 2^(i+1)]`. -/
def idxPow (s : Int) (v : Int) : Int :=
  if s ≤ 0 then shr ((Nat.clog 2 v.toNat : Int) - 1) (-s).toNat else (Nat.clog 2 v.toNat : Int) * 2 ^ s.toNat - 1

theorem idxPow_pos (k : Int) (s : Nat) : shr (k * 2 ^ s - 1) s = k - 1 := by
  unfold shr
  have h2 : (0 : Int) < 2 ^ s := by positivity
  push_cast
  rw [Int.ediv_eq_iff_of_pos h2]
  constructor <;> nlinarith

theorem idxPow_coherent : Coherent idxPow (fun v => 1 ≤ v ∧ v ≤ 2 ^ 1024) := by
  constructor
  · intro v _ s c h1 h2
    unfold idxPow
    by_cases hs : s ≤ 0
    · rw [if_pos hs, if_pos (by omega), shr_shr]
      congr 1; omega
    · rw [if_neg hs]
      by_cases hc : s - c ≤ 0
      · rw [if_pos hc, show c = s.toNat + (c - s.toNat) by omega, ← shr_shr, idxPow_pos]
        congr 1; omega
      · rw [if_neg hc]
        have : (Nat.clog 2 v.toNat : Int) * 2 ^ s.toNat - 1 = ((Nat.clog 2 v.toNat : Int) * 2 ^ (s - c).toNat) * 2 ^ c - 1 := by
          rw [mul_assoc, ← pow_add]; congr 3; omega
        rw [this, idxPow_pos]
  · intro v hv
    unfold idxPow
    rw [if_pos (by omega)]
    have hle : Nat.clog 2 v.toNat ≤ 1024 := by
      apply Nat.clog_le_of_le_pow
      have : (v.toNat : Int) ≤ ((2 ^ 1024 : Nat) : Int) := by rw [Int.toNat_of_nonneg (by omega)]; push_cast; exact hv.2
      exact_mod_cast this
    unfold shr
    rw [show (-(-10 : Int)).toNat = 10 from rfl]
    norm_num
    omega

/-- The outcomes of a history on a fresh stream, cumulative: raised, or the count of the point. -/
def outcomes (maxSize maxScale : Int) (l : List (Op Int)) : List (Option Nat) :=
  match Agg.new .delta 0 maxSize maxScale with
  | none => []
  | some s =>
    match run idxPow .cumulative s l with
    | none => []
    | some (_, os) => os.map (fun o => match o with | .returned (some p) => some p.count | .returned none => some 0 | .raised => none)

/-- **C37** (refutation) The failing collection also loses the measurements of its cycle: the next point does not count them. -/
theorem C37_measurements_lost :
    outcomes 4 0 [.meas 0, .coll 1, .meas 1000, .coll 2, .meas 0, .coll 3] = [some 1, none, some 2] := by
  decide

/-- **C37** (refutation) An up-down counter: −1, collect, then +1000. -/
theorem C37_sign_change_raises :
    outcomes 4 0 [.meas (-1), .coll 1, .meas 1000, .coll 2] = [some 1, none] := by
  decide

/-- Without a collection in between nothing fails. -/
example : outcomes 4 20 [.meas (-1), .meas 1000, .coll 2, .meas 1, .meas (-1000), .coll 3] = [some 2, some 4] := by decide

example : ∃ s : Agg Int, Agg.new .delta 0 4 0 = some s ∧ (4 : Int) ≤ idxPow (min 0 0) 1000 ∧ (1 : Int) ≤ 1000 ∧ (1000 : Int) ≤ 2 ^ 1024 :=
  ⟨_, rfl, by decide, by decide, le_trans (by decide : (1000 : Int) ≤ 2 ^ 10) (pow_le_pow_right₀ (by decide) (by decide))⟩
end Exp
end Metrics
end Otel
