import Verif.Model.Rounding
import Verif.Spec.Metrics
/-!
# How far a rounded total may be from the true one
Numbers are compared as the rationals they denote; the specification knows nothing of how or when values are rounded.
-/
namespace Otel
namespace Rounding

/-- The true total of some measurements. -/
def total (vs : List Num) : ℚ := (vs.map Num.val).sum

/-- The total of their sizes. -/
def mass (vs : List Num) : ℚ := (vs.map fun v => |v.val|).sum

/-- `v` is within `(1 + 2^-53)^k - 1` of `S`, relative to the size `A`. -/
def Within (k : ℕ) (S A v : ℚ) : Prop := |v - S| ≤ ((1 + 1 / 2 ^ 53) ^ k - 1) * A

/-- All measurements are multiples of one power of two, and together they take at most 53 bits: for instance, integers
whose sizes add up to at most 2^53. -/
def FitsExactly (vs : List Num) : Prop :=
  ∃ e : ℤ, -1074 ≤ e ∧ (∀ v ∈ vs, ∃ m : ℤ, v.val = m * 2 ^ e) ∧ mass vs ≤ 2 ^ 53 * 2 ^ e

/-- A Python `int`. -/
def Num.isInt : Num → Bool
  | .int _ => true
  | .flt _ => false

/-- All measurements are of the same Python type: all `int` or all `float`. -/
def OneType (vs : List Num) : Prop := (∀ v ∈ vs, v.isInt = true) ∨ (∀ v ∈ vs, v.isInt = false)

/-- The last earlier cycle in which anything was observed. -/
def lastSeen (past : List (Metrics.Cycle Num)) : Option (Metrics.Cycle Num) :=
  (past.filter (fun c => !c.here.isEmpty)).getLast?

/-- What was observed in it. -/
def lastHere (past : List (Metrics.Cycle Num)) : List Num := ((lastSeen past).map (·.here)).getD []

/-- A histogram point describes the measurements `vs` in everything but its sum: as `Metrics.Describes` without the
sum. -/
structure DescribesButSum {α : Type} [LinearOrder α] (p : Metrics.HistPoint α) (bounds : List α) (mm : Bool) (vs : List α) : Prop where
  bounds_eq : p.bounds = bounds
  one_more : p.buckets.length = bounds.length + 1
  bucket : ∀ i, i ≤ bounds.length → ∀ (d : DecidablePred (Metrics.inBucket bounds i)),
    p.buckets[i]? = some (vs.countP (fun v => decide (Metrics.inBucket bounds i v)))
  total : p.buckets.sum = p.count
  count_eq : p.count = vs.length
  min_eq : if mm then Metrics.IsMin p.min vs else p.min = ⊤
  max_eq : if mm then Metrics.IsMax p.max vs else p.max = ⊥

/-- `n` times `add(1.0)` and a collection. -/
def addOnes (n : ℕ) : List (Metrics.Op Num) := (List.replicate n [.meas (.flt (Dbl.ofRat 1)), .coll 1]).flatten

/-- A float counter at 2^53, then `n` times `add(1.0)` and a collection. -/
def stuckHistory (n : ℕ) : List (Metrics.Op Num) :=
  .meas (.flt (Dbl.ofRat (2 ^ 53))) :: .coll 0 :: addOnes n

end Rounding
end Otel
