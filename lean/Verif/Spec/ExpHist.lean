import Verif.Model.ExpHist
import Verif.Spec.Metrics
/-!
# What exponential-histogram points should say
-/
namespace Otel
namespace Metrics
namespace Exp
variable {α : Type}

/-- The positive values. -/
def positives [Zero α] [LinearOrder α] (vs : List α) : List α := vs.filter (fun v => decide (0 < v))

/-- The magnitudes of the negative values. -/
def negatives [Zero α] [Neg α] [LinearOrder α] (vs : List α) : List α := (vs.filter (fun v => decide (v < 0))).map (fun v => -v)

/-- The count a list of buckets reports for bucket index `i`: entry `i - offset`, 0 outside. -/
def BucketsPoint.at (p : BucketsPoint) (i : Int) : Nat := if p.offset ≤ i then p.counts.getD (i - p.offset).toNat 0 else 0

/-- A list of buckets counts exactly the magnitudes `A`, each in its bucket at scale `s`. -/
structure Counts (idx : Int → α → Int) (s : Int) (p : BucketsPoint) (A : List α) : Prop where
  each : ∀ i, p.at i = A.countP (fun v => idx s v == i)
  total : p.counts.sum = A.length

/-- An exponential-histogram point describes exactly the measurements `vs`, at scale `s`. -/
structure Describes [AddCommGroup α] [LinearOrder α] (idx : Int → α → Int) (maxSize : Nat) (p : Point α) (s : Int) (vs : List α) : Prop where
  scale_eq : p.scale = some s
  scale_low : -10 ≤ s
  scale_high : s ≤ 20
  positive : Counts idx s p.positive (positives vs)
  negative : Counts idx s p.negative (negatives vs)
  positive_size : p.positive.counts.length ≤ maxSize
  negative_size : p.negative.counts.length ≤ maxSize
  zero_eq : p.zeroCount = vs.count 0
  count_eq : p.count = vs.length
  total : p.count = p.zeroCount + p.positive.counts.sum + p.negative.counts.sum
  sum_eq : p.sum = vs.sum
  min_eq : IsMin p.min vs
  max_eq : IsMax p.max vs

/-- The nonzero values. -/
def nonzero [Zero α] [LinearOrder α] (vs : List α) : List α := vs.filter (fun v => decide (v ≠ 0))

/-- The magnitude of a value. -/
def mag [Zero α] [Neg α] [LinearOrder α] (v : α) : α := if 0 < v then v else -v

/-- Run a history on an exponential-histogram stream, collecting with temporality `t`: `none` if a measurement raises, else the
final state and the outcome of every collection. -/
def run [Zero α] [Add α] [Neg α] [LinearOrder α] (idx : Int → α → Int) (t : Temporality) : Agg α → List (Op α) →
    Option (Agg α × List (Outcome (Point α)))
  | s, [] => some (s, [])
  | s, .meas v :: l =>
    match s.aggregate idx v with
    | none => none
    | some s' => run idx t s' l
  | s, .coll now :: l =>
    match run idx t (s.collect t now).2 l with
    | none => none
    | some (s', os) => some (s', (s.collect t now).1 :: os)

end Exp
end Metrics
end Otel
