import Verif.Model.Views
import Verif.Model.ExpMapping
import Mathlib.Algebra.Order.Ring.Rat
import Mathlib.Tactic.Ring
/-!
# Measurements that are not finite numbers
Models what instruments and aggregations do with NaN and the infinities: the methods of
`opentelemetry-sdk/src/opentelemetry/sdk/metrics/_internal/instrument.py`, and `aggregation.py` in the same directory. `_SumAggregation` and
`_LastValueAggregation` are those of `Verif.Model.Metrics` on the type `Fl`; the histograms compare values, so they are modelled again with
Python's comparisons. Finite numbers are exact here (no rounding, no overflow).
-/
namespace Otel
namespace Metrics

/-- A Python float (or int): IEEE 754 with the finite values idealised to rationals, one zero and one NaN. -/
inductive Fl where
  | fin (q : ℚ)
  | pinf
  | ninf
  | nan
deriving DecidableEq

namespace Fl

/-- `a + b`. -/
def add : Fl → Fl → Fl
  | .nan, _ => .nan
  | _, .nan => .nan
  | .fin a, .fin b => .fin (a + b)
  | .fin _, y => y
  | .pinf, .ninf => .nan
  | .pinf, _ => .pinf
  | .ninf, .pinf => .nan
  | .ninf, _ => .ninf

/-- `-a`. -/
def neg : Fl → Fl
  | .fin a => .fin (-a)
  | .pinf => .ninf
  | .ninf => .pinf
  | .nan => .nan

/-- `a < b`: false if one of them is NaN. -/
def lt : Fl → Fl → Bool
  | .fin a, .fin b => decide (a < b)
  | .fin _, .pinf => true
  | .ninf, .fin _ => true
  | .ninf, .pinf => true
  | _, _ => false

instance : Zero Fl := ⟨.fin 0⟩
instance : Add Fl := ⟨add⟩
instance : Neg Fl := ⟨neg⟩
instance : Sub Fl := ⟨fun a b => a + -b⟩

/-- The builtin `min(a, b)`: the second only if it is less. -/
def pyMin (a b : Fl) : Fl := if lt b a then b else a

/-- The builtin `max(a, b)`: the second only if it is greater. -/
def pyMax (a b : Fl) : Fl := if lt a b then b else a

end Fl

/-- `Counter.add` (instrument.py:160–180), `UpDownCounter.add` (189–204), `Histogram.record` (251–272), `Gauge.set` (281–297): the value handed
to the consumer, or `none` if `amount < 0` refuses it. -/
def instrCallF (k : Kind) (amount : Fl) : Option Fl :=
  match k with
  | .counter => if Fl.lt amount 0 then none else some amount
  | .histogram => if Fl.lt amount 0 then none else some amount
  | _ => some amount

/-- The loop of `bisect.bisect_left` (Python standard library): `fuel` bounds the iterations, `hi - lo` suffices. -/
def bisectLoopF (a : List Fl) (x : Fl) : Nat → Nat → Nat → Nat
  | 0, lo, _ => lo
  | fuel + 1, lo, hi =>
    if lo < hi then
      let mid := (lo + hi) / 2
      match a[mid]? with
      | some y => if Fl.lt y x then bisectLoopF a x fuel (mid + 1) hi else bisectLoopF a x fuel lo mid
      | none => lo
    else lo

/-- `bisect_left(a, x)`. -/
def bisectF (a : List Fl) (x : Fl) : Nat := bisectLoopF a x a.length 0 a.length

/-- `HistogramDataPoint` (point.py), without attributes and exemplars. -/
structure HistPointF where
  start : Int
  time : Int
  count : Nat
  sum : Fl
  buckets : List Nat
  bounds : List Fl
  min : Fl
  max : Fl
deriving DecidableEq

/-- State of `_ExplicitBucketHistogramAggregation` (aggregation.py:467–505). -/
structure HistAggF where
  inst : Temporality
  start : Int
  bounds : List Fl
  recordMinMax : Bool
  value : Option (List Nat)
  min : Fl
  max : Fl
  sum : Fl
  prevValue : Option (List Nat)
  prevMin : Fl
  prevMax : Fl
  prevSum : Fl
  prevStart : Int

/-- The constructor, with the boundaries already chosen (aggregation.py:468–505). -/
def HistAggF.new (inst : Temporality) (start : Int) (bounds : List Fl) (recordMinMax : Bool) : HistAggF :=
  { inst := inst, start := start, bounds := bounds, recordMinMax := recordMinMax, value := none, min := .pinf, max := .ninf,
    sum := 0, prevValue := none, prevMin := .pinf, prevMax := .ninf, prevSum := 0, prevStart := start }

/-- `_get_empty_bucket_counts` (aggregation.py:507–508). -/
def HistAggF.empty (s : HistAggF) : List Nat := List.replicate (s.bounds.length + 1) 0

/-- `aggregate` (aggregation.py:510–527). -/
def HistAggF.aggregate (s : HistAggF) (v : Fl) : HistAggF :=
  { s with
    sum := s.sum + v
    min := if s.recordMinMax then Fl.pyMin s.min v else s.min
    max := if s.recordMinMax then Fl.pyMax s.max v else s.max
    value := some ((s.value.getD s.empty).modify (bisectF s.bounds v) (· + 1)) }

/-- `collect` (aggregation.py:529–612). -/
def HistAggF.collect (s : HistAggF) (t : Temporality) (now : Int) : Option HistPointF × HistAggF :=
  let s' := { s with value := none, sum := 0, min := .pinf, max := .ninf }
  match s.inst with
  | .cumulative => (none, s')
  | .delta =>
    match t with
    | .delta =>
      match s.value with
      | none => (none, { s' with prevStart := now })
      | some v =>
        (some { start := s.prevStart, time := now, count := v.sum, sum := s.sum, buckets := v, bounds := s.bounds,
                min := s.min, max := s.max }, { s' with prevStart := now })
    | .cumulative =>
      let pv := List.zipWith (· + ·) (s.value.getD s.empty) (s.prevValue.getD s.empty)
      let pmin := Fl.pyMin s.min s.prevMin
      let pmax := Fl.pyMax s.max s.prevMax
      let psum := s.sum + s.prevSum
      (some { start := s.start, time := now, count := pv.sum, sum := psum, buckets := pv, bounds := s.bounds,
              min := pmin, max := pmax },
       { s' with prevValue := some pv, prevMin := pmin, prevMax := pmax, prevSum := psum })

/-- A histogram stream of a synchronous instrument, for a reader that collects with temporality `t`. -/
def histFM (t : Temporality) (start : Int) (bounds : List Fl) (mm : Bool) : Machine Fl HistPointF :=
  { S := HistAggF, init := HistAggF.new .delta start bounds mm, aggregate := HistAggF.aggregate, collect := fun s now => s.collect t now }

namespace Exp

/-- The magnitude given to `map_to_index`: a finite double by its bits, infinity, or NaN. -/
inductive Mag where
  | fin (bits : Nat)
  | inf
  | nan
deriving DecidableEq

/-- `map_to_index` (logarithm_mapping.py:98–115 at positive scales, exponent_mapping.py:89–128 else) on magnitudes that may not be finite. The bits
of infinity are exponent field 2047 and mantissa 0, those of NaN exponent field 2047 and another mantissa, so `get_ieee_754_exponent` is 1024. At
a positive scale `floor(log(nan) * scale_factor)` raises `ValueError`: `none`. -/
def mapIndexF (R : Nat → ℚ) (s : Int) : Mag → Option Int
  | .fin bits => some (mapIndex R s bits)
  | .inf => some (if s ≤ 0 then shr (1024 + -1) (-s).toNat else 1024 * 2 ^ s.toNat - 1)
  | .nan => if s ≤ 0 then some (shr (1024 + 0) (-s).toNat) else none

/-- A measurement of an exponential histogram: zero, or a sign and a magnitude. NaN is neither zero nor positive, hence "negative"
(aggregation.py:731–744). -/
inductive Meas where
  | zero
  | pos (m : Mag)
  | neg (m : Mag)
deriving DecidableEq

/-- The part of `_ExponentialBucketHistogramAggregation` that `aggregate` uses, without sum, minimum and maximum. -/
structure CurF where
  maxSize : Nat
  mapScale : Int
  pos : Buckets
  neg : Buckets
  count : Nat
  zeroCount : Nat

/-- `aggregate` (aggregation.py:711–822): the state afterwards, and whether it raised. The counters and the sum are changed before the index is
asked for, so they stay changed if it raises. -/
def CurF.aggregate (R : Nat → ℚ) (c : CurF) (v : Meas) : CurF × Bool :=
  let c := { c with count := c.count + 1 }
  match v with
  | .zero => ({ c with zeroCount := c.zeroCount + 1 }, false)
  | .pos m =>
    match mapIndexF R c.mapScale m with
    | none => (c, true)
    | some _ =>
      match insert (fun s m => (mapIndexF R s m).getD 0) c.maxSize c.mapScale c.pos c.neg m with
      | some (pos, neg, sc) => ({ c with pos := pos, neg := neg, mapScale := sc }, false)
      | none => (c, true)
  | .neg m =>
    match mapIndexF R c.mapScale m with
    | none => (c, true)
    | some _ =>
      match insert (fun s m => (mapIndexF R s m).getD 0) c.maxSize c.mapScale c.neg c.pos m with
      | some (neg, pos, sc) => ({ c with pos := pos, neg := neg, mapScale := sc }, false)
      | none => (c, true)

end Exp
end Metrics
end Otel
