import Verif.Model.Py
import Mathlib.Order.Lattice
import Mathlib.Algebra.Group.Defs
import Mathlib.Order.WithBot
/-!
# Metric aggregations
Models `_SumAggregation`, `_LastValueAggregation`, `_DropAggregation` and `_ExplicitBucketHistogramAggregation` of
`opentelemetry-sdk/src/opentelemetry/sdk/metrics/_internal/aggregation.py`. Every method body runs under the
aggregation's lock, so a history is a sequence of whole calls. Measurement values range over a type `α` with exact
addition (the integers; for floats this idealises rounding) and, for histograms, a linear order (so no NaN).
Exemplars are modelled separately.
-/
namespace Otel
namespace Metrics

/-- `AggregationTemporality` (aggregation.py:81–90); `UNSPECIFIED` is never used for collection. -/
inductive Temporality where
  | delta
  | cumulative
deriving DecidableEq

/-- `NumberDataPoint` (point.py), without attributes and exemplars. -/
structure NumPoint (α : Type) where
  start : Option Int
  time : Int
  value : α
deriving DecidableEq

/-! ## Sum -/

section Sum
variable {α : Type}

/-- State of `_SumAggregation` (aggregation.py:165–185). `inst` is the instrument's temporality: delta for synchronous
instruments, cumulative for asynchronous ones. -/
structure SumAgg (α : Type) where
  inst : Temporality
  start : Int
  value : Option α
  prevStart : Int
  prev : α

/-- The constructor. -/
def SumAgg.new [Zero α] (inst : Temporality) (start : Int) : SumAgg α :=
  { inst := inst, start := start, value := none, prevStart := start, prev := 0 }

/-- `aggregate` (aggregation.py:187–196). -/
def SumAgg.aggregate [Zero α] [Add α] (s : SumAgg α) (v : α) : SumAgg α :=
  { s with value := some (s.value.getD 0 + v) }

/-- `collect` (aggregation.py:198–403). -/
def SumAgg.collect [Zero α] [Add α] [Sub α] (s : SumAgg α) (t : Temporality) (now : Int) : Option (NumPoint α) × SumAgg α :=
  match s.inst with
  | .delta =>
    match t with
    | .delta =>
      match s.value with
      | none => (none, { s with value := none, prevStart := now })
      | some v => (some ⟨some s.prevStart, now, v⟩, { s with value := none, prevStart := now })
    | .cumulative =>
      (some ⟨some s.start, now, s.value.getD 0 + s.prev⟩, { s with value := none, prev := s.value.getD 0 + s.prev })
  | .cumulative =>
    match s.value with
    | none => (none, { s with value := none })
    | some v =>
      match t with
      | .delta => (some ⟨some s.prevStart, now, v - s.prev⟩, { s with value := none, prev := v, prevStart := now })
      | .cumulative => (some ⟨some s.start, now, v⟩, { s with value := none })

end Sum

/-! ## Last value and drop -/

section Last
variable {α : Type}

/-- State of `_LastValueAggregation` (aggregation.py:406–413). -/
structure LastAgg (α : Type) where
  value : Option α

/-- `aggregate` (aggregation.py:415–421). -/
def LastAgg.aggregate (_ : LastAgg α) (v : α) : LastAgg α := ⟨some v⟩

/-- `collect` (aggregation.py:423–445): whatever the temporality. -/
def LastAgg.collect (s : LastAgg α) (_ : Temporality) (now : Int) : Option (NumPoint α) × LastAgg α :=
  match s.value with
  | none => (none, s)
  | some v => (some ⟨none, now, v⟩, ⟨none⟩)

end Last

/-! ## Explicit-bucket histogram -/

section Hist
variable {α : Type}

/-- The loop of `bisect.bisect_left` (Python standard library): `fuel` bounds the iterations, `hi - lo` suffices. -/
def bisectLoop [LinearOrder α] (a : List α) (x : α) : Nat → Nat → Nat → Nat
  | 0, lo, _ => lo
  | fuel + 1, lo, hi =>
    if lo < hi then
      let mid := (lo + hi) / 2
      match a[mid]? with
      | some y => if y < x then bisectLoop a x fuel (mid + 1) hi else bisectLoop a x fuel lo mid
      | none => lo
    else lo

/-- `bisect_left(a, x)`. -/
def bisectLeft [LinearOrder α] (a : List α) (x : α) : Nat := bisectLoop a x a.length 0 a.length

/-- `HistogramDataPoint` (point.py), without attributes and exemplars; `⊤`/`⊥` are ±infinity. -/
structure HistPoint (α : Type) where
  start : Int
  time : Int
  count : Nat
  sum : α
  buckets : List Nat
  bounds : List α
  min : WithTop α
  max : WithBot α

/-- State of `_ExplicitBucketHistogramAggregation` (aggregation.py:467–505). -/
structure HistAgg (α : Type) where
  inst : Temporality
  start : Int
  bounds : List α
  recordMinMax : Bool
  value : Option (List Nat)
  min : WithTop α
  max : WithBot α
  sum : α
  prevValue : Option (List Nat)
  prevMin : WithTop α
  prevMax : WithBot α
  prevSum : α
  prevStart : Int

/-- The constructor, with the boundaries already chosen (aggregation.py:468–505). -/
def HistAgg.new [Zero α] (inst : Temporality) (start : Int) (bounds : List α) (recordMinMax : Bool) : HistAgg α :=
  { inst := inst, start := start, bounds := bounds, recordMinMax := recordMinMax, value := none, min := ⊤, max := ⊥,
    sum := 0, prevValue := none, prevMin := ⊤, prevMax := ⊥, prevSum := 0, prevStart := start }

/-- `_get_empty_bucket_counts` (aggregation.py:507–508). -/
def HistAgg.empty (s : HistAgg α) : List Nat := List.replicate (s.bounds.length + 1) 0

/-- `aggregate` (aggregation.py:510–527). -/
def HistAgg.aggregate [Add α] [LinearOrder α] (s : HistAgg α) (v : α) : HistAgg α :=
  { s with
    sum := s.sum + v
    min := if s.recordMinMax then Min.min s.min (v : WithTop α) else s.min
    max := if s.recordMinMax then Max.max s.max (v : WithBot α) else s.max
    value := some ((s.value.getD s.empty).modify (bisectLeft s.bounds v) (· + 1)) }

/-- `collect` (aggregation.py:529–612). -/
def HistAgg.collect [Zero α] [Add α] [LinearOrder α] (s : HistAgg α) (t : Temporality) (now : Int) :
    Option (HistPoint α) × HistAgg α :=
  let s' := { s with value := none, sum := 0, min := ⊤, max := ⊥ }
  match s.inst with
  | .cumulative => (none, s')
  | .delta =>
    match t with
    | .delta =>
      match s.value with
      | none => (none, { s' with prevStart := now })
      | some v =>
        (some { start := s.prevStart, time := now, count := v.sum, sum := s.sum, buckets := v, bounds := s.bounds,
                min := s.min, max := s.max }, { s' with prevStart := now })
    | .cumulative =>
      let pv := List.zipWith (· + ·) (s.value.getD s.empty) (s.prevValue.getD s.empty)
      let pmin := Min.min s.min s.prevMin
      let pmax := Max.max s.max s.prevMax
      let psum := s.sum + s.prevSum
      (some { start := s.start, time := now, count := pv.sum, sum := psum, buckets := pv, bounds := s.bounds,
              min := pmin, max := pmax },
       { s' with prevValue := some pv, prevMin := pmin, prevMax := pmax, prevSum := psum })

end Hist

/-! ## Histories -/

/-- One call on an aggregation: a measurement, or a collection at a time. -/
inductive Op (α : Type) where
  | meas (v : α)
  | coll (now : Int)
deriving DecidableEq

/-- An aggregation as an object with methods. -/
structure Machine (α P : Type) where
  S : Type
  init : S
  aggregate : S → α → S
  collect : S → Int → Option P × S

variable {α P : Type}

/-- Run a history: the final state and what each collection returned. -/
def Machine.run (m : Machine α P) : m.S → List (Op α) → m.S × List (Option P)
  | s, [] => (s, [])
  | s, .meas v :: l => m.run (m.aggregate s v) l
  | s, .coll t :: l =>
    let r := m.collect s t
    let q := m.run r.2 l
    (q.1, r.1 :: q.2)

/-- What the collections of a history return. -/
def Machine.out (m : Machine α P) (l : List (Op α)) : List (Option P) := (m.run m.init l).2

/-- A sum stream of a reader that collects with temporality `t`. -/
def sumM [Zero α] [Add α] [Sub α] (inst t : Temporality) (start : Int) : Machine α (NumPoint α) :=
  { S := SumAgg α, init := SumAgg.new inst start, aggregate := SumAgg.aggregate, collect := fun s now => s.collect t now }

/-- A last-value stream. -/
def lastM (t : Temporality) : Machine α (NumPoint α) :=
  { S := LastAgg α, init := ⟨none⟩, aggregate := LastAgg.aggregate, collect := fun s now => s.collect t now }

/-- A dropping stream (aggregation.py:151–162). -/
def dropM : Machine α (NumPoint α) :=
  { S := Unit, init := (), aggregate := fun _ _ => (), collect := fun _ _ => (none, ()) }

/-- A histogram stream. -/
def histM [Zero α] [Add α] [LinearOrder α] (inst t : Temporality) (start : Int) (bounds : List α) (mm : Bool) :
    Machine α (HistPoint α) :=
  { S := HistAgg α, init := HistAgg.new inst start bounds mm, aggregate := HistAgg.aggregate,
    collect := fun s now => s.collect t now }

end Metrics
end Otel
