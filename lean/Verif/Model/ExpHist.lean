import Verif.Model.Metrics
import Mathlib.Data.Nat.Log
/-!
# Exponential histograms
Models `Buckets` (`sdk/metrics/_internal/exponential_histogram/buckets.py`) and `_ExponentialBucketHistogramAggregation`
(`sdk/metrics/_internal/aggregation.py:616–1190`). The mapping from positive values to bucket indices at each scale is a
parameter `idx`; the two mappings of the code are modelled in `Verif.Model.ExpMapping`. Exceptions are modelled: `none`, or
the `Bool` of `merge`.
-/
namespace Otel
namespace Metrics
namespace Exp

/-- Python `x >> k` on integers: arithmetic shift, i.e. floor division by `2 ** k`. -/
def shr (x : Int) (k : Nat) : Int := x / (2 ^ k : Nat)

/-- `Buckets` (buckets.py:18–73): `counts` is a circular array, `base` the index of its position 0, `start` and `stop` the
smallest and largest bucket index it represents. -/
structure Buckets where
  counts : List Nat
  base : Int
  start : Int
  stop : Int
deriving DecidableEq

namespace Buckets

/-- `Buckets()` (buckets.py:22–43). -/
def new : Buckets := ⟨[0], 0, 0, 0⟩

/-- `bias` (buckets.py:76, 81, 117, 131). `index_base` is never below `index_start` in a reachable state, which
`Verif.Lemmas.ExpHist` proves; hence a natural number. -/
def bias (b : Buckets) : Nat := (b.base - b.start).toNat

/-- `get_offset_counts` (buckets.py:75–77): `counts[-bias:] + counts[:-bias]`. -/
def offsetCounts (b : Buckets) : List Nat :=
  b.counts.drop (b.counts.length - b.bias) ++ b.counts.take (b.counts.length - b.bias)

/-- `grow` (buckets.py:79–103). `2 ** ceil(log2(needed))` is exact for the sizes allowed (at most 16384). The two slice
assignments are written out. -/
def grow (b : Buckets) (needed maxSize : Nat) : Buckets :=
  let oldLimit := b.counts.length - b.bias
  let newSize := Nat.min (2 ^ Nat.clog 2 needed) maxSize
  let newLimit := newSize - b.bias
  let tmp := List.replicate newSize 0
  let tmp := tmp.take newLimit ++ b.counts.drop oldLimit
  let tmp := b.counts.take oldLimit ++ tmp.drop oldLimit
  { b with counts := tmp }

/-- `__getitem__` (buckets.py:116–124). -/
def getItem (b : Buckets) (key : Int) : Nat :=
  let bias : Int := b.bias
  let key := if key < bias then key + b.counts.length else key
  b.counts.getD (key - bias).toNat 0

/-- `__len__` (buckets.py:107–114). -/
def len (b : Buckets) : Int :=
  if b.counts.length = 0 then 0
  else if b.stop = b.start ∧ b.getItem 0 = 0 then 0
  else b.stop - b.start + 1

/-- The inner loop of `downscale` (buckets.py:161–168), at most `fuel` iterations (`size` suffice): returns the counts, `inpos` and `pos`. -/
def inner (each size outpos : Nat) : Nat → List Nat → Nat → Int → Nat → List Nat × Nat × Int
  | 0, c, inpos, pos, _ => (c, inpos, pos)
  | fuel + 1, c, inpos, pos, index =>
    if index < each ∧ inpos < size then
      let c' := if outpos ≠ inpos then (c.set outpos (c.getD outpos 0 + c.getD inpos 0)).set inpos 0 else c
      inner each size outpos fuel c' (inpos + 1) (pos + 1) (index + 1)
    else (c, inpos, pos)

/-- The outer loop of `downscale` (buckets.py:154–170), at most `fuel` iterations (`size` suffice). -/
def outer (each size : Nat) (stop : Int) : Nat → List Nat → Nat → Nat → Int → List Nat
  | 0, c, _, _, _ => c
  | fuel + 1, c, inpos, outpos, pos =>
    if pos ≤ stop then
      let r := inner each size outpos size c inpos pos (pos % (each : Int)).toNat
      outer each size stop fuel r.1 r.2.1 (outpos + 1) r.2.2
    else c

/-- The rotation of `downscale` (buckets.py:133–145): reverse, then reverse the two parts. -/
def rotate (b : Buckets) : Buckets :=
  if b.bias = 0 then b
  else
    let r := b.counts.reverse
    { b with base := b.start, counts := (r.take b.bias).reverse ++ (r.drop b.bias).reverse }

/-- `downscale` (buckets.py:126–173). -/
def downscale (b : Buckets) (amount : Nat) : Buckets :=
  let b := b.rotate
  let size := (1 + b.stop - b.start).toNat
  let c := outer (2 ^ amount) size b.stop size b.counts 0 0 b.start
  ⟨c, shr b.start amount, shr b.start amount, shr b.stop amount⟩

/-- `self._counts[i] += k` (buckets.py:175–176), with Python's negative indices; `none` is an `IndexError`. -/
def incAt (b : Buckets) (i : Int) (k : Nat) : Option Buckets :=
  if 0 ≤ i then
    if i < b.counts.length then some { b with counts := b.counts.modify i.toNat (· + k) } else none
  else
    if 0 ≤ i + b.counts.length then some { b with counts := b.counts.modify (i + b.counts.length).toNat (· + k) } else none

/-- `copy_empty` (buckets.py:178–190). -/
def copyEmpty (b : Buckets) : Buckets := { b with counts := List.replicate b.counts.length 0 }

/-- Make room for `index` (aggregation.py:791–806). -/
def extend (b : Buckets) (index : Int) (maxSize : Nat) : Buckets :=
  if index < b.start then
    let span := b.stop - index
    let b := if span ≥ b.counts.length then b.grow (span + 1).toNat maxSize else b
    { b with start := index }
  else if index > b.stop then
    let span := index - b.start
    let b := if span ≥ b.counts.length then b.grow (span + 1).toNat maxSize else b
    { b with stop := index }
  else b

/-- The position of `index` (aggregation.py:808–811) and the increment (aggregation.py:820). -/
def add (b : Buckets) (index : Int) (k : Nat) : Option Buckets :=
  let i := index - b.base
  b.incAt (if i < 0 then i + b.counts.length else i) k

end Buckets

/-- `_get_scale_change` (aggregation.py:1109–1118), at most `fuel` iterations. -/
def scaleChange (maxSize : Nat) : Nat → Int → Int → Nat
  | 0, _, _ => 0
  | fuel + 1, low, high =>
    if high - low ≥ maxSize then scaleChange maxSize fuel (shr low 1) (shr high 1) + 1 else 0

/-- Enough fuel: the distance halves (rounding up) until it is below `maxSize ≥ 2`. -/
def scaleFuel (low high : Int) : Nat := (high - low).toNat + 1

/-- `_new_mapping` (aggregation.py:1103–1107): raises outside the supported scales (exponent_mapping.py:39–49,
logarithm_mapping.py:38–51, mapping/__init__.py:40–46). -/
def newMapping (scale : Int) : Option Int := if -10 ≤ scale ∧ scale ≤ 20 then some scale else none

/-- Does the new index need a rescale, and between which indices (aggregation.py:754–774)? -/
def rescale (b : Buckets) (index : Int) (maxSize : Nat) : Option (Int × Int) :=
  if index < b.start ∧ b.stop - index ≥ maxSize then some (index, b.stop)
  else if index > b.stop ∧ index - b.start ≥ maxSize then some (b.start, index)
  else none

/-- Record the positive value `v` in `this`, the buckets of its sign (aggregation.py:749–820): the new `this` and `other`, and the new
scale of the mapping. `none` is an exception. -/
def insert {α : Type} (idx : Int → α → Int) (maxSize : Nat) (scale : Int) (this other : Buckets) (v : α) :
    Option (Buckets × Buckets × Int) :=
  let index := idx scale v
  if this.len = 0 then do
    let this := { this with start := index, stop := index, base := index }
    let this ← (this.extend index maxSize).add index 1
    pure (this, other, scale)
  else
    match rescale this index maxSize with
    | some (low, high) => do
      let change := scaleChange maxSize (scaleFuel low high) low high
      let this := if change = 0 then this else this.downscale change
      let other := if change = 0 then other else other.downscale change
      let scale ← newMapping (scale - change)
      let index := idx scale v
      let this ← (this.extend index maxSize).add index 1
      pure (this, other, scale)
    | none => do
      let this ← (this.extend index maxSize).add index 1
      pure (this, other, scale)

/-- `Buckets` in a data point (point.py `Buckets`): offset and counts. -/
structure BucketsPoint where
  offset : Int
  counts : List Nat
deriving DecidableEq

/-- `BucketsPoint(offset=b.offset, bucket_counts=b.get_offset_counts())`. -/
def Buckets.point (b : Buckets) : BucketsPoint := ⟨b.start, b.offsetCounts⟩

/-- `ExponentialHistogramDataPoint` (point.py), without attributes, exemplars and flags. -/
structure Point (α : Type) where
  start : Int
  time : Int
  count : Nat
  sum : α
  scale : Option Int
  zeroCount : Nat
  positive : BucketsPoint
  negative : BucketsPoint
  min : WithTop α
  max : WithBot α

/-- State of `_ExponentialBucketHistogramAggregation` (aggregation.py:666–709). `mapScale` is `self._mapping.scale`. -/
structure Agg (α : Type) where
  inst : Temporality
  start : Int
  maxSize : Nat
  mapScale : Int
  pos : Option Buckets
  neg : Option Buckets
  min : WithTop α
  max : WithBot α
  sum : α
  count : Nat
  zeroCount : Nat
  scale : Option Int
  prevPos : Option Buckets
  prevNeg : Option Buckets
  prevMin : WithTop α
  prevMax : WithBot α
  prevSum : α
  prevCount : Nat
  prevZero : Nat
  prevScale : Option Int
  prevStart : Int

variable {α : Type}

/-- The constructor (aggregation.py:627–709): `none` if it raises. -/
def Agg.new [Zero α] (inst : Temporality) (start : Int) (maxSize : Int) (maxScale : Int) : Option (Agg α) :=
  if maxSize < 2 then none
  else if maxSize > 16384 then none
  else (newMapping maxScale).map (fun sc =>
    { inst := inst, start := start, maxSize := maxSize.toNat, mapScale := sc, pos := none, neg := none, min := ⊤, max := ⊥,
      sum := 0, count := 0, zeroCount := 0, scale := none, prevPos := none, prevNeg := none, prevMin := ⊤, prevMax := ⊥,
      prevSum := 0, prevCount := 0, prevZero := 0, prevScale := none, prevStart := start })

/-- `aggregate` (aggregation.py:711–822); `none` if it raises. -/
def Agg.aggregate [Zero α] [Add α] [Neg α] [LinearOrder α] (idx : Int → α → Int) (s : Agg α) (v : α) : Option (Agg α) :=
  let pos := s.pos.getD Buckets.new
  let neg := s.neg.getD Buckets.new
  let s := { s with pos := some pos, neg := some neg, sum := s.sum + v, min := Min.min s.min (v : WithTop α),
                    max := Max.max s.max (v : WithBot α), count := s.count + 1 }
  if v = 0 then
    let s := { s with zeroCount := s.zeroCount + 1 }
    some (if s.count = s.zeroCount then { s with scale := some 0 } else s)
  else if 0 < v then
    match insert idx s.maxSize s.mapScale pos neg v with
    | some (pos, neg, sc) => some { s with pos := some pos, neg := some neg, mapScale := sc, scale := some sc }
    | none => none
  else
    match insert idx s.maxSize s.mapScale neg pos (-v) with
    | some (neg, pos, sc) => some { s with pos := some pos, neg := some neg, mapScale := sc, scale := some sc }
    | none => none

/-- `_get_low_high` (aggregation.py:1094–1101). -/
def lowHigh (b : Buckets) (shift : Nat) : Int × Int :=
  if b.counts = [0] then (0, -1) else (shr b.start shift, shr b.stop shift)

/-- `_get_low_high_previous_current` (aggregation.py:1066–1092). -/
def lowHighBoth (prev cur : Buckets) (prevShift curShift : Nat) : Int × Int :=
  let p := lowHigh prev prevShift
  let c := lowHigh cur curShift
  if c.1 > c.2 then p
  else if p.1 > p.2 then c
  else (Min.min p.1 c.1, Max.max p.2 c.2)

/-- One current bucket of `_merge` (aggregation.py:1142–1190): `n` counts at position `i` of the current array. `false` is an
exception. The `DELTA` branch of `_merge` is not reached, as `collect` merges only for cumulative collection. -/
def mergeOne (maxSize : Nat) (change : Nat) (cur : Buckets) (prev : Buckets) (i n : Nat) : Buckets × Bool :=
  if n = 0 then (prev, true)
  else
    let ci : Int := cur.base + i
    let ci := if ci > cur.stop then ci - cur.counts.length else ci
    let index := shr ci change
    if index < prev.start ∧ prev.stop - index ≥ maxSize then (prev, false)
    else if index > prev.stop ∧ index - prev.start ≥ maxSize then (prev, false)
    else
      match (prev.extend index maxSize).add index n with
      | some b => (b, true)
      | none => (prev.extend index maxSize, false)

/-- The loop of `_merge` over `enumerate(current_buckets.counts)` from position `i` on. -/
def mergeLoop (maxSize change : Nat) (cur : Buckets) : Buckets → Nat → List Nat → Buckets × Bool
  | prev, _, [] => (prev, true)
  | prev, i, n :: ns =>
    let r := mergeOne maxSize change cur prev i n
    if r.2 then mergeLoop maxSize change cur r.1 (i + 1) ns else r

/-- `_merge` (aggregation.py:1132–1190). -/
def merge (maxSize change : Nat) (prev cur : Buckets) : Buckets × Bool := mergeLoop maxSize change cur prev 0 cur.counts

/-- What the four `if`s make of the current and previous buckets of one side (aggregation.py:891–969). -/
def pair : Option Buckets → Option Buckets → Buckets × Buckets
  | none, none => (Buckets.new, Buckets.new.copyEmpty)
  | some v, none => (v, v.copyEmpty)
  | none, some p => (p.copyEmpty, p)
  | some v, some p => (v, p)

/-- The same for the scales (aggregation.py:905–907, 948–949, 966–967). -/
def pairScale (mapScale : Int) : Option Int → Option Int → Int × Int
  | none, none => (mapScale, mapScale)
  | some v, none => (v, v)
  | none, some p => (p, p)
  | some v, some p => (v, p)

/-- What a call of `collect` did: returned (maybe nothing) or raised. -/
inductive Outcome (P : Type) where
  | returned (p : Option P)
  | raised
deriving DecidableEq

/-- The cumulative part of `collect` (aggregation.py:875–1062), on the state `s` before the call and the state `s'` with the
current values already reset. -/
def Agg.collectCumulative [Add α] [LinearOrder α] (s s' : Agg α) (now : Int) : Outcome (Point α) × Agg α :=
  let (vp, pp) := pair s.pos s.prevPos
  let (vn, pn) := pair s.neg s.prevNeg
  let (scale, prevScale) := pairScale s.mapScale s.scale s.prevScale
  let minScale := Min.min prevScale scale
  let lp := lowHighBoth pp vp (prevScale - minScale).toNat (scale - minScale).toNat
  let ln := lowHighBoth pn vn (prevScale - minScale).toNat (scale - minScale).toNat
  let minScale := Min.min (minScale - (scaleChange s.maxSize (scaleFuel lp.1 lp.2) lp.1 lp.2 : Int))
    (minScale - (scaleChange s.maxSize (scaleFuel ln.1 ln.2) ln.1 ln.2 : Int))
  let change := prevScale - minScale
  if change < 0 then (.raised, { s' with prevPos := some pp, prevNeg := some pn, prevScale := some prevScale })
  else
    let pp := if change = 0 then pp else pp.downscale change.toNat
    let pn := if change = 0 then pn else pn.downscale change.toNat
    let (pp, okp) := merge s.maxSize (scale - minScale).toNat pp vp
    if okp = false then (.raised, { s' with prevPos := some pp, prevNeg := some pn, prevScale := some prevScale })
    else
      let (pn, okn) := merge s.maxSize (scale - minScale).toNat pn vn
      if okn = false then (.raised, { s' with prevPos := some pp, prevNeg := some pn, prevScale := some prevScale })
      else
        let pmin := Min.min s.min s.prevMin
        let pmax := Max.max s.max s.prevMax
        let psum := s.sum + s.prevSum
        let pcount := s.count + s.prevCount
        let pzero := s.zeroCount + s.prevZero
        (.returned (some { start := s.start, time := now, count := pcount, sum := psum, scale := some minScale, zeroCount := pzero,
                           positive := pp.point, negative := pn.point, min := pmin, max := pmax }),
         { s' with prevPos := some pp, prevNeg := some pn, prevMin := pmin, prevMax := pmax, prevSum := psum,
                   prevCount := pcount, prevZero := pzero, prevScale := some minScale })

/-- `collect` (aggregation.py:824–1064). -/
def Agg.collect [Zero α] [Add α] [LinearOrder α] (s : Agg α) (t : Temporality) (now : Int) : Outcome (Point α) × Agg α :=
  let s' := { s with pos := none, neg := none, sum := 0, min := ⊤, max := ⊥, count := 0, zeroCount := 0, scale := none }
  match s.inst with
  | .cumulative => (.returned none, s')
  | .delta =>
    match t with
    | .delta =>
      let s' := { s' with prevStart := now }
      match s.pos, s.neg with
      | none, none => (.returned none, s')
      | some p, some n =>
        (.returned (some { start := s.prevStart, time := now, count := s.count, sum := s.sum, scale := s.scale,
                           zeroCount := s.zeroCount, positive := p.point, negative := n.point, min := s.min, max := s.max }), s')
      | _, _ => (.raised, s')
    | .cumulative => s.collectCumulative s' now

end Exp
end Metrics
end Otel
