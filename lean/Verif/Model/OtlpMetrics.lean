import Verif.Model.Otlp
import Verif.Model.Views
/-!
# OTLP encoding of metrics
Models `_encode_metric`, `_encode_exemplars` and `OTLPMetricExporterMixin` in
`exporter/opentelemetry-exporter-otlp-proto-common/src/opentelemetry/exporter/otlp/proto/common/_internal/metrics_encoder/__init__.py`.
-/
namespace Otel
namespace Otlp

/-- A Python number; floats are opaque. A `bool` counts as the `int` it equals. -/
inductive Num where
  | int (i : Int)
  | float (id : Nat)
deriving DecidableEq

/-- `Exemplar` (sdk). -/
structure SdkExemplar where
  attrs : List (Str × PyVal)
  value : Num
  time : Nat
  spanId : Option Int
  traceId : Option Int

/-- The protobuf `Exemplar`: bytes fields that are not set are empty. -/
structure PBExemplar where
  attrs : List (Str × Option PB)
  value : Num
  time : Nat
  spanId : List Nat
  traceId : List Nat

/-- `as_int` is an `sfixed64`: setting it beyond 64 bits raises. -/
def encodeNum : Num → Option Num
  | .int i => if -(2 ^ 63) ≤ i ∧ i < 2 ^ 63 then some (.int i) else none
  | .float f => some (.float f)

/-- The ids of an exemplar (358–377): both or none. -/
def exemplarIds (e : SdkExemplar) : Option (List Nat × List Nat) :=
  match e.spanId, e.traceId with
  | some s, some t =>
    match encodeSpanId s, encodeTraceId t with
    | some s, some t => some (s, t)
    | _, _ => none
  | _, _ => some ([], [])

/-- The body of the loop of `_encode_exemplars` (357–385). -/
def encodeExemplar (e : SdkExemplar) : Option PBExemplar :=
  match exemplarIds e, encodeNum e.value with
  | some (s, t), some v => some ⟨encodeAttributes e.attrs, v, e.time, s, t⟩
  | _, _ => none

/-- What all data points have. -/
structure PointHead where
  attrs : List (Str × PyVal)
  start : Nat
  time : Nat
  exemplars : List SdkExemplar

/-- The protobuf counterpart. -/
structure PBHead where
  attrs : List (Str × Option PB)
  start : Nat
  time : Nat
  exemplars : List PBExemplar

/-- `NumberDataPoint`. -/
structure NumberPoint where
  head : PointHead
  value : Num

/-- `HistogramDataPoint`. The sum, minimum and maximum are doubles in protobuf: here opaque numbers, so the rounding of a huge `int` sum is
not modelled. Counts are `fixed64`. -/
structure HistPoint where
  head : PointHead
  count : Nat
  sum : Num
  bucketCounts : List Nat
  bounds : List Nat
  min : Num
  max : Num

/-- `Buckets` (sdk). -/
structure SdkBuckets where
  offset : Int
  counts : List Nat

/-- `ExponentialHistogramDataPoint`. -/
structure ExpPoint where
  head : PointHead
  count : Nat
  sum : Num
  scale : Int
  zeroCount : Nat
  positive : SdkBuckets
  negative : SdkBuckets
  flags : Nat
  min : Num
  max : Num

/-- `metric.data`. Monotonicity and temporality (1 delta, 2 cumulative) belong to the metric. -/
inductive Data where
  | gauge (pts : List NumberPoint)
  | sum (temporality : Nat) (monotonic : Bool) (pts : List NumberPoint)
  | histogram (temporality : Nat) (pts : List HistPoint)
  | exponential (temporality : Nat) (pts : List ExpPoint)
  | other

structure SdkMetric where
  name : Str
  description : Str
  unit : Str
  data : Data

structure PBNumber where
  head : PBHead
  value : Num

structure PBHist where
  head : PBHead
  count : Nat
  sum : Num
  bucketCounts : List Nat
  bounds : List Nat
  min : Num
  max : Num

structure PBExp where
  head : PBHead
  count : Nat
  sum : Num
  scale : Int
  zeroCount : Nat
  positive : Option SdkBuckets
  negative : Option SdkBuckets
  flags : Nat
  min : Num
  max : Num

/-- The `oneof data` of the protobuf metric; `unset` if nothing was ever written to it. -/
inductive PBData where
  | unset
  | gauge (pts : List PBNumber)
  | sum (temporality : Nat) (monotonic : Bool) (pts : List PBNumber)
  | histogram (temporality : Nat) (pts : List PBHist)
  | exponential (temporality : Nat) (pts : List PBExp)

structure PBMetric where
  name : Str
  description : Str
  unit : Str
  data : PBData

/-- The arguments common to all points; a gauge leaves out the start time (250–254). -/
def encodeHead (withStart : Bool) (h : PointHead) : Option PBHead :=
  (h.exemplars.mapM encodeExemplar).map (fun ex => ⟨encodeAttributes h.attrs, if withStart then h.start else 0, h.time, ex⟩)

/-- 248–259 and 281–293. -/
def encodeNumber (withStart : Bool) (p : NumberPoint) : Option PBNumber :=
  match encodeHead withStart p.head, encodeNum p.value with
  | some h, some v => some ⟨h, v⟩
  | _, _ => none

/-- A count is an unsigned 64-bit number. -/
def u64 (n : Nat) : Bool := decide (n < 2 ^ 64)

/-- 262–275. -/
def encodeHist (p : HistPoint) : Option PBHist :=
  if u64 p.count && p.bucketCounts.all u64 then
    (encodeHead true p.head).map (fun h => ⟨h, p.count, p.sum, p.bucketCounts, p.bounds, p.min, p.max⟩)
  else none

/-- 303–317: buckets without counts are left out. -/
def encodeBuckets (b : SdkBuckets) : Option SdkBuckets := if b.counts.isEmpty then none else some b

/-- 302–337. Scale and offsets are far within 32 bits and not checked here. -/
def encodeExp (p : ExpPoint) : Option PBExp :=
  if u64 p.count && u64 p.zeroCount && p.positive.counts.all u64 && p.negative.counts.all u64 then
    (encodeHead true p.head).map (fun h => ⟨h, p.count, p.sum, p.scale, p.zeroCount, encodeBuckets p.positive, encodeBuckets p.negative, p.flags, p.min, p.max⟩)
  else none

/-- `_encode_metric` (247–343): temporality and monotonicity are written with each point, so a metric without points has nothing set. -/
def encodeData : Data → Option PBData
  | .gauge pts => (pts.mapM (encodeNumber false)).map (fun l => if l.isEmpty then .unset else .gauge l)
  | .sum t m pts => (pts.mapM (encodeNumber true)).map (fun l => if l.isEmpty then .unset else .sum t m l)
  | .histogram t pts => (pts.mapM encodeHist).map (fun l => if l.isEmpty then .unset else .histogram t l)
  | .exponential t pts => (pts.mapM encodeExp).map (fun l => if l.isEmpty then .unset else .exponential t l)
  | .other => some .unset

/-- One metric (231–244); `none` is `EncodingException`. -/
def encodeMetric (m : SdkMetric) : Option PBMetric := (encodeData m.data).map (fun d => ⟨m.name, m.description, m.unit, d⟩)

/-! ## Preferred temporality -/

/-- `str.upper` restricted to ASCII letters (the comparisons below only involve those; no other character's upper case is one of `D`, `E`,
`L`, `T`, `A`, `O`, `W`, `M`, `R`, `Y`). -/
def upper (s : Str) : Str := s.map (fun c => if isLower c then Char.ofNat (c.toNat - 32) else c)

/-- The table `_get_temporality` starts from (84–130), given the variable (default `CUMULATIVE`) after `.upper().strip()`. Synchronous
gauges are not in it. -/
def envTemporality (pref : Str) : Dict Metrics.Kind Metrics.Temporality :=
  if pref = "DELTA".toList then
    [(.counter, .delta), (.upDown, .cumulative), (.histogram, .delta), (.obsCounter, .delta), (.obsUpDown, .cumulative), (.obsGauge, .cumulative)]
  else if pref = "LOWMEMORY".toList then
    [(.counter, .delta), (.upDown, .cumulative), (.histogram, .delta), (.obsCounter, .cumulative), (.obsUpDown, .cumulative), (.obsGauge, .cumulative)]
  else
    [(.counter, .cumulative), (.upDown, .cumulative), (.histogram, .cumulative), (.obsCounter, .cumulative), (.obsUpDown, .cumulative), (.obsGauge, .cumulative)]

/-- `_get_temporality` (81–134); `env` is the value of the variable, if set. -/
def getTemporality (env : Option Str) (preferred : Dict Metrics.Kind Metrics.Temporality) : Dict Metrics.Kind Metrics.Temporality :=
  Dict.update (envTemporality (pyStrip (upper (env.getD "CUMULATIVE".toList)))) preferred

/-- The keys and values a user can put into `preferred_temporality`: a class that is no instrument (`none`), a value that is neither delta nor
cumulative (`none`). -/
abbrev Preferred := List (Option Metrics.Kind × Option Metrics.Temporality)

/-- The table of `MetricReader.__init__` (`opentelemetry-sdk/src/opentelemetry/sdk/metrics/_internal/export/__init__.py` 232–240). -/
def allCumulative : Dict Metrics.Kind Metrics.Temporality :=
  [(.counter, .cumulative), (.upDown, .cumulative), (.histogram, .cumulative), (.gauge, .cumulative), (.obsCounter, .cumulative),
   (.obsUpDown, .cumulative), (.obsGauge, .cumulative)]

/-- The loop over the preferences (252–279): an unknown class raises. -/
def readerLoop : Dict Metrics.Kind Metrics.Temporality → Preferred → Option (Dict Metrics.Kind Metrics.Temporality)
  | d, [] => some d
  | d, (some k, some t) :: l => readerLoop (Dict.set d k t) l
  | _, _ :: _ => none

/-- `MetricReader.__init__` (215–281); `none` is an exception. Values are checked before any class (242–250). -/
def readerTemporality (preferred : Preferred) : Option (Dict Metrics.Kind Metrics.Temporality) :=
  if preferred.all (fun kt => kt.2.isSome) then readerLoop allCumulative preferred else none

/-- A periodic reader over an OTLP exporter (454: the reader takes the exporter's table). -/
def otlpReader (env : Option Str) (preferred : Dict Metrics.Kind Metrics.Temporality) : Option (Dict Metrics.Kind Metrics.Temporality) :=
  readerTemporality ((getTemporality env preferred).map (fun kt => (some kt.1, some kt.2)))

end Otlp
end Otel
