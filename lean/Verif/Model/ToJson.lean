import Verif.Model.Json
import Verif.Model.OtlpMetrics
/-!
# `to_json` and the console exporters
Models `ReadableSpan.to_json` (`opentelemetry-sdk/src/opentelemetry/sdk/trace/__init__.py` 486–561; below: trace), `LogRecord.to_json`
(`_logs/_internal/__init__.py` 221–257; below: logs), `Resource.to_json` (`resources/__init__.py` 300–311), `InstrumentationScope.to_json`
(`util/instrumentation.py` 156–167), the `to_json` methods of `metrics/_internal/point.py` (below: point) and the console exporters
(`trace/export/__init__.py` 491–520, `_logs/_internal/export/__init__.py` 88–112, `metrics/_internal/export/__init__.py` 137–178).
`none` stands for an exception. Keys of nested mappings are strings. `ns_to_iso_str` is a parameter (it computes with floats and raises for years
beyond 9999). Infinite nesting (`ValueError`, `RecursionError`) and integers of more than 4300 digits (`ValueError`) are not modelled.
-/
namespace Otel
namespace ToJson
open Json Otlp

mutual
/-- What `json.dumps` makes of a Python object; it raises `TypeError` for bytes and for objects of other types. -/
def toJ : PyVal → Option J
  | .none => some .null
  | .bool b => some (.bool b)
  | .str s => some (.str s)
  | .int i => some (.int i)
  | .float f => some (.float f)
  | .bytes _ => none
  | .other _ => none
  | .seq l => (itemsJ l).map .arr
  | .map l => (pairsJ l).map .obj
/-- The items of a list or tuple. -/
def itemsJ : List PyVal → Option (List J)
  | [] => some []
  | v :: l =>
    match toJ v, itemsJ l with
    | some j, some js => some (j :: js)
    | _, _ => none
/-- The items of a dictionary. -/
def pairsJ : List (Str × PyVal) → Option (List (Str × J))
  | [] => some []
  | (k, v) :: l =>
    match toJ v, pairsJ l with
    | some j, some js => some ((k, j) :: js)
    | _, _ => none
end

/-- A dictionary of attributes. -/
def attrsJ (attrs : List (Str × PyVal)) : Option J := (pairsJ attrs).map .obj

/-- A string or `None`. -/
def strJ : Option Str → J
  | none => .null
  | some s => .str s

/-- A field. -/
def fld (k : String) (j : J) : Str × J := (k.toList, j)

/-- What a resource is made of. -/
structure Res where
  attrs : List (Str × PyVal)
  schemaUrl : Str

/-- `Resource.to_json` (resources/__init__.py:300–311). -/
def resourceText (F : Floats) (indent : Option Nat) (r : Res) : Option Str :=
  (attrsJ r.attrs).map fun a => dumps F indent (.obj [fld "attributes" a, fld "schema_url" (.str r.schemaUrl)])

/-- What a scope is made of; `schema_url` is never `None` (util/instrumentation.py:96–98). -/
structure Scope where
  name : Str
  version : Option Str
  schemaUrl : Str
  attrs : List (Str × PyVal)

/-- `dict(attributes) if bool(attributes) else None`. -/
def attrsOrNull (attrs : List (Str × PyVal)) : Option J := if attrs.isEmpty then some .null else attrsJ attrs

/-- `InstrumentationScope.to_json` (util/instrumentation.py:156–167). -/
def scopeText (F : Floats) (indent : Option Nat) (s : Scope) : Option Str :=
  (attrsOrNull s.attrs).map fun a =>
    dumps F indent (.obj [fld "name" (.str s.name), fld "version" (strJ s.version), fld "schema_url" (.str s.schemaUrl), fld "attributes" a])

/-! ## Spans -/

/-- `repr` of a string of printable ASCII characters: single quotes unless the text has one and no double quote; the quote and backslashes are escaped. -/
def reprStr (s : Str) : Str :=
  let q := if s.contains '\'' && !s.contains '"' then '"' else '\''
  q :: (s.flatMap (fun c => if c = q ∨ c = '\\' then ['\\', c] else [c]) ++ [q])

/-- `TraceState.__repr__` (`opentelemetry-api/src/opentelemetry/trace/span.py` 274–279). -/
def reprTraceState (ts : TraceState.TS) : Str :=
  '[' :: (joinS ", ".toList (ts.map fun kv => reprStr ("{key=".toList ++ kv.1 ++ ", value=".toList ++ kv.2 ++ "}".toList)) ++ [']'])

/-- `_format_context` (trace 523–529). -/
def contextJ (c : SpanContext) : J :=
  .obj [fld "trace_id" (.str ("0x".toList ++ formatTraceId c.traceId)), fld "span_id" (.str ("0x".toList ++ formatSpanId c.spanId)),
    fld "trace_state" (.str (reprTraceState c.traceState))]

/-- `str(kind)`. -/
def kindText : Kind → Str
  | .internal => "SpanKind.INTERNAL".toList
  | .server => "SpanKind.SERVER".toList
  | .client => "SpanKind.CLIENT".toList
  | .producer => "SpanKind.PRODUCER".toList
  | .consumer => "SpanKind.CONSUMER".toList

/-- `status_code.name`. -/
def codeName (n : Nat) : Str := if n = 0 then "UNSET".toList else if n = 1 then "OK".toList else "ERROR".toList

/-- The time of a span (trace 491–497): `0` is false. -/
def spanTime (iso : Nat → Option Str) : Option Nat → Option J
  | none => some .null
  | some 0 => some .null
  | some n => (iso n).map .str

/-- An element of `_format_events` (trace 539–550). -/
def eventJ (iso : Nat → Option Str) (e : SdkEvent) : Option J :=
  match iso e.time, attrsJ e.attrs with
  | some t, some a => some (.obj [fld "name" (.str e.name), fld "timestamp" (.str t), fld "attributes" a])
  | _, _ => none

/-- An element of `_format_links` (trace 552–561). -/
def linkJ (l : SdkLink) : Option J := (attrsJ l.attrs).map fun a => .obj [fld "context" (contextJ l.ctx), fld "attributes" a]

/-- The status (trace 499–503): the description only if there is one that is not empty. -/
def statusJ (code : Nat) (description : Option Str) : J :=
  .obj (fld "status_code" (.str (codeName code)) :: match description with
    | some (c :: s) => [fld "description" (.str (c :: s))]
    | _ => [])

/-- `ReadableSpan.to_json` (trace 486–521). -/
def spanText (F : Floats) (iso : Nat → Option Str) (indent : Option Nat) (r : Res) (s : SdkSpan) : Option Str := do
  let start ← spanTime iso s.start
  let finish ← spanTime iso s.finish
  let attrs ← attrsJ s.attrs
  let events ← s.events.mapM (eventJ iso)
  let links ← s.links.mapM linkJ
  let res ← (resourceText F (some 4) r).bind (loads F)
  some (dumps F indent (.obj [
    fld "name" (.str s.name),
    fld "context" (contextJ s.ctx),
    fld "kind" (.str (kindText s.kind)),
    fld "parent_id" (match s.parent with
      | none => .null
      | some p => .str ("0x".toList ++ formatSpanId p.spanId)),
    fld "start_time" start,
    fld "end_time" finish,
    fld "status" (statusJ s.status s.description),
    fld "attributes" attrs,
    fld "events" (.arr events),
    fld "links" (.arr links),
    fld "resource" res]))

/-! ## Log records -/

/-- A number or `None`. -/
def natJ : Option Nat → J
  | none => .null
  | some n => .int n

/-- `f"0x{…}" if id is not None else ""`. -/
def idJ (fmt : Int → Str) : Option Int → J
  | none => .str []
  | some n => .str ("0x".toList ++ fmt n)

/-- `LogRecord.to_json` (logs 221–251); `ns_to_iso_str(None)` raises. `severity_number` is given as its value. -/
def logText (F : Floats) (iso : Nat → Option Str) (indent : Option Nat) (r : Res) (l : SdkLog) : Option Str := do
  let body ← toJ l.body
  let attrs ← attrsOrNull l.attrs
  let time ← l.time.bind iso
  let observed ← l.observed.bind iso
  let res ← (resourceText F (some 4) r).bind (loads F)
  some (dumps F indent (.obj [
    fld "body" body,
    fld "severity_number" (natJ l.severity),
    fld "severity_text" (strJ l.severityText),
    fld "attributes" attrs,
    fld "dropped_attributes" (.int (if l.attrs.isEmpty then 0 else l.dropped)),
    fld "timestamp" (.str time),
    fld "observed_timestamp" (.str observed),
    fld "trace_id" (idJ formatTraceId l.traceId),
    fld "span_id" (idJ formatSpanId l.spanId),
    fld "trace_flags" (natJ l.flags),
    fld "resource" res]))

/-! ## Metrics -/

/-- A number. -/
def numJ : Num → J
  | .int i => .int i
  | .float f => .float f

/-- An integer or `None`. -/
def intJ : Option Int → J
  | none => .null
  | some n => .int n

/-- `asdict` of an exemplar (`metrics/_internal/exemplar/exemplar.py` 46–50). -/
def exemplarJ (e : SdkExemplar) : Option J :=
  (attrsJ e.attrs).map fun a => .obj [fld "filtered_attributes" a, fld "value" (numJ e.value), fld "time_unix_nano" (.int e.time),
    fld "span_id" (intJ e.spanId), fld "trace_id" (intJ e.traceId)]

/-- `NumberDataPoint.to_json` (point 30–43). -/
def numberText (F : Floats) (indent : Option Nat) (p : NumberPoint) : Option Str := do
  let a ← attrsJ p.head.attrs
  let ex ← p.head.exemplars.mapM exemplarJ
  some (dumps F indent (.obj [fld "attributes" a, fld "start_time_unix_nano" (.int p.head.start), fld "time_unix_nano" (.int p.head.time),
    fld "value" (numJ p.value), fld "exemplars" (.arr ex)]))

/-- `HistogramDataPoint.to_json` (point 46–64). -/
def histText (F : Floats) (indent : Option Nat) (p : HistPoint) : Option Str := do
  let a ← attrsJ p.head.attrs
  let ex ← p.head.exemplars.mapM exemplarJ
  some (dumps F indent (.obj [fld "attributes" a, fld "start_time_unix_nano" (.int p.head.start), fld "time_unix_nano" (.int p.head.time),
    fld "count" (.int p.count), fld "sum" (numJ p.sum), fld "bucket_counts" (.arr (p.bucketCounts.map fun n => .int n)),
    fld "explicit_bounds" (.arr (p.bounds.map .float)), fld "min" (numJ p.min), fld "max" (numJ p.max), fld "exemplars" (.arr ex)]))

/-- `asdict` of `Buckets` (point 67–70). -/
def bucketsJ (b : SdkBuckets) : J := .obj [fld "offset" (.int b.offset), fld "bucket_counts" (.arr (b.counts.map fun n => .int n))]

/-- `ExponentialHistogramDataPoint.to_json` (point 73–95). -/
def expText (F : Floats) (indent : Option Nat) (p : ExpPoint) : Option Str := do
  let a ← attrsJ p.head.attrs
  let ex ← p.head.exemplars.mapM exemplarJ
  some (dumps F indent (.obj [fld "attributes" a, fld "start_time_unix_nano" (.int p.head.start), fld "time_unix_nano" (.int p.head.time),
    fld "count" (.int p.count), fld "sum" (numJ p.sum), fld "scale" (.int p.scale), fld "zero_count" (.int p.zeroCount),
    fld "positive" (bucketsJ p.positive), fld "negative" (bucketsJ p.negative), fld "flags" (.int p.flags),
    fld "min" (numJ p.min), fld "max" (numJ p.max), fld "exemplars" (.arr ex)]))

/-- `[loads(x.to_json(indent=indent)) for x in …]`. -/
def reread {α : Type} (F : Floats) (text : α → Option Str) (l : List α) : Option (List J) := l.mapM fun x => (text x).bind (loads F)

/-- The `to_json` of `Sum`, `Gauge`, `Histogram`, `ExponentialHistogram` (point 98–187); other data is not a case of `DataT`. -/
def dataText (F : Floats) (indent : Option Nat) : Data → Option Str
  | .gauge pts => (reread F (numberText F indent) pts).map fun js => dumps F indent (.obj [fld "data_points" (.arr js)])
  | .sum t m pts => (reread F (numberText F indent) pts).map fun js =>
      dumps F indent (.obj [fld "data_points" (.arr js), fld "aggregation_temporality" (.int t), fld "is_monotonic" (.bool m)])
  | .histogram t pts => (reread F (histText F indent) pts).map fun js =>
      dumps F indent (.obj [fld "data_points" (.arr js), fld "aggregation_temporality" (.int t)])
  | .exponential t pts => (reread F (expText F indent) pts).map fun js =>
      dumps F indent (.obj [fld "data_points" (.arr js), fld "aggregation_temporality" (.int t)])
  | .other => none

/-- `Metric.to_json` (point 197–217); the model's description and unit are `""` for `None`. -/
def metricText (F : Floats) (indent : Option Nat) (m : SdkMetric) : Option Str :=
  ((dataText F indent m.data).bind (loads F)).map fun d =>
    dumps F indent (.obj [fld "name" (.str m.name), fld "description" (.str m.description), fld "unit" (.str m.unit), fld "data" d])

/-- `ScopeMetrics`. -/
structure ScopeMetrics where
  scope : Scope
  metrics : List SdkMetric
  schemaUrl : Str

/-- `ResourceMetrics`. -/
structure ResourceMetrics where
  resource : Res
  scopes : List ScopeMetrics
  schemaUrl : Str

/-- `ScopeMetrics.to_json` (point 220–239). -/
def scopeMetricsText (F : Floats) (indent : Option Nat) (s : ScopeMetrics) : Option Str := do
  let sc ← (scopeText F indent s.scope).bind (loads F)
  let ms ← reread F (metricText F indent) s.metrics
  some (dumps F indent (.obj [fld "scope" sc, fld "metrics" (.arr ms), fld "schema_url" (.str s.schemaUrl)]))

/-- `ResourceMetrics.to_json` (point 242–261). -/
def resourceMetricsText (F : Floats) (indent : Option Nat) (r : ResourceMetrics) : Option Str := do
  let rs ← (resourceText F indent r.resource).bind (loads F)
  let ss ← reread F (scopeMetricsText F indent) r.scopes
  some (dumps F indent (.obj [fld "resource" rs, fld "scope_metrics" (.arr ss), fld "schema_url" (.str r.schemaUrl)]))

/-- `MetricsData.to_json` (point 264–279). -/
def metricsDataText (F : Floats) (indent : Option Nat) (d : List ResourceMetrics) : Option Str :=
  (reread F (resourceMetricsText F indent) d).map fun js => dumps F indent (.obj [fld "resource_metrics" (.arr js)])

/-! ## Console exporters -/

/-- `export` of `ConsoleSpanExporter` (trace/export/__init__.py:510–514) and `ConsoleLogExporter` (_logs/_internal/export/__init__.py:105–109): what it
writes to the stream, and whether it returned (success) or raised. -/
def consoleExport {α : Type} (linesep : Str) (text : α → Option Str) : List α → Str × Bool
  | [] => ([], true)
  | x :: l =>
    match text x with
    | none => ([], false)
    | some s => let r := consoleExport linesep text l; (s ++ linesep ++ r.1, r.2)

end ToJson
end Otel
