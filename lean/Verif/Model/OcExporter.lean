import Verif.Model.Otlp
/-!
# The OpenCensus exporter
Models `exporter/opentelemetry-exporter-opencensus/src/opentelemetry/exporter/opencensus/util.py` 35–102 (below: util) and `trace_exporter/__init__.py`
39–191 (below: exporter). Protobuf messages are modelled by their fields; the wire format is not.
-/
namespace Otel
namespace OcExporter
open Otlp (PyVal SdkSpan SdkEvent SdkLink Kind toBytes)

/-- `AttributeValue`: the `oneof` that is set. -/
inductive AttrValue where
  | bool (b : Bool)
  | int (i : Int)
  | str (s : Str)
  | double (id : Nat)
deriving DecidableEq

/-- `add_proto_attribute_value` (util 60–79): an `int64` field refuses larger numbers (`none` is the `ValueError`); anything that is not a scalar becomes its `str`. -/
def attrValue (pyStr : PyVal → Str) : PyVal → Option AttrValue
  | .bool b => some (.bool b)
  | .int i => if -(2 ^ 63) ≤ i ∧ i < 2 ^ 63 then some (.int i) else none
  | .str s => some (.str s)
  | .float f => some (.double f)
  | v => some (.str (pyStr v))

/-- Fills an `attribute_map`, which is a dictionary. -/
def attrMap (pyStr : PyVal → Str) : Dict Str AttrValue → List (Str × PyVal) → Option (Dict Str AttrValue)
  | d, [] => some d
  | d, (k, v) :: l =>
    match attrValue pyStr v with
    | none => none
    | some a => attrMap pyStr (Dict.set d k a) l

/-- `Timestamp`. -/
structure Timestamp where
  seconds : Nat
  nanos : Nat
deriving DecidableEq

/-- `proto_timestamp_from_time_ns` (util 35–48), for a time that is not negative. -/
def timestamp : Option Nat → Timestamp
  | none => ⟨0, 0⟩
  | some n => ⟨n / 1000000000, n % 1000000000⟩

/-- `get_collector_span_kind` (util 52–57), as the numbers of the OpenCensus enumeration: 0 unspecified, 1 server, 2 client. -/
def spanKind : Kind → Nat
  | .server => 1
  | .client => 2
  | _ => 0

/-- A time event with an annotation. -/
structure OcEvent where
  description : Str
  time : Timestamp
  attrs : Dict Str AttrValue

/-- A link; its type is 0 (unspecified) or 2 (parent). -/
structure OcLink where
  traceId : List Nat
  spanId : List Nat
  type : Nat
  attrs : Dict Str AttrValue

/-- The OpenCensus protobuf `Span`. The status code is a gRPC code. -/
structure OcSpan where
  traceId : List Nat
  spanId : List Nat
  tracestate : List (Str × Str)
  parentSpanId : List Nat
  name : Str
  kind : Nat
  start : Timestamp
  finish : Timestamp
  attrs : Dict Str AttrValue
  events : List OcEvent
  links : List OcLink
  statusCode : Nat
  statusMessage : Str

/-- The annotation of an event (exporter 145–160). -/
def encodeEvent (pyStr : PyVal → Str) (e : SdkEvent) : Option OcEvent :=
  (attrMap pyStr [] e.attrs).map fun a => ⟨e.name, timestamp (some e.time), a⟩

/-- The type of a link (exporter 172–182). -/
def linkType (parent : Option SpanContext) (l : SdkLink) : Nat :=
  match parent with
  | none => 0
  | some p => if l.ctx.spanId = p.spanId ∧ l.ctx.traceId = p.traceId then 2 else 0

/-- A link (exporter 162–188). -/
def encodeLink (pyStr : PyVal → Str) (parent : Option SpanContext) (l : SdkLink) : Option OcLink :=
  match toBytes 16 l.ctx.traceId, toBytes 8 l.ctx.spanId, attrMap pyStr [] l.attrs with
  | some t, some s, some a => some ⟨t, s, linkType parent l, a⟩
  | _, _, _ => none

/-- `parent_id` (exporter 129–133). -/
def parentId : Option SpanContext → Int
  | none => 0
  | some p => p.spanId

/-- One round of the loop of `translate_to_collector` (exporter 111–190); `none` is an exception. -/
def encodeSpan (pyStr : PyVal → Str) (s : SdkSpan) : Option OcSpan :=
  match toBytes 16 s.ctx.traceId, toBytes 8 s.ctx.spanId, toBytes 8 (parentId s.parent), attrMap pyStr [] s.attrs, s.events.mapM (encodeEvent pyStr),
    s.links.mapM (encodeLink pyStr s.parent) with
  | some t, some i, some p, some a, some e, some l => some
    { traceId := t, spanId := i, tracestate := s.ctx.traceState, parentSpanId := p, name := s.name, kind := spanKind s.kind, start := timestamp s.start,
      finish := timestamp s.finish, attrs := a, events := e, links := l, statusCode := s.status, statusMessage := s.description.getD [] }
  | _, _, _, _, _, _ => none

/-- `translate_to_collector` (exporter 109–191). -/
def translate (pyStr : PyVal → Str) (spans : List SdkSpan) : Option (List OcSpan) := spans.mapM (encodeSpan pyStr)

/-- How the RPC ends: normally, or with `grpc.RpcError`. -/
inductive Rpc where
  | ok
  | error
deriving DecidableEq

/-- The exporter: the service name of its node (exporter 42–70), and the requests that were sent. -/
structure Exporter where
  service : Str
  sent : List (Str × List OcSpan)

/-- The node's service name for a batch (exporter 78–81): that of the first span's resource, if it is there and not empty. -/
def nodeName (service : Str) : List (SdkSpan × Option Str) → Str
  | (_, some n) :: _ => if n = [] then service else n
  | _ => service

/-- `export` (exporter 72–102): `true` is `SUCCESS`. A batch is spans with the service names of their resources. The request is produced by a generator, in
gRPC's thread; an exception there makes gRPC cancel the call, which the exporter sees as an `RpcError`. -/
def exportBatch (pyStr : PyVal → Str) (rpc : Rpc) (x : Exporter) (batch : List (SdkSpan × Option Str)) : Exporter × Bool :=
  let service := nodeName x.service batch
  match translate pyStr (batch.map Prod.fst) with
  | none => (⟨service, x.sent⟩, false)
  | some l => (⟨service, x.sent ++ [(service, l)]⟩, rpc = .ok)

end OcExporter
end Otel
