import Verif.Model.SpanContext
/-!
# OTLP encoding
Models `exporter/opentelemetry-exporter-otlp-proto-common/src/opentelemetry/exporter/otlp/proto/common/_internal/__init__.py`,
`trace_encoder/__init__.py`, `_log_encoder/__init__.py` and the grouping in `metrics_encoder/__init__.py`. Protobuf messages are modelled
by their fields; the wire format is not.
-/
namespace Otel
namespace Otlp

/-- A Python value. Floats are opaque; `seq` is any other `Sequence`, `map` a `Mapping` with `str` keys, `other` anything else. Lone
surrogates in strings, which protobuf refuses, are not modelled. -/
inductive PyVal where
  | none
  | bool (b : Bool)
  | str (s : Str)
  | int (i : Int)
  | float (id : Nat)
  | bytes (b : List Nat)
  | seq (l : List PyVal)
  | map (l : List (Str × PyVal))
  | other (id : Nat)

/-- `AnyValue`: the `oneof` that is set. In a key-value list the value may be missing. -/
inductive PB where
  | unset
  | bool (b : Bool)
  | str (s : Str)
  | int (i : Int)
  | float (id : Nat)
  | bytes (b : List Nat)
  | array (l : List PB)
  | kvlist (l : List (Str × Option PB))

mutual
/-- `_encode_value` (_internal/__init__.py:72–102): `none` is an exception, `some none` is `None`. `int_value` is an int64: protobuf
raises `ValueError` beyond. -/
def encodeValue (allowNull : Bool) : PyVal → Option (Option PB)
  | .none => if allowNull then some none else none
  | .bool b => some (some (.bool b))
  | .str s => some (some (.str s))
  | .int i => if -(2 ^ 63) ≤ i ∧ i < 2 ^ 63 then some (some (.int i)) else none
  | .float i => some (some (.float i))
  | .bytes b => some (some (.bytes b))
  | .seq l => (encodeArray allowNull l).map (fun l => some (.array l))
  | .map l => (encodeMap allowNull l).map (fun l => some (.kvlist l))
  | .other _ => none
/-- `_encode_array` (113–127): a `None` becomes an empty `AnyValue` if allowed. -/
def encodeArray (allowNull : Bool) : List PyVal → Option (List PB)
  | [] => some []
  | v :: l =>
    match encodeValue allowNull v with
    | none => none
    | some p => (encodeArray allowNull l).map (p.getD .unset :: ·)
/-- The comprehension over a mapping (93–101) with `_encode_key_value` (105–110). -/
def encodeMap (allowNull : Bool) : List (Str × PyVal) → Option (List (Str × Option PB))
  | [] => some []
  | (k, v) :: l =>
    match encodeValue allowNull v with
    | none => none
    | some p => (encodeMap allowNull l).map ((k, p) :: ·)
end

/-- `_encode_attributes` (138–151): a failing attribute is logged and left out. `None` (no attributes) is the empty list. -/
def encodeAttributes (attributes : List (Str × PyVal)) : List (Str × Option PB) :=
  attributes.filterMap (fun kv => (encodeValue false kv.2).map (fun p => (kv.1, p)))

/-- `int.to_bytes(length, "big", signed=False)` for `len` bytes: `none` is `OverflowError`. -/
def toBytes (len : Nat) (n : Int) : Option (List Nat) :=
  if 0 ≤ n ∧ n < 256 ^ len then some ((List.range len).map (fun i => n.toNat / 256 ^ (len - 1 - i) % 256)) else none

/-- `_encode_span_id` (130–131). -/
def encodeSpanId (n : Int) : Option (List Nat) := toBytes 8 n
/-- `_encode_trace_id` (134–135). -/
def encodeTraceId (n : Int) : Option (List Nat) := toBytes 16 n

/-- `SPAN_FLAGS_CONTEXT_HAS_IS_REMOTE_MASK`. -/
def hasIsRemote : Nat := 0x100
/-- `SPAN_FLAGS_CONTEXT_IS_REMOTE_MASK`. -/
def isRemoteMask : Nat := 0x200

/-- `_span_flags` (trace_encoder/__init__.py:108–112). A `SpanContext` is a non-empty tuple, so true. -/
def spanFlags : Option SpanContext → Nat
  | some c => if c.isRemote then hasIsRemote ||| isRemoteMask else hasIsRemote
  | none => hasIsRemote

/-- An event or link of a finished span. -/
structure SdkEvent where
  name : Str
  time : Nat
  attrs : List (Str × PyVal)
  dropped : Nat

structure SdkLink where
  ctx : SpanContext
  attrs : List (Str × PyVal)
  dropped : Nat

/-- `SpanKind` (`opentelemetry-api/src/opentelemetry/trace/__init__.py` 162–188). -/
inductive Kind where
  | internal | server | client | producer | consumer
deriving DecidableEq

/-- `_SPAN_KIND_MAP` (trace_encoder/__init__.py:41–47): the numbers of the protobuf enumeration (0 is unspecified). -/
def Kind.number : Kind → Nat
  | .internal => 1
  | .server => 2
  | .client => 3
  | .producer => 4
  | .consumer => 5

/-- The fields of a `ReadableSpan` that are exported. The status code is 0 (unset), 1 (ok) or 2 (error). -/
structure SdkSpan where
  ctx : SpanContext
  parent : Option SpanContext
  name : Str
  kind : Kind
  start : Option Nat
  finish : Option Nat
  attrs : List (Str × PyVal)
  events : List SdkEvent
  links : List SdkLink
  status : Nat
  description : Option Str
  droppedAttrs : Nat
  droppedEvents : Nat
  droppedLinks : Nat

structure PBEvent where
  name : Str
  time : Nat
  attrs : List (Str × Option PB)
  dropped : Nat

structure PBLink where
  traceId : List Nat
  spanId : List Nat
  attrs : List (Str × Option PB)
  dropped : Nat
  flags : Nat

/-- The protobuf `Span`; a missing bytes field is empty, a missing number is 0. -/
structure PBSpan where
  traceId : List Nat
  spanId : List Nat
  traceState : Str
  parentSpanId : List Nat
  name : Str
  kind : Nat
  start : Nat
  finish : Nat
  attrs : List (Str × Option PB)
  events : List PBEvent
  links : List PBLink
  status : Nat
  description : Str
  droppedAttrs : Nat
  droppedEvents : Nat
  droppedLinks : Nat
  flags : Nat

/-- `_encode_events` (trace_encoder/__init__.py:137–151). -/
def encodeEvent (e : SdkEvent) : PBEvent := ⟨e.name, e.time, encodeAttributes e.attrs, e.dropped⟩

/-- `_encode_links` (154–167): ids out of range raise. The link's trace state is not exported. -/
def encodeLink (l : SdkLink) : Option PBLink :=
  match encodeTraceId l.ctx.traceId, encodeSpanId l.ctx.spanId with
  | some t, some s => some ⟨t, s, encodeAttributes l.attrs, l.dropped, spanFlags (some l.ctx)⟩
  | _, _ => none

/-- `_encode_parent_id` (189–192). -/
def encodeParentId : Option SpanContext → Option (List Nat)
  | some c => encodeSpanId c.spanId
  | none => some []

/-- `_encode_trace_state` (180–186): the same text as the header. -/
def encodeTraceState (ts : TraceState.TS) : Str := joinS [','] (ts.map fun kv => kv.1 ++ ['='] ++ kv.2)

/-- `_encode_span` (115–134); `none` is an exception. -/
def encodeSpan (s : SdkSpan) : Option PBSpan :=
  match encodeTraceId s.ctx.traceId, encodeSpanId s.ctx.spanId, encodeParentId s.parent, s.links.mapM encodeLink with
  | some t, some i, some p, some l => some
    { traceId := t, spanId := i, traceState := encodeTraceState s.ctx.traceState, parentSpanId := p, name := s.name,
      kind := s.kind.number, start := s.start.getD 0, finish := s.finish.getD 0, attrs := encodeAttributes s.attrs,
      events := s.events.map encodeEvent, links := l, status := s.status, description := s.description.getD [],
      droppedAttrs := s.droppedAttrs, droppedEvents := s.droppedEvents, droppedLinks := s.droppedLinks, flags := spanFlags s.parent }
  | _, _, _, _ => none

/-! ## Grouping -/
variable {ρ σ τ ε : Type} [DecidableEq ρ] [DecidableEq σ]

/-- `d[resource][scope].append(e)` on a `defaultdict` of `defaultdict`s of lists. Resources and scopes are compared as Python compares
dictionary keys. -/
def groupInsert (d : Dict ρ (Dict σ (List ε))) (r : ρ) (s : σ) (e : ε) : Dict ρ (Dict σ (List ε)) :=
  let inner := (Dict.get? d r).getD []
  Dict.set d r (Dict.set inner s ((Dict.get? inner s).getD [] ++ [e]))

/-- The first loop of `_encode_resource_spans` (trace_encoder/__init__.py:60–81) and `_encode_resource_logs`
(_log_encoder/__init__.py:66–74): an item whose encoding raises makes the whole encoding raise. -/
def groupLoop (res : τ → ρ) (scope : τ → σ) (enc : τ → Option ε) : Dict ρ (Dict σ (List ε)) → List τ → Option (Dict ρ (Dict σ (List ε)))
  | d, [] => some d
  | d, x :: l =>
    match enc x with
    | none => none
    | some e => groupLoop res scope enc (groupInsert d (res x) (scope x) e) l

/-- `_encode_resource_spans` / `_encode_resource_logs`: the second loop keeps the order of the dictionaries. -/
def group (res : τ → ρ) (scope : τ → σ) (enc : τ → Option ε) (batch : List τ) : Option (Dict ρ (Dict σ (List ε))) :=
  groupLoop res scope enc [] batch

/-! ## Metrics -/

/-- `_encode_resource_metrics` and `encode_metrics` (metrics_encoder/__init__.py:189–244): the entry of a resource, and that of a scope in
it, is *replaced* if it occurs again. -/
def encodeScopes (enc : τ → Option ε) : Dict σ (List ε) → List (σ × List τ) → Option (Dict σ (List ε))
  | d, [] => some d
  | d, (s, ms) :: l =>
    match ms.mapM enc with
    | none => none
    | some es => encodeScopes enc (Dict.set d s es) l

/-- `encode_metrics`; `none` is `EncodingException`. -/
def encodeMetrics (enc : τ → Option ε) : Dict ρ (Dict σ (List ε)) → List (ρ × List (σ × List τ)) → Option (Dict ρ (Dict σ (List ε)))
  | d, [] => some d
  | d, (r, ss) :: l =>
    match encodeScopes enc [] ss with
    | none => none
    | some x => encodeMetrics enc (Dict.set d r x) l

/-! ## Log records -/

/-- The fields of a `LogRecord` (`opentelemetry-sdk/src/opentelemetry/sdk/_logs/_internal/__init__.py` 166–214): everything may be `None`. -/
structure SdkLog where
  time : Option Nat
  observed : Option Nat
  traceId : Option Int
  spanId : Option Int
  flags : Option Nat
  severityText : Option Str
  severity : Option Nat
  body : PyVal
  attrs : List (Str × PyVal)
  dropped : Nat

structure PBLog where
  time : Nat
  observed : Nat
  traceId : List Nat
  spanId : List Nat
  flags : Nat
  severityText : Str
  severity : Nat
  body : Option PB
  attrs : List (Str × Option PB)
  dropped : Nat

/-- An id of a log record (_log_encoder/__init__.py:41–50): `0` means none, `None` raises `AttributeError`. -/
def encodeLogId (len : Nat) : Option Int → Option (List Nat)
  | none => none
  | some n => if n = 0 then some [] else toBytes len n

/-- `_encode_log` (_log_encoder/__init__.py:40–63); `none` is an exception. `int(None)` and `None.value` raise. -/
def encodeLog (r : SdkLog) : Option PBLog :=
  match encodeLogId 8 r.spanId, encodeLogId 16 r.traceId, r.flags, encodeValue true r.body, r.severity with
  | some s, some t, some f, some b, some n => some
    { time := r.time.getD 0, observed := r.observed.getD 0, traceId := t, spanId := s, flags := f, severityText := r.severityText.getD [],
      severity := n, body := b, attrs := encodeAttributes r.attrs, dropped := r.dropped }
  | _, _, _, _, _ => none

end Otlp
end Otel
