import Verif.Model.Otlp
import Verif.Model.Span
/-!
# The Zipkin exporters
Models `exporter/opentelemetry-exporter-zipkin-json/src/opentelemetry/exporter/zipkin/` (`encoder/__init__.py`, `json/v1/__init__.py`,
`json/v2/__init__.py`, `json/__init__.py` 152–188) and `exporter/opentelemetry-exporter-zipkin-proto-http/…/proto/http/v2/__init__.py`.
Numbers are given by their Python `str()`. `json.dumps` is modelled down to the characters for the tag values (arrays of strings); of the whole
request body and of the annotations' values the structure is modelled, not the text.
-/
namespace Otel
namespace Zipkin

/-! ## `json.dumps` of strings and arrays of strings (`ensure_ascii`) -/

/-- `'\\u{0:04x}'.format(n)`. -/
def u4 (n : Nat) : Str := '\\' :: 'u' :: hexFmt 4 (Int.ofNat n)

/-- `json.encoder.py_encode_basestring_ascii` for one character. -/
def escChar (c : Char) : Str :=
  if c = '"' then ['\\', '"']
  else if c = '\\' then ['\\', '\\']
  else if c = '\n' then ['\\', 'n']
  else if c = '\r' then ['\\', 'r']
  else if c = '\t' then ['\\', 't']
  else if c.toNat = 12 then ['\\', 'f']
  else if c.toNat = 8 then ['\\', 'b']
  else if 32 ≤ c.toNat ∧ c.toNat ≤ 126 then [c]
  else if c.toNat < 0x10000 then u4 c.toNat
  else u4 (0xd800 + (c.toNat - 0x10000) / 0x400 % 0x400) ++ u4 (0xdc00 + (c.toNat - 0x10000) % 0x400)

/-- A JSON string. -/
def quote (s : Str) : Str := '"' :: (s.flatMap escChar ++ ['"'])

/-- A JSON string or `null`. -/
def dumpElem : Option Str → Str
  | none => "null".toList
  | some s => quote s

/-- `json.dumps(l, separators=(",", ":"))` for a list of strings and `None`. -/
def dumps (l : List (Option Str)) : Str := '[' :: (joinS [','] (l.map dumpElem) ++ [']'])

/-! ## Tags -/

/-- An attribute value that is `bool`, `int`/`float` (given by its `str()`) or `str`. -/
inductive Scalar where
  | bool (b : Bool)
  | num (text : Str)
  | str (s : Str)
deriving DecidableEq

/-- `str(value)`, lower-cased for `bool`. -/
def Scalar.text : Scalar → Str
  | .bool true => "true".toList
  | .bool false => "false".toList
  | .num t => t
  | .str s => s

/-- An element of a sequence. -/
inductive Elem where
  | scalar (s : Scalar)
  | none
  | other
deriving DecidableEq

/-- An attribute value. -/
inductive Value where
  | scalar (s : Scalar)
  | seq (l : List Elem)
  | other
deriving DecidableEq

/-- `max_tag_value_length is not None and max_tag_value_length > 0`, and then the length (encoder/__init__.py 148–151, 164–167). -/
def limit (m : Option Int) : Option Nat :=
  match m with
  | some n => if 0 < n then some n.toNat else none
  | none => none

/-- `value[:max]`. -/
def cut (m : Option Int) (s : Str) : Str :=
  match limit m with
  | some n => s.take n
  | none => s

/-- The length an element adds, without separator (179–184). -/
def elemLength : Option Str → Nat
  | none => 4
  | some s => s.length + 2

/-- The loop over the elements (169–193): `acc` is `tag_value_elements`, `len` the running length. -/
def seqLoop (m : Option Int) : List (Option Str) → Nat → List Elem → List (Option Str)
  | acc, _, [] => acc
  | acc, len, .other :: l => seqLoop m acc len l
  | acc, len, .none :: l =>
    match limit m with
    | none => seqLoop m (acc ++ [none]) len l
    | some n =>
      let len := len + elemLength none + (if acc.isEmpty then 0 else 1)
      if len > n then acc else seqLoop m (acc ++ [none]) len l
  | acc, len, .scalar s :: l =>
    match limit m with
    | none => seqLoop m (acc ++ [some s.text]) len l
    | some n =>
      let len := len + elemLength (some s.text) + (if acc.isEmpty then 0 else 1)
      if len > n then acc else seqLoop m (acc ++ [some s.text]) len l

/-- `_extract_tag_value_string_from_sequence` (156–195). -/
def sequenceText (m : Option Int) (l : List Elem) : Option Str :=
  if m = some 1 then none else some (dumps (seqLoop m [] 2 l))

/-- The value of one tag (133–153); `none`: the attribute is skipped with a warning. -/
def tagValue (m : Option Int) : Value → Option Str
  | .scalar s => some (cut m s.text)
  | .seq l =>
    match sequenceText m l with
    | some (c :: t) => some (cut m (c :: t))
    | _ => none
  | .other => none

/-- `_extract_tags_from_dict` (126–154). -/
def tagsFromDict (m : Option Int) (attrs : Dict Str Value) : Dict Str Str :=
  attrs.foldl (fun tags kv =>
    match tagValue m kv.2 with
    | some v => Dict.set tags kv.1 v
    | none => tags) []

/-- An attribute of an event. -/
structure Event where
  name : Str
  time : Int
  attrs : Dict Str Value

/-- What a Zipkin exporter reads of a span. -/
structure ZSpan where
  name : Str
  ctx : SpanContext
  parent : Option SpanContext
  kind : Otlp.Kind
  start : Int
  finish : Int
  attrs : Dict Str Value
  resource : Dict Str Value
  scope : Option (Str × Str)
  status : Status
  events : List Event
  droppedAttributes : Nat
  droppedEvents : Nat
  droppedLinks : Nat

/-- `str(n)`. -/
def decimal (n : Nat) : Str := (toString n).toList

/-- `if n: tags.update({key: str(n)})`. -/
def countTag (tags : Dict Str Str) (key : String) (n : Nat) : Dict Str Str := if n = 0 then tags else Dict.set tags key.toList (decimal n)

/-- The tags for the instrumentation scope (201–209). -/
def scopeTags (tags : Dict Str Str) : Option (Str × Str) → Dict Str Str
  | none => tags
  | some (name, version) =>
    Dict.update tags [("otel.library.name".toList, name), ("otel.library.version".toList, version), ("otel.scope.name".toList, name), ("otel.scope.version".toList, version)]

/-- The tags for the status (210–213). -/
def statusTags (tags : Dict Str Str) (st : Status) : Dict Str Str :=
  match st.code with
  | .unset => tags
  | .ok => Dict.set tags "otel.status_code".toList "OK".toList
  | .error => Dict.set (Dict.set tags "otel.status_code".toList "ERROR".toList) "error".toList (st.desc.getD [])

/-- `_extract_tags_from_span` (197–228). -/
def spanTags (m : Option Int) (s : ZSpan) : Dict Str Str :=
  let tags := tagsFromDict m s.attrs
  let tags := Dict.update tags (tagsFromDict m s.resource)
  let tags := scopeTags tags s.scope
  let tags := statusTags tags s.status
  let tags := countTag tags "otel.dropped_attributes_count" s.droppedAttributes
  let tags := countTag tags "otel.dropped_events_count" s.droppedEvents
  countTag tags "otel.dropped_links_count" s.droppedLinks

/-- `_nsec_to_usec_round` (256–263). -/
def usec (nsec : Int) : Int := (nsec + 500) / 1000

/-- `value[:max]` for the strings among an event's attributes (239–246). -/
def eventValue (m : Option Int) : Value → Value
  | .scalar (.str s) => .scalar (.str (cut m s))
  | v => v

/-- An annotation: the time and the contents of the JSON object in its value. -/
structure Annotation where
  time : Int
  name : Str
  attrs : Dict Str Value

/-- `_extract_annotations_from_events` (230–254). -/
def annotations (m : Option Int) (events : List Event) : List Annotation :=
  events.map fun e => ⟨usec e.time, e.name, e.attrs.map fun kv => (kv.1, eventValue m kv.2)⟩

/-- `Kind` in the v2 formats: absent for `INTERNAL`. -/
def v2Kind : Otlp.Kind → Option Otlp.Kind
  | .internal => none
  | k => some k

/-- An encoded span. `tags`: tags of v2, binary annotations of v1. `ι`: ids are hexadecimal text in JSON, bytes in protobuf. -/
structure Encoded (ι : Type) where
  traceId : ι
  id : ι
  parentId : Option ι
  name : Str
  timestamp : Int
  duration : Int
  kind : Option Otlp.Kind
  tags : Dict Str Str
  annotations : List Annotation
  debug : Bool

/-- `JsonV2Encoder._encode_span` (json/v2/__init__.py 37–67). -/
def encodeV2 (m : Option Int) (s : ZSpan) : Encoded Str :=
  { traceId := formatTraceId s.ctx.traceId, id := formatSpanId s.ctx.spanId, parentId := s.parent.map fun p => formatSpanId p.spanId,
    name := s.name, timestamp := usec s.start, duration := usec (s.finish - s.start), kind := v2Kind s.kind, tags := spanTags m s,
    annotations := annotations m s.events, debug := s.ctx.sampled }

/-- `V1Encoder._extract_binary_annotations` (json/v1/__init__.py 25–39): `self.max_tag_value_length > 0` raises `TypeError` (`none`) if there is
a tag and no maximal length is set. -/
def binaryAnnotations (m : Option Int) (tags : Dict Str Str) : Option (Dict Str Str) :=
  match m with
  | none => if tags.isEmpty then some [] else none
  | some _ => some (tags.map fun kv => (kv.1, cut m kv.2))

/-- `JsonV1Encoder._encode_span` (json/v1/__init__.py 48–83). -/
def encodeV1 (m : Option Int) (s : ZSpan) : Option (Encoded Str) :=
  (binaryAnnotations m (spanTags m s)).map fun tags =>
  { traceId := formatTraceId s.ctx.traceId, id := formatSpanId s.ctx.spanId, parentId := s.parent.map fun p => formatSpanId p.spanId,
    name := s.name, timestamp := usec s.start, duration := usec (s.finish - s.start), kind := none, tags := tags,
    annotations := annotations m s.events, debug := s.ctx.sampled }

/-- `parent_id` in the protobuf format: absent without parent. -/
def protoParent : Option SpanContext → Option (Option (List Nat))
  | none => some none
  | some p => (Otlp.encodeSpanId p.spanId).map some

/-- `ProtobufEncoder._encode_span` (proto/http/v2/__init__.py 59–90); `none` is `OverflowError` for an id out of range, or `ValueError` for a
negative time (the fields are unsigned). -/
def encodeProto (m : Option Int) (s : ZSpan) : Option (Encoded (List Nat)) :=
  match Otlp.encodeTraceId s.ctx.traceId, Otlp.encodeSpanId s.ctx.spanId, protoParent s.parent with
  | some t, some i, some p =>
    if 0 ≤ usec s.start ∧ 0 ≤ usec (s.finish - s.start) then
      some { traceId := t, id := i, parentId := p, name := s.name, timestamp := usec s.start, duration := usec (s.finish - s.start),
             kind := v2Kind s.kind, tags := spanTags m s, annotations := annotations m s.events, debug := s.ctx.sampled }
    else none
  | _, _, _ => none

/-! ## The exporter -/

/-- `ZipkinExporter`: closed or not, and the service name of the local node. -/
structure Exporter where
  closed : Bool
  service : Str

/-- A POST request: service name of the local endpoint, and the spans. -/
structure Post (ι : Type) where
  service : Str
  spans : List (Encoded ι)

/-- `export` (json/__init__.py 152–181) with an encoder; `status` is the answer of the server. `none`: the encoder raised. A service name that is
not a string is not modelled. -/
def exportBatch {ι : Type} (enc : ZSpan → Option (Encoded ι)) (x : Exporter) (spans : List ZSpan) (status : Nat) :
    Exporter × Option (Bool × List (Post ι)) :=
  if x.closed then (x, some (false, []))
  else
    let service := match spans with
      | [] => x.service
      | s :: _ =>
        match Dict.get? s.resource "service.name".toList with
        | some (.scalar (.str (c :: n))) => c :: n
        | _ => x.service
    let x' := { x with service := service }
    match spans.mapM enc with
    | none => (x', none)
    | some l => (x', some (status == 200 || status == 202, [⟨service, l⟩]))

/-- `shutdown` (183–188). -/
def shutdown (x : Exporter) : Exporter := { x with closed := true }

end Zipkin
end Otel
