import Verif.Model.Tracer
/-!
# The OpenCensus shim
Models `shim/opentelemetry-opencensus-shim/src/opentelemetry/shim/opencensus/_shim_tracer.py` (below: tracer) 29–154 and `_shim_span.py` (below: span)
35–167, used by programs in a small language which mixes OpenCensus calls with OpenTelemetry blocks. The tracer below the shim is the SDK's
(`Sampling.startSpan`). Not modelled: `install_shim`'s patching of the OpenCensus `Tracer` class, and what the wrapped `BlankSpan` and `NoopTracer`
do for methods the shim does not override.
-/
namespace Otel
namespace OpenCensus
open UseSpan (Esc onError)
open Sampling (Sampler Started startSpan RawLinks)
open Tracer (World.steps World.ctxOf World.recordingAt notes)
open Span (Exc exitSteps)

/-- `_SHIM_SPAN_KEY` (tracer 29). -/
def shimKey : CtxKey := .user "opencensus-shim-span-key".toList

/-- The `SpanContext` given to an OpenCensus `Tracer`: identifiers in hexadecimal (which the OpenCensus class checks), `from_header`,
`trace_options.get_enabled()`, and the items of `tracestate`, if that is a `Tracestate`. -/
structure OcCtx where
  traceId : Str
  spanId : Option Str
  fromHeader : Bool
  enabled : Bool
  tracestate : Option (List (Str × Str))

/-- The span context built by `set_oc_span_in_context` (tracer 54–80), if there is one. -/
def OcCtx.spanContext (c : OcCtx) : Option SpanContext :=
  match c.spanId with
  | none => none
  | some s => some ⟨hexVal c.traceId, hexVal s, c.fromHeader, if c.enabled then 1 else 0,
      match c.tracestate with
      | some l => TraceState.mk l
      | none => []⟩

/-- A `ShimSpan` (span 63–82): the wrapped span, by number, and the token. -/
structure ShimSpan where
  span : Nat
  token : Token

/-- The state: that of the tracer, the shim spans, and the current span of OpenCensus's own `execution_context`, for each thread. -/
structure World where
  base : Tracer.World
  shims : List ShimSpan
  oc : Nat → Option Nat

/-- Nothing has happened yet. -/
def World.init : World := ⟨Tracer.World.init, [], fun _ => none⟩

/-- The current context of a thread. -/
def World.cur (w : World) (t : Nat) : Ctx := w.base.rt.getCurrent t

/-- `get_shim_span_in_context` (tracer 39–40), which is `current_span()` (149–151); the number of the shim span. -/
def current (w : World) (t : Nat) : Option Nat :=
  match (w.cur t).getValue shimKey with
  | some (.other n) => some n
  | _ => none

/-- The context of a shim span, the invalid one if there is none. -/
def ctxOfShim (w : World) (n : Option Nat) : SpanContext :=
  match n.bind (fun n => w.shims[n]?) with
  | some s => w.base.ctxOf s.span
  | none => SpanContext.invalid

/-- Arguments of `start_span`, and the environment's answers (the identifiers drawn, the clock). -/
structure Opts where
  tracer : OcCtx
  name : Str
  traceDraw : Nat
  spanDraw : Nat
  tStart : Int
  tExc : Int
  tEnd : Int

/-- The context in which `start_span` starts the span (tracer 105–111). `is INVALID_SPAN` is read as: its context is the invalid one. -/
def parentCtx (c : Ctx) (tr : OcCtx) : Ctx :=
  if c.currentSpan = SpanContext.invalid then
    match tr.spanContext with
    | some sc => c.setSpan sc
    | none => c
  else c

/-- `ShimTracer.start_span` (104–130). -/
def start (S : Sampler) (lim : SpanLimits) (t : Nat) (o : Opts) (w : World) : World :=
  match startSpan S lim [o.traceDraw + 1] [o.spanDraw + 1] (parentCtx (w.cur t) o.tracer) o.name 0 [] [] o.tStart with
  | some s =>
    let b := { w.base with spans := w.base.spans ++ [s], log := w.base.log ++ (notes s).map fun n => (w.base.spans.length, n) }
    let a := b.rt.attach t (((w.cur t).setSpan s.ctx).setValue shimKey (.other w.shims.length))
    { base := { b with rt := a.1 }
      shims := w.shims ++ [⟨w.base.spans.length, a.2⟩]
      oc := fun u => if u = t then some w.shims.length else w.oc u }
  | none => w

/-- Detaches the token of the `n`-th shim span, and copies the current shim span to OpenCensus's context (tracer 143–147, span 164–167). -/
def leave (t n : Nat) (w : World) : World :=
  match w.shims[n]? with
  | none => w
  | some s =>
    let w1 : World := { w with base := { w.base with rt := w.base.rt.detach t s.token } }
    { w1 with oc := fun u => if u = t then current w1 t else w1.oc u }

/-- `ShimTracer.end_span` (132–147): without a current span it does nothing. -/
def endSpan (t : Nat) (tEnd : Int) (w : World) : World :=
  match current w t with
  | none => w
  | some n =>
    match w.shims[n]? with
    | none => w
    | some s => leave t n { w with base := w.base.steps s.span [.end_ tEnd, .notifyEnd] }

/-- `ShimSpan.__exit__` (span 156–167): `exc` is the exception with its text. -/
def exitBlock (t n : Nat) (exc : Option (Exc × Str)) (tExc tEnd : Int) (w : World) : World :=
  match w.shims[n]? with
  | none => w
  | some s => leave t n { w with base := w.base.steps s.span (exitSteps (w.base.recordingAt s.span) true true exc tExc tEnd) }

/-- `_MESSAGE_EVENT_TYPE_STR_MAPPING` (span 41–45); `none` is a `KeyError`. -/
def messageType : Int → Option Str
  | 0 => some "TYPE_UNSPECIFIED".toList
  | 1 => some "SENT".toList
  | 2 => some "RECEIVED".toList
  | _ => none

/-- `_opencensus_time_to_nanos` (span 48–59): the text denotes `us` microseconds after the epoch, in UTC; `strptime` forgets that, and `timestamp()`
reads it as local time, `offset` seconds ahead of UTC. Floating point rounding is not modelled. -/
def timeToNanos (offset : Int) (us : Int) : Int := (us - offset * 1000000) * 1000

/-- Methods of `ShimSpan` (span 84–149). The status of OpenCensus is ok iff its code is 0. -/
inductive Method where
  | addAttribute (key : AKey) (v : Val)
  | addAnnotation (description : Str) (attrs : Span.RawAttrs) (ts : Int)
  | addMessageEvent (id : Str) (type : Int) (uncompressed compressed : Option Int) (us : Int)
  | addLink
  | setKind
  | setStatus (code : Int) (description : Option Str)
  | finish (t : Int)

/-- The attributes of a message event (span 94–106). -/
def messageAttrs (type : Str) (uncompressed compressed : Option Int) : Span.RawAttrs :=
  (.str "message.event.type".toList, .atom (.str type true)) ::
  ((match uncompressed with
    | some n => [(.str "message.event.size.uncompressed".toList, .atom (.int n true))]
    | none => []) ++
  (match compressed with
    | some n => [(.str "message.event.size.compressed".toList, .atom (.int n true))]
    | none => []))

/-- Their effect on the span; `none` is an exception. -/
def Method.steps (offset : Int) : Method → Option (List Span.Step)
  | .addAttribute k v => some [.setAttributes [(k, v)]]
  | .addAnnotation d a ts => some [.addEvent d a ts]
  | .addMessageEvent id ty u c us =>
    (messageType ty).map fun s => [.addEvent id (messageAttrs s u c) (timeToNanos offset us)]
  | .addLink => some []
  | .setKind => some []
  | .setStatus code d => some [.setStatus (.code (if code = 0 then .ok else .error) d)]
  | .finish t => some [.end_ t, .notifyEnd]

/-- Programs. -/
inductive Prog where
  | skip
  /-- `get_current_span()` of OpenTelemetry -/
  | look
  /-- `tracer.current_span()`, remembering its context (the invalid one for `None`) -/
  | ask
  /-- `execution_context.get_current_span()` of OpenCensus -/
  | askOc
  /-- a method of the `n`-th shim span -/
  | op (n : Nat) (m : Method)
  /-- `tracer.add_attribute_to_current_span` -/
  | addAttr (key : AKey) (v : Val)
  | raise (e : Esc)
  | seq (a b : Prog)
  | tryExcept (a b : Prog)
  /-- `tracer.start_span(...)` -/
  | start (o : Opts)
  /-- `tracer.end_span()` -/
  | endSpan (tEnd : Int)
  /-- `with tracer.span(...): b` -/
  | block (o : Opts) (b : Prog)
  /-- `with otel_tracer.start_as_current_span(...): b`, the OpenTelemetry API -/
  | otelBlock (o : Tracer.Opts) (b : Prog)

/-- The machine: the local time zone, the text of `KeyboardInterrupt` and the like, and the `KeyError` and `AttributeError` of the shim. -/
structure Env where
  offset : Int
  describe : Nat → Exc × Str
  keyError : Esc
  attributeError : Esc

/-- What `__exit__` gets. -/
def Env.info (E : Env) : Esc → Exc × Str
  | .exception e text => (e, text)
  | .base n => E.describe n

/-- Runs a program in thread `t`. -/
def run (E : Env) (lim : SpanLimits) (S : Sampler) (t : Nat) : Prog → World → World × Option Esc
  | .skip, w => (w, none)
  | .look, w => ({ w with base := { w.base with seen := w.base.seen ++ [(w.cur t).currentSpan] } }, none)
  | .ask, w => ({ w with base := { w.base with seen := w.base.seen ++ [ctxOfShim w (current w t)] } }, none)
  | .askOc, w => ({ w with base := { w.base with seen := w.base.seen ++ [ctxOfShim w (w.oc t)] } }, none)
  | .op n m, w =>
    match w.shims[n]?, m.steps E.offset with
    | some s, some l => ({ w with base := w.base.steps s.span l }, none)
    | some _, none => (w, some E.keyError)
    | none, _ => (w, none)
  | .addAttr k v, w =>
    match (current w t).bind (fun n => w.shims[n]?) with
    | some s => ({ w with base := w.base.steps s.span [.setAttributes [(k, v)]] }, none)
    | none => (w, some E.attributeError)
  | .raise e, w => (w, some e)
  | .seq a b, w =>
    let q := run E lim S t a w
    match q.2 with
    | none => run E lim S t b q.1
    | some e => (q.1, some e)
  | .tryExcept a b, w =>
    let q := run E lim S t a w
    match q.2 with
    | some (.exception _ _) => run E lim S t b q.1
    | e => (q.1, e)
  | .start o, w => (start S lim t o w, none)
  | .endSpan tEnd, w => (endSpan t tEnd w, none)
  | .block o b, w =>
    let n := w.shims.length
    let q := run E lim S t b (start S lim t o w)
    (exitBlock t n (q.2.map E.info) o.tExc o.tEnd q.1, q.2)
  | .otelBlock o b, w =>
    let i := w.base.spans.length
    let v := Tracer.startIn S lim t o w.base
    let a := v.rt.attach t (Ctx.setSpan (v.rt.getCurrent t) (v.ctxOf i))
    let q := run E lim S t b { w with base := { v with rt := a.1 } }
    let v := { q.1.base with rt := q.1.base.rt.detach t a.2 }
    let v := v.steps i (onError (v.recordingAt i) o.recordException o.setStatusOnException o.tExc q.2)
    ({ q.1 with base := if o.endOnExit then v.steps i [.end_ o.tEnd, .notifyEnd] else v }, q.2)

end OpenCensus
end Otel
