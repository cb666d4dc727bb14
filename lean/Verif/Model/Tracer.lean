import Verif.Model.Sampling
import Verif.Model.UseSpan
import Verif.Model.TraceContext
/-!
# Traced programs
Models `Tracer.start_as_current_span` and `Tracer.start_span` (`opentelemetry-sdk/src/opentelemetry/sdk/trace/__init__.py` 1075–1181) called by
a program in a small language: nested blocks, exceptions raised and caught, calls of span methods, and calls of another service, which
continues the trace from the W3C headers of the request.
-/
namespace Otel
namespace Tracer
open UseSpan (Esc onError)
open Sampling (Sampler Started startSpan RawLinks)

/-- The arguments of `start_as_current_span`, and the environment's answers. `newTrace` is `context=Context()` (a new trace); otherwise
`context` is not given. The identifiers drawn are `traceDraw + 1` and `spanDraw + 1` (zero draws are skipped by the generator, see
`Sampling.genId`). -/
structure Opts where
  name : Str
  kind : Nat
  attributes : Span.RawAttrs
  links : RawLinks
  newTrace : Bool
  recordException : Bool
  setStatusOnException : Bool
  endOnExit : Bool
  traceDraw : Nat
  spanDraw : Nat
  tStart : Int
  tExc : Int
  tEnd : Int

/-- Programs. -/
inductive Prog where
  | skip
  /-- `get_current_span()`, remembering its context -/
  | look
  /-- a method of the `i`-th span the program has started -/
  | op (i : Nat) (s : Span.Step)
  | raise (e : Esc)
  | seq (a b : Prog)
  /-- `try: a; except Exception: b` -/
  | tryExcept (a b : Prog)
  /-- `tracer.start_span(...)`, not made current -/
  | start (o : Opts)
  /-- `with tracer.start_as_current_span(...): b` -/
  | block (o : Opts) (b : Prog)
  /-- a request to another service: `inject` here; there, `attach(extract(headers))`, `b`, `detach`. The other service has its own sampler.
  An exception there does not come back. -/
  | remote (sampler : Sampler) (b : Prog)

/-- The context variables of the process, all spans started so far, the calls made to the span processors (span, call), and what was seen. -/
structure World where
  rt : Runtime
  spans : List Started
  log : List (Nat × Span.Note)
  seen : List SpanContext

/-- Nothing has happened yet. -/
def World.init : World := ⟨Runtime.init, [], [], []⟩

/-- Steps on a span; `NonRecordingSpan` ignores all methods (`opentelemetry-api/src/opentelemetry/trace/span.py` 513–574). -/
def stepsOn (l : List Span.Step) : Started → Started
  | .recording s => .recording (l.foldl Span.step s)
  | .nonRecording sc => .nonRecording sc

/-- The processor calls a span has made. -/
def notes : Started → List Span.Note
  | .recording s => s.log
  | .nonRecording _ => []

/-- `isinstance(span, Span) and span.is_recording()`. -/
def recording : Started → Bool
  | .recording s => Span.isRecording s
  | .nonRecording _ => false

/-- Steps on the `i`-th span, with the processor calls they make. -/
def World.steps (w : World) (i : Nat) (l : List Span.Step) : World :=
  match w.spans[i]? with
  | none => w
  | some s =>
    { w with
      spans := w.spans.set i (stepsOn l s)
      log := w.log ++ ((notes (stepsOn l s)).drop (notes s).length).map fun n => (i, n) }

/-- `Tracer.start_span` with the current context of the thread, or the empty one. -/
def startIn (sampler : Sampler) (lim : SpanLimits) (t : Nat) (o : Opts) (w : World) : World :=
  let ctx := if o.newTrace then [] else w.rt.getCurrent t
  match startSpan sampler lim [o.traceDraw + 1] [o.spanDraw + 1] ctx o.name o.kind o.attributes o.links o.tStart with
  | some s => { w with spans := w.spans ++ [s], log := w.log ++ (notes s).map fun n => (w.spans.length, n) }
  | none => w

/-- The context of the `i`-th span. -/
def World.ctxOf (w : World) (i : Nat) : SpanContext :=
  match w.spans[i]? with
  | some s => s.ctx
  | none => SpanContext.invalid

/-- Is the `i`-th span recording? -/
def World.recordingAt (w : World) (i : Nat) : Bool :=
  match w.spans[i]? with
  | some s => recording s
  | none => false

/-- Runs a program in thread `t` of a process. `start_as_current_span` is `start_span` followed by `use_span` (1088–1105). -/
def run (lim : SpanLimits) : Sampler → Nat → Prog → World → World × Option Esc
  | _, _, .skip, w => (w, none)
  | _, t, .look, w => ({ w with seen := w.seen ++ [Ctx.currentSpan (w.rt.getCurrent t)] }, none)
  | _, _, .op i s, w => (w.steps i [s], none)
  | _, _, .raise e, w => (w, some e)
  | S, t, .seq a b, w =>
    let q := run lim S t a w
    match q.2 with
    | none => run lim S t b q.1
    | some e => (q.1, some e)
  | S, t, .tryExcept a b, w =>
    let q := run lim S t a w
    match q.2 with
    | some (.exception _ _) => run lim S t b q.1
    | e => (q.1, e)
  | S, t, .start o, w => (startIn S lim t o w, none)
  | S, t, .block o b, w =>
    let i := w.spans.length
    let w := startIn S lim t o w
    let a := w.rt.attach t (Ctx.setSpan (w.rt.getCurrent t) (w.ctxOf i))
    let q := run lim S t b { w with rt := a.1 }
    let w := { q.1 with rt := q.1.rt.detach t a.2 }
    let w := w.steps i (onError (w.recordingAt i) o.recordException o.setStatusOnException o.tExc q.2)
    (if o.endOnExit then w.steps i [.end_ o.tEnd, .notifyEnd] else w, q.2)
  | _, t, .remote S b, w =>
    let carrier := TraceContext.inject [] (w.rt.getCurrent t)
    let there := Runtime.init
    let a := there.attach 0 (TraceContext.extract carrier (there.getCurrent 0))
    let q := run lim S 0 b { w with rt := a.1 }
    ({ q.1 with rt := w.rt }, none)

end Tracer
end Otel
