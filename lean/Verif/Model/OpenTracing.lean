import Verif.Model.Tracer
import Verif.Model.Propagate
/-!
# The OpenTracing shim
Models `shim/opentelemetry-opentracing-shim/src/opentelemetry/shim/opentracing_shim/__init__.py` (below: shim) 131–752 and `util.py` 15–54,
used by programs in a small language which mixes OpenTracing calls with OpenTelemetry blocks. The tracer below the shim is the SDK's
(`Sampling.startSpan`). Not modelled: the conversion of seconds to nanoseconds (times are arguments), the deprecated `log`/`log_event`, and a
`ScopeShim` built directly from a `SpanShim` (the `except KeyError` of `active`, 500–505, cannot be reached: `get_value` does not raise).
-/
namespace Otel
namespace OpenTracing
open UseSpan (Esc onError)
open Sampling (Sampler Started startSpan RawLinks)
open Tracer (World.steps World.ctxOf World.recordingAt notes)

/-- `_SHIM_KEY` (shim 131); made by `create_key`, so different from all other keys. -/
def scopeKey : CtxKey := .user "scope_shim".toList

/-- A `SpanShim` (185–319): the wrapped span (by number), and the baggage of its `SpanContextShim` (153–182). -/
structure Shim where
  span : Nat
  baggage : Ctx

/-- A `ScopeShim` made by `from_context_manager` (322–436): its `SpanShim`, the token of the shim key, and the suspended `use_span` generator: span,
`end_on_exit`, token, and whether it has finished. -/
structure Scope where
  shim : Nat
  token : Token
  span : Nat
  finish : Bool
  spanToken : Token
  exited : Bool

/-- The state: that of the tracer, and the objects of the shim. -/
structure World where
  base : Tracer.World
  shims : List Shim
  scopes : List Scope

/-- Nothing has happened yet. -/
def World.init : World := ⟨Tracer.World.init, [], []⟩

/-- The current context of a thread. -/
def World.cur (w : World) (t : Nat) : Ctx := w.base.rt.getCurrent t

/-- `ScopeManagerShim.active` (479–505), as the number of the scope. -/
def active (w : World) (t : Nat) : Option Nat :=
  if (w.cur t).currentSpan = SpanContext.invalid then none
  else match (w.cur t).getValue scopeKey with
    | some (.other n) => some n
    | _ => none

/-- `tracer.active_span` (`opentracing.Tracer`): the span of the active scope. -/
def activeSpan (w : World) (t : Nat) : Option Nat :=
  (active w t).bind fun n => (w.scopes[n]?).map Scope.span

/-- What `child_of` may be: a `SpanShim` (or its context) of a span of this process, or a context obtained from `extract`. -/
inductive Ref where
  | span (i : Nat)
  | ctx (sc : SpanContext)

/-- `child_of.unwrap()`, as a context: the SDK's tracer uses nothing else of a parent span. -/
def Ref.unwrap (w : World) : Ref → SpanContext
  | .span i => w.base.ctxOf i
  | .ctx sc => sc

/-- Arguments of `start_span` and `start_active_span`, and the environment's answers (the identifiers drawn, the clock). -/
structure Opts where
  name : Str
  childOf : Option Ref
  references : List SpanContext
  tags : Span.RawAttrs
  ignoreActive : Bool
  traceDraw : Nat
  spanDraw : Nat
  tStart : Int
  tExc : Int
  tEnd : Int

/-- `set_span_in_context(span)`, where `None` may be stored (`opentelemetry-api/src/opentelemetry/trace/propagation/__init__.py` 24–35). -/
def setParent (c : Ctx) : Option SpanContext → Ctx
  | some sc => c.setSpan sc
  | none => c.setValue .span (.other 0)

/-- The links of `start_span` (659–663); `is not INVALID_SPAN_CONTEXT` is read as inequality. -/
def validLinks (refs : List SpanContext) : List SpanContext := refs.filter fun sc => sc ≠ SpanContext.invalid

/-- `child_of` in `start_span`, or the active span (649–651). -/
def child (w : World) (t : Nat) (o : Opts) : Option Ref :=
  if o.childOf.isSome then o.childOf else if o.ignoreActive then none else (activeSpan w t).map Ref.span

/-- The parent of `start_span` (653–666). -/
def parent (w : World) (t : Nat) (o : Opts) : Option SpanContext :=
  match child w t o with
  | some r => some (r.unwrap w)
  | none => (validLinks o.references).head?

/-- `TracerShim.start_span` (615–686): the new span and its `SpanShim`. -/
def start (S : Sampler) (lim : SpanLimits) (t : Nat) (o : Opts) (w : World) : World :=
  let links : RawLinks := (validLinks o.references).map fun sc => some (some sc, [])
  match startSpan S lim [o.traceDraw + 1] [o.spanDraw + 1] (setParent (w.cur t) (parent w t o)) o.name 0 o.tags links o.tStart with
  | some s =>
    { w with
      base := { w.base with spans := w.base.spans ++ [s], log := w.base.log ++ (notes s).map fun n => (w.base.spans.length, n) }
      shims := w.shims ++ [⟨w.base.spans.length, []⟩] }
  | none => w

/-- `child_of` in `start_active_span` (597–603): the current span of the context, if none is given. -/
def childArg (w : World) (t : Nat) (o : Opts) : Opts :=
  match o.childOf with
  | some _ => o
  | none => if (w.cur t).currentSpan = SpanContext.invalid then o else { o with childOf := some (.ctx (w.cur t).currentSpan) }

/-- `ScopeManagerShim.activate` (462–477), `ScopeShim.from_context_manager` (367–397) and `ScopeShim.__init__` (358–363): enters `use_span`, wraps the
span in a new `SpanShim`, and makes the scope current. -/
def activate (t i : Nat) (finish : Bool) (w : World) : World :=
  let a := w.base.rt.attach t (Ctx.setSpan (w.cur t) (w.base.ctxOf i))
  let b := a.1.attach t (Ctx.setValue (a.1.getCurrent t) scopeKey (.other w.scopes.length))
  { w with
    base := { w.base with rt := b.1 }
    shims := w.shims ++ [⟨i, []⟩]
    scopes := w.scopes ++ [⟨w.shims.length, b.2, i, finish, a.2, false⟩] }

/-- `ScopeShim._end_span_scope` (426–436), called by `close` (399–417) with no exception and by `__exit__` (419–424): resumes the `use_span` generator,
unless it has finished. `use_span` was called with its default arguments for exceptions. -/
def endScope (t n : Nat) (exc : Option Esc) (tExc tEnd : Int) (w : World) : World :=
  match w.scopes[n]? with
  | none => w
  | some sc =>
    let b := { w.base with rt := w.base.rt.detach t sc.token }
    if sc.exited then { w with base := b }
    else
      let b := { b with rt := b.rt.detach t sc.spanToken }
      let b := b.steps sc.span (onError (b.recordingAt sc.span) true true tExc exc)
      let b := if sc.finish then b.steps sc.span [.end_ tEnd, .notifyEnd] else b
      { w with base := b, scopes := w.scopes.set n { sc with exited := true } }

/-- Methods of `SpanShim` (209–295). In `log_kv`, the value of `event` is a string if it is there (other values are not modelled); it is the event's
name (util.py 43–54), and stays among the attributes. -/
inductive Method where
  | setOperationName (name : Str)
  | setTag (key : AKey) (v : Val)
  | logKv (event : Option Str) (others : Span.RawAttrs) (ts : Int)
  | finish (t : Int)

/-- Their effect on the span. -/
def Method.steps : Method → List Span.Step
  | .setOperationName n => [.updateName n]
  | .setTag k v => [.setAttributes [(k, v)]]
  | .logKv none others ts => [.addEvent "log".toList others ts]
  | .logKv (some e) others ts => [.addEvent e ((.str "event".toList, .atom (.str e true)) :: others) ts]
  | .finish t => [.end_ t, .notifyEnd]

/-- `set_baggage_item` (297–308). -/
def setBaggage (n : Nat) (k v : Str) (w : World) : World :=
  match w.shims[n]? with
  | none => w
  | some s => { w with shims := w.shims.set n { s with baggage := Baggage.set s.baggage k v } }

/-- `get_baggage_item` (310–319). -/
def getBaggage (n : Nat) (k : Str) (w : World) : Option Str :=
  (w.shims[n]?).bind fun s => Baggage.get s.baggage k

/-- Programs. -/
inductive Prog where
  | skip
  /-- `get_current_span()` -/
  | look
  /-- `tracer.active_span`, remembering its context (the invalid one for `None`) -/
  | ask
  /-- a method of a `SpanShim` of the `i`-th span -/
  | op (i : Nat) (m : Method)
  | setBaggage (n : Nat) (k v : Str)
  | raise (e : Esc)
  | seq (a b : Prog)
  | tryExcept (a b : Prog)
  /-- `tracer.start_span(...)` -/
  | start (o : Opts)
  /-- `with tracer.start_active_span(...): b` -/
  | startActive (o : Opts) (finish : Bool) (b : Prog)
  /-- `with tracer.scope_manager.activate(span, finish): b`, with a `SpanShim` of the `i`-th span -/
  | activate (i : Nat) (finish : Bool) (tExc tEnd : Int) (b : Prog)
  /-- `scope.close()` of the `n`-th scope -/
  | close (n : Nat) (tEnd : Int)
  /-- `with otel_tracer.start_as_current_span(...): b`, the OpenTelemetry API -/
  | otelBlock (o : Tracer.Opts) (b : Prog)

/-- Runs a program in thread `t`. The `with` statement calls `__exit__` with the exception, which propagates. -/
def run (lim : SpanLimits) (S : Sampler) (t : Nat) : Prog → World → World × Option Esc
  | .skip, w => (w, none)
  | .look, w => ({ w with base := { w.base with seen := w.base.seen ++ [(w.cur t).currentSpan] } }, none)
  | .ask, w =>
    let sc := match activeSpan w t with
      | some i => w.base.ctxOf i
      | none => SpanContext.invalid
    ({ w with base := { w.base with seen := w.base.seen ++ [sc] } }, none)
  | .op i m, w => ({ w with base := w.base.steps i m.steps }, none)
  | .setBaggage n k v, w => (setBaggage n k v w, none)
  | .raise e, w => (w, some e)
  | .seq a b, w =>
    let q := run lim S t a w
    match q.2 with
    | none => run lim S t b q.1
    | some e => (q.1, some e)
  | .tryExcept a b, w =>
    let q := run lim S t a w
    match q.2 with
    | some (.exception _ _) => run lim S t b q.1
    | e => (q.1, e)
  | .start o, w => (start S lim t o w, none)
  | .startActive o finish b, w =>
    let i := w.base.spans.length
    let n := w.scopes.length
    let q := run lim S t b (activate t i finish (start S lim t (childArg w t o) w))
    (endScope t n q.2 o.tExc o.tEnd q.1, q.2)
  | .activate i finish tExc tEnd b, w =>
    let n := w.scopes.length
    let q := run lim S t b (activate t i finish w)
    (endScope t n q.2 tExc tEnd q.1, q.2)
  | .close n tEnd, w => (endScope t n none 0 tEnd w, none)
  | .otelBlock o b, w =>
    let i := w.base.spans.length
    let v := Tracer.startIn S lim t o w.base
    let a := v.rt.attach t (Ctx.setSpan (v.rt.getCurrent t) (v.ctxOf i))
    let q := run lim S t b { w with base := { v with rt := a.1 } }
    let v := { q.1.base with rt := q.1.base.rt.detach t a.2 }
    let v := v.steps i (onError (v.recordingAt i) o.recordException o.setStatusOnException o.tExc q.2)
    ({ q.1 with base := if o.endOnExit then v.steps i [.end_ o.tEnd, .notifyEnd] else v }, q.2)

/-! ## Carriers -/

/-- `TracerShim.inject` (688–717) in a supported format, with the global propagator made of `ps`. The span context becomes a non-recording span. -/
def inject (U : DigitTable) (ps : List Propagate.Builtin) (current : Ctx) (sc : Option SpanContext) (carrier : Carrier) : Carrier :=
  Propagate.inject U 0 ps carrier (setParent current sc)

/-- `TracerShim.extract` (719–752) in a supported format; `none` is an exception. -/
def extract (U : DigitTable) (ps : List Propagate.Builtin) (current : Ctx) (carrier : Carrier) : Option SpanContext :=
  (Propagate.extractDefault U current ps carrier).map Ctx.currentSpan

end OpenTracing
end Otel
