import Verif.Model.Context
import Verif.Model.Span
/-!
# `use_span`
Models `use_span` (`opentelemetry-api/src/opentelemetry/trace/__init__.py` 563–617) running around arbitrary code, which is a small
language: it looks at the current span, calls methods of spans (its own calls and, interleaved, those of other threads), attaches and
detaches contexts, raises and catches exceptions, and enters further `use_span` blocks.
-/
namespace Otel
namespace UseSpan
open Span (Exc)

/-- What may escape from a block: an `Exception` (with the text `f"{type(exc).__name__}: {exc}"`), or another `BaseException` such as
`KeyboardInterrupt` or `GeneratorExit`. -/
inductive Esc where
  | exception (e : Exc) (text : Str)
  | base (n : Nat)
deriving DecidableEq

/-- The context variable, the spans, the tokens the program holds, and what it has seen. -/
structure World where
  rt : Runtime
  spans : Nat → Span.State
  toks : List Token
  seen : List SpanContext

inductive Body where
  | skip
  /-- `get_current_span()` -/
  | look
  | op (i : Nat) (s : Span.Step)
  /-- `attach(c)`, keeping the token -/
  | attach (c : Ctx)
  /-- `detach` of the `n`-th token kept -/
  | detach (n : Nat)
  | raise (e : Esc)
  | seq (a b : Body)
  /-- `try: a; except Exception: b` -/
  | tryExcept (a b : Body)
  | useSpan (i : Nat) (endOnExit recordException setStatusOnException : Bool) (ts tEnd : Int) (b : Body)

/-- Steps on one span. -/
def World.steps (w : World) (i : Nat) (l : List Span.Step) : World :=
  { w with spans := fun j => if j = i then l.foldl Span.step (w.spans i) else w.spans j }

/-- The exception `end()` raises on a span that was not started (`opentelemetry-sdk/src/opentelemetry/sdk/trace/__init__.py` 940–941). -/
def notStarted : Esc :=
  .exception ⟨"builtins".toList, "RuntimeError".toList, "Calling end() on a not started span.".toList, []⟩
    "RuntimeError: Calling end() on a not started span.".toList

/-- The `except` clause of `use_span` (594–613): `record_exception` is called without `escaped`, so the event says `False`. An exception whose
`str` raises is not modelled. -/
def onError (recording recordException setStatusOnException : Bool) (ts : Int) : Option Esc → List Span.Step
  | some (.exception e text) =>
    if recording then
      (if recordException then [.recordException e [] ts false] else []) ++
      (if setStatusOnException then [.setStatus (.obj .error (some text))] else [])
    else []
  | _ => []

/-- The `finally` clause (615–617). -/
def onExit (w : World) (i : Nat) (endOnExit : Bool) (tEnd : Int) (e : Option Esc) : World × Option Esc :=
  if endOnExit then
    if (w.spans i).data.startTime = none then (w, some notStarted)
    else (w.steps i [.end_ tEnd, .notifyEnd], e)
  else (w, e)

/-- Runs a program in thread `t`. -/
def run (t : Nat) : Body → World → World × Option Esc
  | .skip, w => (w, none)
  | .look, w => ({ w with seen := w.seen ++ [Ctx.currentSpan (w.rt.getCurrent t)] }, none)
  | .op i s, w => (w.steps i [s], none)
  | .attach c, w => let a := w.rt.attach t c; ({ w with rt := a.1, toks := w.toks ++ [a.2] }, none)
  | .detach n, w =>
    match w.toks[n]? with
    | some k => ({ w with rt := w.rt.detach t k }, none)
    | none => (w, none)
  | .raise e, w => (w, some e)
  | .seq a b, w =>
    let q := run t a w
    match q.2 with
    | none => run t b q.1
    | some e => (q.1, some e)
  | .tryExcept a b, w =>
    let q := run t a w
    match q.2 with
    | some (.exception _ _) => run t b q.1
    | e => (q.1, e)
  | .useSpan i endOnExit rec? set? ts tEnd b, w =>
    let a := w.rt.attach t (Ctx.setSpan (w.rt.getCurrent t) (w.spans i).data.ctx)
    let q := run t b { w with rt := a.1 }
    let w := { q.1 with rt := q.1.rt.detach t a.2 }
    onExit (w.steps i (onError (Span.isRecording (w.spans i)) rec? set? ts q.2)) i endOnExit tEnd q.2

end UseSpan
end Otel
