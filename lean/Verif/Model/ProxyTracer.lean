import Verif.Model.Tracer
/-!
# Proxy tracers and loggers, and the providers' `get_tracer` / `get_logger`
Models `ProxyTracerProvider`, `ProxyTracer` (`opentelemetry-api/src/opentelemetry/trace/__init__.py` 255–276, 415–452), which
`ProxyLoggerProvider`, `ProxyLogger` (`_logs/_internal/__init__.py` 116–147, 207–231) and `ProxyEventLoggerProvider`, `ProxyEventLogger`
(`_events/__init__.py` 82–115, 143–166) repeat word for word; `NoOpTracer` (455–492); SDK
`TracerProvider.get_tracer` (`opentelemetry-sdk/src/opentelemetry/sdk/trace/__init__.py` 1224–1268) and `LoggerProvider.get_logger`
(`sdk/_logs/_internal/__init__.py` 629–681).
-/
namespace Otel
namespace ProxyTracer

/-- The arguments of `get_tracer` / `get_logger`; attributes are opaque. -/
structure Args where
  name : Str
  version : Option Str
  schema : Option Str
  attrs : Option Nat
deriving DecidableEq

/-- Where a use of a proxy (`start_span`, `emit`, …) is in the property `_tracer` (431–444). -/
inductive PC where
  /-- before `if self._real_tracer` -/
  | start
  /-- before `if _TRACER_PROVIDER` -/
  | noReal
  /-- before `_TRACER_PROVIDER.get_tracer(…)` -/
  | provider (p : Nat)
  /-- before `self._real_tracer = …` -/
  | made (r : Nat)
  /-- before `return self._real_tracer`, read again -/
  | stored
  /-- the tracer used; `none` is the no-op tracer -/
  | over (r : Option Nat)
deriving DecidableEq

structure Use where
  proxy : Nat
  pc : PC
deriving DecidableEq

structure Proxy where
  args : Args
  real : Option Nat
deriving DecidableEq

structure State where
  /-- `_TRACER_PROVIDER`, set at most once -/
  glob : Option Nat
  proxies : List Proxy
  /-- the calls of `get_tracer` on real providers; the tracer is the position -/
  made : List (Nat × Args)
  uses : List Use

def State.init : State := ⟨none, [], [], []⟩

inductive Step where
  /-- `set_tracer_provider(p)` -/
  | set (p : Nat)
  /-- `ProxyTracerProvider.get_tracer` -/
  | get (a : Args)
  /-- a use of the `i`-th proxy begins -/
  | use (i : Nat)
  /-- the `n`-th use goes on -/
  | next (n : Nat)
deriving DecidableEq

def State.goto (s : State) (n : Nat) (u : Use) (pc : PC) : State := { s with uses := s.uses.set n { u with pc := pc } }

def step (s : State) : Step → State
  | .set p => if s.glob.isSome then s else { s with glob := some p }
  | .get a =>
    match s.glob with
    | some p => { s with made := s.made ++ [(p, a)] }
    | none => { s with proxies := s.proxies ++ [⟨a, none⟩] }
  | .use i => if i < s.proxies.length then { s with uses := s.uses ++ [⟨i, .start⟩] } else s
  | .next n =>
    match s.uses[n]? with
    | none => s
    | some u =>
      match s.proxies[u.proxy]? with
      | none => s
      | some x =>
        match u.pc with
        | .start =>
          match x.real with
          | some r => s.goto n u (.over (some r))
          | none => s.goto n u .noReal
        | .noReal =>
          match s.glob with
          | some p => s.goto n u (.provider p)
          | none => s.goto n u (.over none)
        | .provider p => { s.goto n u (.made s.made.length) with made := s.made ++ [(p, x.args)] }
        | .made r => { s.goto n u .stored with proxies := s.proxies.set u.proxy { x with real := some r } }
        | .stored => s.goto n u (.over x.real)
        | .over _ => s

/-! ## The SDK's `get_tracer` and `get_logger` -/

/-- The scope of a tracer or logger (`InstrumentationScope.__init__`, `sdk/util/instrumentation.py` 91–104). -/
structure Scope where
  name : Str
  version : Option Str
  schema : Str
  attrs : Option Nat
deriving DecidableEq

/-- `OTEL_SDK_DISABLED`: `environ.get(…, "").lower().strip() == "true"` (1213–1214). -/
def disabled (env : Option Str) : Bool := pyStrip (EnvHeaders.lowerAscii (env.getD [])) == "true".toList

/-- `TracerProvider.get_tracer`: `none` is a `NoOpTracer`. -/
def getTracer (dis : Bool) (a : Args) : Option Scope :=
  if dis then none else some ⟨a.name, some (a.version.getD []), a.schema.getD [], a.attrs⟩

/-- A `LoggerProvider`: its cache and the loggers made so far (object identity is the position). -/
structure Loggers where
  cache : List ((Str × Option Str × Option Str) × Nat)
  made : List Scope

/-- `self._logger_cache[key]`. -/
def lookup (k : Str × Option Str × Option Str) : List ((Str × Option Str × Option Str) × Nat) → Option Nat
  | [] => none
  | (k', n) :: l => if k' = k then some n else lookup k l

/-- `LoggerProvider.get_logger` (665–681): the logger's number, or `none` for a `NoOpLogger`. -/
def getLogger (dis : Bool) (s : Loggers) (a : Args) : Loggers × Option Nat :=
  if dis then (s, none)
  else
    match a.attrs with
    | some _ => ({ s with made := s.made ++ [⟨a.name, a.version, a.schema.getD [], a.attrs⟩] }, some s.made.length)
    | none =>
      match lookup (a.name, a.version, a.schema) s.cache with
      | some n => (s, some n)
      | none => (⟨s.cache ++ [((a.name, a.version, a.schema), s.made.length)], s.made ++ [⟨a.name, a.version, a.schema.getD [], none⟩]⟩, some s.made.length)

/-- A history of `get_logger` calls. -/
def getLoggers (dis : Bool) : Loggers → List Args → Loggers × List (Option Nat)
  | s, [] => (s, [])
  | s, a :: l =>
    let r := getLogger dis s a
    let q := getLoggers dis r.1 l
    (q.1, r.2 :: q.2)

/-! ## Programs without an SDK -/
open Tracer (Prog World)
open UseSpan (Esc)

/-- What a program (see `Verif.Model.Tracer`) does when its tracer is the no-op tracer (455–492): `start_as_current_span` attaches nothing,
`start_span` returns `INVALID_SPAN`, on which all methods do nothing. A request still carries the current context. -/
def noopRun : Nat → Prog → World → World × Option Esc
  | _, .skip, w => (w, none)
  | t, .look, w => ({ w with seen := w.seen ++ [Ctx.currentSpan (w.rt.getCurrent t)] }, none)
  | _, .op _ _, w => (w, none)
  | _, .raise e, w => (w, some e)
  | t, .seq a b, w =>
    let q := noopRun t a w
    match q.2 with
    | none => noopRun t b q.1
    | some e => (q.1, some e)
  | t, .tryExcept a b, w =>
    let q := noopRun t a w
    match q.2 with
    | some (.exception _ _) => noopRun t b q.1
    | e => (q.1, e)
  | _, .start _, w => (w, none)
  | t, .block _ b, w => noopRun t b w
  | t, .remote _ b, w =>
    let carrier := TraceContext.inject [] (w.rt.getCurrent t)
    let there := Runtime.init
    let a := there.attach 0 (TraceContext.extract carrier (there.getCurrent 0))
    let q := noopRun 0 b { w with rt := a.1 }
    ({ q.1 with rt := w.rt }, none)

/-- `with use_span(tracer.start_span(…)): b` with the no-op tracer: the invalid span becomes current. -/
def noopUseSpan (t : Nat) (b : World → World × Option Esc) (w : World) : World × Option Esc :=
  let a := w.rt.attach t (Ctx.setSpan (w.rt.getCurrent t) SpanContext.invalid)
  let q := b { w with rt := a.1 }
  ({ q.1 with rt := q.1.rt.detach t a.2 }, q.2)

end ProxyTracer
end Otel
