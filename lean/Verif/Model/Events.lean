import Verif.Model.LoggingHandler
/-!
# Events
Models the events API (`opentelemetry-api/src/opentelemetry/_events/__init__.py`; below: api) and the SDK's `EventLogger`, `EventLoggerProvider`
(`opentelemetry-sdk/src/opentelemetry/sdk/_events/__init__.py`; below: sdk). The proxies (api 82–115, 143–166) repeat `ProxyTracer` and
`ProxyTracerProvider` word for word and are modelled there.
-/
namespace Otel
namespace Events
open ProxyTracer (Scope Args)

/-- An `Event` as the application makes it (api 33–56); the body is any object (`none` is `None`), attribute keys are strings, severities are the numbers of
`SeverityNumber`, whose members are all true. -/
structure Event where
  name : Str
  timestamp : Option Int := none
  traceId : Option Int := none
  spanId : Option Int := none
  flags : Option Nat := none
  body : Option Nat := none
  severity : Option Nat := none
  attributes : Option (Dict Str Val) := none

/-- `{**attributes, "event.name": name}` (api 45–46). -/
def eventAttributes (e : Event) : Dict Str Val := Dict.set (e.attributes.getD []) "event.name".toList (.atom (.str e.name true))

/-- The resource of a record: that of the logger, or a new `Resource.create({})`. -/
inductive Res where
  | logger (n : Nat)
  | created
deriving DecidableEq

/-- The SDK `LogRecord` of an event. -/
structure Record where
  timestamp : Int
  observed : Int
  traceId : Int
  spanId : Int
  flags : Nat
  severityText : Option Str
  severity : Nat
  body : Option Nat
  resource : Res
  attributes : BAttrs

/-- Python `a or b` on an optional number: `None` and `0` are false. -/
def orInt (a : Option Int) (b : Int) : Int :=
  match a with
  | none => b
  | some n => if n = 0 then b else n

/-- `event.trace_flags or span_context.trace_flags` (sdk 58): `TraceFlags` is a subclass of `int`. -/
def orNat (a : Option Nat) (b : Nat) : Nat :=
  match a with
  | none => b
  | some n => if n = 0 then b else n

/-- The logger provider an `EventLoggerProvider` was made with (sdk 69–70): an SDK provider (whether disabled, and its resource), or the API's proxy because
none was given and none was set, with the SDK provider that has been set by now. -/
inductive Provider where
  | sdk (disabled : Bool) (resource : Nat)
  | proxy (real : Option (Bool × Nat))

/-- The log record made of an event (sdk 52–64, `LogRecord.__init__` `_logs/_internal/__init__.py` 174–213); `now` is the clock, `now'` the clock a moment later.
A proxy logger has no `resource` (62). -/
def record (U : DigitTable) (env : Limits.Env) (ctx : Ctx) (now now' : Int) (res : Res) (e : Event) : Record :=
  let sc := Ctx.currentSpan ctx
  { timestamp := orInt e.timestamp now
    observed := now'
    traceId := orInt e.traceId sc.traceId
    spanId := orInt e.spanId sc.spanId
    flags := orNat e.flags sc.flags
    severityText := none
    severity := e.severity.getD 9
    body := e.body
    resource := res
    attributes := BAttrs.new (LoggingHandler.limits U env).1 ((eventAttributes e).map fun kv => (AKey.str kv.1, kv.2)) false (LoggingHandler.limits U env).2 }

/-- `EventLogger.emit` (sdk 48–65) of a logger got with `get_event_logger(a…)` (sdk 72–83): what reaches the log record processors, with its scope
(`LoggerProvider.get_logger`). A proxy logger passes the record on to the real logger, if there is one (`_logs/_internal/__init__.py` of the API, 131–147). -/
def emit (U : DigitTable) (env : Limits.Env) (ctx : Ctx) (now now' : Int) (p : Provider) (a : Args) (e : Event) : List (Scope × Record) :=
  match p with
  | .sdk true _ => []
  | .sdk false res => [(⟨a.name, a.version, a.schema.getD [], a.attrs⟩, record U env ctx now now' (.logger res) e)]
  | .proxy (some (false, _)) => [(⟨a.name, a.version, a.schema.getD [], a.attrs⟩, record U env ctx now now' .created e)]
  | .proxy _ => []

/-- What a call gives back. -/
inductive Out where
  | raised
  | none
  | bool (b : Bool)
deriving DecidableEq

/-- `EventLoggerProvider.force_flush` (sdk 88–89), where `flushed` is what the logger provider's `force_flush` returns: it is not passed on. The API's proxy
provider has no such method. -/
def forceFlush (p : Provider) (_flushed : Bool) : Out :=
  match p with
  | .sdk _ _ => .none
  | .proxy _ => .raised

end Events
end Otel
