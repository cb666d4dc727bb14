import Verif.Model.ProxyTracer
import Verif.Model.Severity
import Verif.Model.Limits
/-!
# The handler for the `logging` module
Models `LoggingHandler` (`opentelemetry-sdk/src/opentelemetry/sdk/_logs/_internal/__init__.py` 435–559) and `LogRecord.__init__` (174–214). An
exception leaves `emit`, and with it the application's logging call (`logging.Handler.handle` does not catch it).
-/
namespace Otel
namespace LoggingHandler

/-- `record.msg`: a string or some other object. -/
inductive Msg where
  | str (s : Str)
  | obj (n : Nat)
deriving DecidableEq

/-- The body of a log record. -/
inductive Body where
  | text (s : Str)
  | obj (n : Nat)
deriving DecidableEq

/-- `record.exc_info`: `exctype.__name__`, `str(a)` for each of `value.args` (`none` when `str` raises), and the formatted traceback. -/
structure ExcInfo where
  type : Option Str
  value : Option (List (Option Str))
  traceback : Option Str

/-- A `logging.LogRecord`. `vars` is `vars(record)`, the natural attributes included; `message` is the result of `getMessage()` (`none` when it
raises, e.g. because the arguments do not fit the format); `createdNs` is `int(record.created * 1e9)`. -/
structure PyRecord where
  name : Str
  levelno : Int
  levelname : Str
  createdNs : Int
  pathname : Str
  funcName : Option Str
  lineno : Int
  msg : Msg
  hasArgs : Bool
  message : Option Str
  excInfo : Option ExcInfo
  vars : Dict Str Val

/-- `_RESERVED_ATTRS` (435–462). -/
def reserved : List Str :=
  ["asctime".toList, "args".toList, "created".toList, "exc_info".toList, "exc_text".toList, "filename".toList, "funcName".toList,
   "getMessage".toList, "message".toList, "levelname".toList, "levelno".toList, "lineno".toList, "module".toList, "msecs".toList, "msg".toList,
   "name".toList, "pathname".toList, "process".toList, "processName".toList, "relativeCreated".toList, "stack_info".toList, "thread".toList,
   "threadName".toList, "taskName".toList]

def strVal (s : Str) : Val := .atom (.str s true)

def optVal : Option Str → Val
  | some s => strVal s
  | none => .atom .none

/-- The exception attributes (490–502); `none`: `str(value.args[0])` raised. -/
def excAttributes (e : ExcInfo) (d : Dict Str Val) : Option (Dict Str Val) :=
  let d := match e.type with
    | some t => Dict.set d "exception.type".toList (strVal t)
    | none => d
  let d? := match e.value with
    | some (some a :: _) => some (Dict.set d "exception.message".toList (strVal a))
    | some (none :: _) => none
    | _ => some d
  match d? with
  | none => none
  | some d =>
    match e.traceback with
    | some t => some (Dict.set d "exception.stacktrace".toList (strVal t))
    | none => some d

/-- `_get_attributes` (479–503). -/
def getAttributes (r : PyRecord) : Option (Dict Str Val) :=
  let d := r.vars.filter fun kv => !(reserved.contains kv.1)
  let d := Dict.set d "code.filepath".toList (strVal r.pathname)
  let d := Dict.set d "code.function".toList (optVal r.funcName)
  let d := Dict.set d "code.lineno".toList (.atom (.int r.lineno true))
  match r.excInfo with
  | some e => excAttributes e d
  | none => some d

/-- The body (511–529); `fmt` is the handler's formatter. `none`: formatting raised. -/
def body (fmt : Option (PyRecord → Option Str)) (r : PyRecord) : Option Body :=
  match fmt with
  | some f => (f r).map .text
  | none =>
    match r.msg, r.hasArgs with
    | .obj n, false => some (.obj n)
    | _, _ => r.message.map .text

/-- An SDK `LogRecord`. -/
structure OtelRecord where
  timestamp : Int
  observed : Int
  traceId : Int
  spanId : Int
  flags : Nat
  severityText : Str
  severityNumber : Nat
  body : Body
  resource : Nat
  attributes : BAttrs

/-- What `logger_provider` of the handler leads to. -/
inductive Provider where
  /-- the proxy provider, no real one being set -/
  | unset
  /-- an SDK provider with its resource, reached directly or through the proxy -/
  | sdk (disabled : Bool) (resource : Nat)

/-- `_UnsetLogLimits` (160–163) is made when the module is imported; it never raises. -/
def limits (U : DigitTable) (e : Limits.Env) : Option Nat × Option Nat :=
  match Limits.logLimits U (some (-1)) (some (-1)) e with
  | .ok l => l
  | .raised => (none, none)

/-- `_translate` (505–549); `none`: an exception. `logger.resource` of a proxy logger raises `AttributeError`. -/
def translate (U : DigitTable) (e : Limits.Env) (fmt : Option (PyRecord → Option Str)) (ctx : Ctx) (now : Int) (p : Provider) (r : PyRecord) : Option OtelRecord :=
  let sc := Ctx.currentSpan ctx
  match getAttributes r, Severity.stdToOtel r.levelno, body fmt r, p with
  | some d, some n, some b, .sdk _ res =>
    some ⟨r.createdNs, now, sc.traceId, sc.spanId, sc.flags, Severity.severityText r.levelname, n, b, res,
      BAttrs.new (limits U e).1 (d.map fun kv => (AKey.str kv.1, kv.2)) false (limits U e).2⟩
  | _, _, _, _ => none

/-- `emit` (551–559): what is passed on, with its scope; `none`: an exception. -/
def emit (U : DigitTable) (e : Limits.Env) (fmt : Option (PyRecord → Option Str)) (ctx : Ctx) (now : Int) (p : Provider) (r : PyRecord) :
    Option (List (ProxyTracer.Scope × OtelRecord)) :=
  match p with
  | .sdk true _ => some []
  | _ =>
    match translate U e fmt ctx now p r with
    | some x => some [(⟨r.name, some [], [], none⟩, x)]
    | none => none

end LoggingHandler
end Otel
