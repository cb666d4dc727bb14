import Verif.Model.Attributes
import Verif.Model.Limits
/-!
# The SDK span
Models `Span`, `Event`, link validation of `opentelemetry-sdk/src/opentelemetry/sdk/trace/__init__.py` 294–366,
736–1042 and `opentelemetry-api/src/opentelemetry/trace/status.py` 22–82.

Every public method takes the span's lock around its effect, so a concurrent execution is a sequence of the atomic
steps below. `start` and `end` notify the processor after releasing the lock: the notification is a separate step.
Time stamps (given or `time_ns()`) are arguments of the steps.
-/
namespace Otel

/-- `StatusCode` (status.py:22–32). -/
inductive StatusCode where
  | unset | ok | error
deriving DecidableEq, Repr

/-- `Status` (status.py:35–82). -/
structure Status where
  code : StatusCode
  desc : Option Str
deriving DecidableEq, Repr

/-- `Status.__init__` (status.py:44–62) for a string (or absent) description. -/
def Status.make (code : StatusCode) (desc : Option Str) : Status :=
  match desc with
  | none => ⟨code, none⟩
  | some [] => ⟨code, some []⟩
  | some (c :: cs) => if code = .error then ⟨code, some (c :: cs)⟩ else ⟨code, none⟩

namespace Span

/-- `Event` with its bounded attributes (trace/__init__.py:294–345). -/
structure Event where
  name : Str
  ts : Int
  attrs : BAttrs
deriving DecidableEq, Repr

/-- `Link` with its bounded attributes. -/
structure Link where
  ctx : SpanContext
  attrs : BAttrs
deriving DecidableEq, Repr

/-- The data of a span (`ReadableSpan` fields that can change, plus the fixed context and parent). -/
structure Data where
  name : Str
  ctx : SpanContext
  parent : Option SpanContext
  status : Status
  attrs : BAttrs
  events : BList Event
  links : BList Link
  startTime : Option Int
  endTime : Option Int
deriving DecidableEq, Repr

/-- Calls of the span processor: `on_start(span)`, `on_end(readable_span)`. -/
inductive Note where
  | started
  | ended (d : Data)
deriving DecidableEq, Repr

/-- A span, the notifications threads still owe, and those made (in order). -/
structure State where
  lim : SpanLimits
  data : Data
  owedStart : Nat
  owedEnd : Nat
  log : List Note
deriving DecidableEq, Repr

/-- Attributes as passed by a caller: the items of a mapping. -/
abbrev RawAttrs := List (AKey × Val)

/-- `_is_valid_link` (trace/__init__.py:363–366). -/
def isValidLink (ctx : Option SpanContext) (attrs : RawAttrs) : Bool :=
  match ctx with
  | none => false
  | some c => c.isValid || !attrs.isEmpty || !c.traceState.isEmpty

/-- The event built by `add_event` (trace/__init__.py:869–880); also by the constructor (809–815). -/
def mkEvent (lim : SpanLimits) (name : Str) (attrs : RawAttrs) (ts : Int) : Event :=
  ⟨name, ts, BAttrs.new lim.maxEventAttributes attrs true lim.maxAttributeLength⟩

/-- The link built by `add_link` (trace/__init__.py:894–904) and `_new_links` (829–838). -/
def mkLink (lim : SpanLimits) (ctx : SpanContext) (attrs : RawAttrs) : Link :=
  ⟨ctx, BAttrs.new lim.maxLinkAttributes attrs true lim.maxAttributeLength⟩

/-- An exception as `record_exception` sees it. -/
structure Exc where
  module : Str
  qualname : Str
  message : Str
  stacktrace : Str
deriving DecidableEq, Repr

/-- `exception_type` (trace/__init__.py:1025–1031). -/
def Exc.typeName (e : Exc) : Str :=
  if e.module ≠ [] ∧ e.module ≠ "builtins".toList then e.module ++ ['.'] ++ e.qualname else e.qualname

/-- The attributes of the exception event (trace/__init__.py:1032–1039). -/
def excAttrs (e : Exc) (attrs : RawAttrs) (escaped : Bool) : RawAttrs :=
  Dict.update (κ := AKey) (ν := Val)
    [(.str "exception.type".toList, .atom (.str e.typeName true)),
     (.str "exception.message".toList, .atom (.str e.message true)),
     (.str "exception.stacktrace".toList, .atom (.str e.stacktrace true)),
     (.str "exception.escaped".toList, .atom (.str (if escaped then "True".toList else "False".toList) true))]
    attrs

/-- Argument of `set_status`: `Status(code, desc)`, a `StatusCode` with a description, or something else. -/
inductive StatusArg where
  | obj (code : StatusCode) (desc : Option Str)
  | code (code : StatusCode) (desc : Option Str)
  | other
deriving DecidableEq, Repr

/-- Atomic steps of the threads using a span. -/
inductive Step where
  | start (t : Int)
  | notifyStart
  | end_ (t : Int)
  | notifyEnd
  | setAttributes (a : RawAttrs)
  | addEvent (name : Str) (attrs : RawAttrs) (ts : Int)
  | addLink (ctx : Option SpanContext) (attrs : RawAttrs)
  | updateName (name : Str)
  | setStatus (s : StatusArg)
  | recordException (e : Exc) (attrs : RawAttrs) (ts : Int) (escaped : Bool)
deriving DecidableEq, Repr

/-- `set_status` on a recording span (trace/__init__.py:958–985). -/
def newStatus (cur : Status) : StatusArg → Status
  | .obj c d => if cur.code = .ok ∨ c = .unset then cur else Status.make c d
  | .code c d => if cur.code = .ok ∨ c = .unset then cur else Status.make c d
  | .other => cur

/-- Effect of the mutators on a recording span (each guarded by `_end_time is None` under the lock,
trace/__init__.py:348–360, 845–904, 950–985, 1011–1042). -/
def mutate (lim : SpanLimits) (d : Data) : Step → Data
  | .setAttributes a => { d with attrs := a.foldl (fun b kv => b.setCore kv.1 kv.2) d.attrs }
  | .addEvent n a ts => { d with events := d.events.append (mkEvent lim n a ts) }
  | .addLink (some c) a =>
    if isValidLink (some c) a then { d with links := d.links.append (mkLink lim c a) } else d
  | .addLink none _ => d
  | .updateName n => { d with name := n }
  | .setStatus s => { d with status := newStatus d.status s }
  | .recordException e a ts esc =>
    { d with events := d.events.append (mkEvent lim "exception".toList (excAttrs e a esc) ts) }
  | _ => d

/-- One atomic step. `start` (trace/__init__.py:923–936), `end` (938–948; before `start` it raises
`RuntimeError`, which changes nothing), notifications, mutators. -/
def step (s : State) : Step → State
  | .start t =>
    if s.data.startTime.isSome then s
    else { s with data := { s.data with startTime := some t }, owedStart := s.owedStart + 1 }
  | .notifyStart =>
    if s.owedStart = 0 then s else { s with owedStart := s.owedStart - 1, log := s.log ++ [.started] }
  | .end_ t =>
    if s.data.startTime = none ∨ s.data.endTime.isSome then s
    else { s with data := { s.data with endTime := some t }, owedEnd := s.owedEnd + 1 }
  | .notifyEnd =>
    if s.owedEnd = 0 then s else { s with owedEnd := s.owedEnd - 1, log := s.log ++ [.ended s.data] }
  | op => if s.data.endTime.isSome then s else { s with data := mutate s.lim s.data op }

/-- `Span.__init__` (trace/__init__.py:764–840). `events` are given by name, attributes and time; a link is
`none`, or a context and attributes. -/
def init (lim : SpanLimits) (name : Str) (ctx : SpanContext) (parent : Option SpanContext) (attrs : RawAttrs)
    (events : List (Str × RawAttrs × Int)) (links : List (Option (Option SpanContext × RawAttrs))) : State :=
  { lim := lim
    data :=
      { name := name, ctx := ctx, parent := parent, status := Status.make .unset none
        attrs := BAttrs.new lim.maxSpanAttributes attrs false lim.maxSpanAttributeLength
        events := events.foldl (fun b e => b.append (mkEvent lim e.1 e.2.1 e.2.2)) (BList.new lim.maxEvents)
        links := BList.fromSeq lim.maxLinks (links.filterMap fun l =>
          match l with
          | some (some c, a) => if isValidLink (some c) a then some (mkLink lim c a) else none
          | _ => none)
        startTime := none, endTime := none }
    owedStart := 0, owedEnd := 0, log := [] }

/-- `is_recording` (trace/__init__.py:954–955). -/
def isRecording (s : State) : Bool := s.data.endTime.isNone

/-- The steps of `__exit__` (trace/__init__.py:987–1009 and the API's `Span.__exit__`, span.py:186–194) when run
without interference: `exc` is the escaping exception with the status description `"{type}: {value}"`. -/
def exitSteps (recording recordExc setStatusOnExc : Bool) (exc : Option (Exc × Str)) (ts tEnd : Int) : List Step :=
  (match exc with
    | some (e, desc) =>
      if recording then
        (if recordExc then [Step.recordException e [] ts true] else []) ++
        (if setStatusOnExc then [Step.setStatus (.obj .error (some desc))] else [])
      else []
    | none => []) ++ [.end_ tEnd, .notifyEnd]

end Span
end Otel
