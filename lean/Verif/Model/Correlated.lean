import Verif.Model.Traced
import Verif.Model.LoggingHandler
import Verif.Model.Exemplar
/-!
# A traced program that logs, with both pipelines
The programs of `Verif.Model.Traced` (several threads and tasks, a `BatchSpanProcessor`) with a `LoggingHandler` on the root logger and a `BatchLogRecordProcessor`
behind it (`opentelemetry-sdk/src/opentelemetry/sdk/_logs/_internal/__init__.py` 435–559, `_logs/_internal/export/__init__.py` 154–462). A `look n` of the program is
its `n`-th logging call.
-/
namespace Otel
namespace Correlated
open Sampling (Sampler)
open LoggingHandler (PyRecord OtelRecord)

/-- What the logging calls say: the record of each, the time it is observed, and the handler's set-up. -/
structure Logging where
  digits : DigitTable
  env : Limits.Env
  fmt : Option (PyRecord → Option Str)
  resource : Nat
  record : Nat → PyRecord
  now : Nat → Int

/-- A log record on its way: number of the call (ghost), scope, record. -/
abbrev Item := Nat × ProxyTracer.Scope × OtelRecord

/-- `LoggingHandler.emit` (551–559) in a logging call whose current span is `sc`; the handler uses nothing else of the context (508, 533–537). An exception
of `emit` would leave the logging call; here the program goes on. -/
def emitted (L : Logging) (x : Nat × SpanContext) : List Item :=
  match LoggingHandler.emit L.digits L.env L.fmt (Ctx.setSpan [] x.2) (L.now x.1) (.sdk false L.resource) (L.record x.1) with
  | some l => l.map fun p => (x.1, p.1, p.2)
  | none => []

/-- The log processor takes every record (`_logs/_internal/export/__init__.py` 345–357). -/
def cfg (maxQueue maxBatch : Nat) (pos : 0 < maxBatch) (le : maxBatch ≤ maxQueue) : Batch.Cfg Item :=
  { maxQueue := maxQueue, maxBatch := maxBatch, sampled := fun _ => true, pos := pos, le := le }

/-- Program and both processors. -/
structure State where
  traced : Traced.State
  logs : Batch.St Item

/-- The scheduler's choices: a step of the program or of the span processor, or something happens in the log processor. -/
inductive Move where
  | traced (m : Traced.Move)
  | proc (a : Batch.Act Item)

/-- One step. -/
def step (S : Sampler) (lim : SpanLimits) (c : Batch.Cfg Traced.Item) (L : Logging) (cl : Batch.Cfg Item) (st : State) : Move → State
  | .traced m =>
    let t := Traced.step S lim c st.traced m
    ⟨t, ((t.tasks.seen.drop st.traced.tasks.seen.length).flatMap (emitted L)).foldl (fun b x => Batch.step cl b (.offer x)) st.logs⟩
  | .proc (.offer _) => st
  | .proc a => { st with logs := Batch.step cl st.logs a }

/-- The steps of a schedule. -/
def steps (S : Sampler) (lim : SpanLimits) (c : Batch.Cfg Traced.Item) (L : Logging) (cl : Batch.Cfg Item) (st : State) (moves : List Move) : State :=
  moves.foldl (step S lim c L cl) st

/-- A process running `main` in its first thread, with new processors. -/
def State.init (main : Tasks.Prog) : State := ⟨.init main, Batch.init Item⟩

/-! ## What the exporter sends -/

/-- The body as the encoder sees it; the object bodies of the handler's model are opaque. -/
def ofBody : LoggingHandler.Body → Otlp.PyVal
  | .text s => .str s
  | .obj n => .other n

/-- The record as the OTLP encoder reads it (`_log_encoder/__init__.py` 40–63). Times before 1970, which protobuf refuses, are read as 0. -/
def readable (x : OtelRecord) : Otlp.SdkLog :=
  { time := some x.timestamp.toNat, observed := some x.observed.toNat, traceId := some x.traceId, spanId := some x.spanId, flags := some x.flags
    severityText := some x.severityText, severity := some x.severityNumber, body := ofBody x.body
    attrs := Traced.ofAttrs x.attributes, dropped := x.attributes.dropped }

/-- The request made of a batch (`_log_encoder/__init__.py` 36–37, 66–95): by resource, then by scope, here the name of the logger. -/
def request (batch : List Item) : Option (Dict Nat (Dict Str (List Otlp.PBLog))) :=
  Otlp.group (fun x => x.2.2.resource) (fun x => x.2.1.name) (fun x => Otlp.encodeLog (readable x.2.2)) batch

/-- The log records in a request: resource, name of the logger, record. -/
def logsOf (d : Dict Nat (Dict Str (List Otlp.PBLog))) : List (Nat × Str × Otlp.PBLog) :=
  d.flatMap fun r => r.2.flatMap fun s => s.2.map fun p => (r.1, s.1, p)

/-! ## Measurements -/

/-- What the measurements of a program are, `look n` being its `n`-th `counter.add(...)` or the like: value, time and attributes. -/
structure Measuring (α : Type) where
  value : Nat → α
  time : Nat → Int
  attrs : Nat → Option Metrics.MAttrs

/-- The context of a measurement: `context or get_current()` (`opentelemetry-sdk/src/opentelemetry/sdk/metrics/_internal/instrument.py` 177, 201, 269, 293; also 145); an empty context is falsy. -/
def measureCtx (given : Option Ctx) (current : Ctx) : Ctx :=
  match given with
  | some (x :: c) => x :: c
  | _ => current

/-- The measurement as it is offered for an exemplar, made where the current span is `sc` (`exemplar_reservoir.py` 111–117). A context with no span in it, or none, is read as `INVALID_SPAN`. -/
def offerOf {α : Type} (M : Measuring α) (x : Nat × SpanContext) : Exemplar.Offer α :=
  ⟨M.value x.1, M.time x.1, M.attrs x.1, if x.2 = SpanContext.invalid then none else some (x.2.spanId.toNat, x.2.traceId.toNat)⟩

end Correlated
end Otel
