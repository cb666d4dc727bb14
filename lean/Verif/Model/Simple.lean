import Verif.Model.Context
/-!
# The simple processors
Models `SimpleSpanProcessor` (`opentelemetry-sdk/src/opentelemetry/sdk/trace/export/__init__.py` 92–126) and `SimpleLogRecordProcessor`
(`sdk/_logs/_internal/export/__init__.py` 112–141) called by any number of threads, with an exporter behind them: any exporter, of which only the
calls are recorded, and the in-memory one (`sdk/trace/export/in_memory_span_exporter.py`, `sdk/_logs/_internal/export/in_memory_log_exporter.py`).
A step is one access to the context variable, a flag, or the exporter. A thread makes one call at a time.
-/
namespace Otel
namespace Simple

/-- The two processors differ in the test at the start (sampled / not shut down). -/
inductive Which where
  | span | log
deriving DecidableEq

/-- Something ended or emitted: the number of the call (ghost, unique) and whether it is sampled. -/
structure Item where
  call : Nat
  sampled : Bool
deriving DecidableEq

/-- Where a thread is in `on_end` / `emit`. -/
inductive PC where
  | idle
  /-- before the test -/
  | called (x : Item)
  /-- before `attach` -/
  | admitted (x : Item)
  /-- before the call of `export` -/
  | attached (x : Item) (k : Token)
  /-- in `export`; the in-memory exporter has not looked at `_stopped` -/
  | exporting (x : Item) (k : Token)
  /-- in `export`, past the test of `_stopped` -/
  | storing (x : Item) (k : Token)
  /-- `export` has returned or raised an `Exception`: before `detach` -/
  | leaving (x : Item) (k : Token)
deriving DecidableEq

structure State where
  rt : Runtime
  pc : Nat → PC
  /-- `SimpleLogRecordProcessor._shutdown` -/
  down : Bool
  /-- `InMemory…Exporter._stopped` -/
  stopped : Bool
  /-- the list of the in-memory exporter -/
  stored : List Item
  /-- *ghost*: number of calls so far -/
  calls : Nat
  /-- *ghost*: calls of `export`, in order -/
  handed : List Item
  /-- *ghost*: items whose call has returned -/
  returned : List Item
  /-- *ghost*: items whose call was ended by a `BaseException` of the exporter -/
  killed : List Item
  /-- *ghost*: the context each thread has chosen itself -/
  own : Nat → Option Ctx
  /-- *ghost*: threads whose call was ended by a `BaseException` -/
  broken : Nat → Bool
  /-- *ghost*: `shutdown` was called -/
  shut : Bool
  /-- *ghost*: `clear` was called -/
  cleared : Bool

def State.init : State := ⟨Runtime.init, fun _ => .idle, false, false, [], 0, [], [], [], fun _ => none, fun _ => false, false, false⟩

/-- `_SUPPRESS_INSTRUMENTATION_KEY` (`opentelemetry-api/src/opentelemetry/context/__init__.py` 163). -/
def suppressKey : CtxKey := .user "suppress_instrumentation".toList

/-- `set_value(_SUPPRESS_INSTRUMENTATION_KEY, True)`. -/
def suppressed (c : Ctx) : Ctx := c.setValue suppressKey (.other 1)

inductive Step where
  /-- the thread, outside the processor, changes its context -/
  | setCtx (t : Nat) (c : Ctx)
  /-- `on_end(span)` / `emit(log_data)` -/
  | call (t : Nat) (sampled : Bool)
  | test (t : Nat)
  | attach (t : Nat)
  | export (t : Nat)
  /-- the in-memory exporter: `if self._stopped: return FAILURE` -/
  | look (t : Nat)
  /-- the in-memory exporter: `extend` under its lock -/
  | store (t : Nat)
  /-- any exporter raises an `Exception` (or just returns) without storing -/
  | fail (t : Nat)
  /-- the exporter raises a `BaseException` -/
  | kill (t : Nat)
  | detach (t : Nat)
  /-- `shutdown()` of the processor, first half: the flag -/
  | shutFlag
  /-- second half: the exporter's `shutdown` -/
  | shutExporter
  /-- `clear()` of the in-memory exporter -/
  | clear
deriving DecidableEq

def State.goto (s : State) (t : Nat) (p : PC) : State := { s with pc := fun u => if u = t then p else s.pc u }

/-- The test at the start of `on_end` (105–106) or `emit` (125–127). -/
def admit (w : Which) (s : State) (x : Item) : Bool :=
  match w with
  | .span => x.sampled
  | .log => !s.down

def step (w : Which) (s : State) : Step → State
  | .setCtx t c =>
    match s.pc t with
    | .idle => { s with rt := { s.rt with value := fun u => if u = t then some c else s.rt.value u }, own := fun u => if u = t then some c else s.own u,
                        broken := fun u => if u = t then false else s.broken u }
    | _ => s
  | .call t b =>
    match s.pc t with
    | .idle => { s.goto t (.called ⟨s.calls, b⟩) with calls := s.calls + 1 }
    | _ => s
  | .test t =>
    match s.pc t with
    | .called x => if admit w s x then s.goto t (.admitted x) else { s.goto t .idle with returned := s.returned ++ [x] }
    | _ => s
  | .attach t =>
    match s.pc t with
    | .admitted x =>
      let a := s.rt.attach t (suppressed (s.rt.getCurrent t))
      { s.goto t (.attached x a.2) with rt := a.1 }
    | _ => s
  | .export t =>
    match s.pc t with
    | .attached x k => { s.goto t (.exporting x k) with handed := s.handed ++ [x] }
    | _ => s
  | .look t =>
    match s.pc t with
    | .exporting x k => if s.stopped then s.goto t (.leaving x k) else s.goto t (.storing x k)
    | _ => s
  | .store t =>
    match s.pc t with
    | .storing x k => { s.goto t (.leaving x k) with stored := s.stored ++ [x] }
    | _ => s
  | .fail t =>
    match s.pc t with
    | .exporting x k => s.goto t (.leaving x k)
    | _ => s
  | .kill t =>
    match s.pc t with
    | .exporting x _ => { s.goto t .idle with killed := s.killed ++ [x], broken := fun u => if u = t then true else s.broken u }
    | _ => s
  | .detach t =>
    match s.pc t with
    | .leaving x k => { s.goto t .idle with rt := s.rt.detach t k, returned := s.returned ++ [x] }
    | _ => s
  | .shutFlag => { s with down := true, shut := true }
  | .shutExporter => { s with stopped := true, shut := true }
  | .clear => { s with stored := [], cleared := true }

/-- A run with the in-memory exporter has no `fail` and no `kill` steps. -/
def inMemory : Step → Bool
  | .fail _ | .kill _ => false
  | _ => true

end Simple
end Otel
