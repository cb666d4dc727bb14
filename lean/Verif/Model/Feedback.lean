import Mathlib.Data.Nat.Basic
/-!
# Log records about exporting log records
The loggers of the SDK are ordinary `logging` loggers: with a `LoggingHandler` on the root logger, what the SDK or an exporter logs while exporting comes back as a record to be exported.
Models `SimpleLogRecordProcessor` and `BatchLogRecordProcessor` (`opentelemetry-sdk/src/opentelemetry/sdk/_logs/_internal/export/__init__.py`) with such a handler, and
`LoggingHandler` (`opentelemetry-sdk/src/opentelemetry/sdk/_logs/_internal/__init__.py` 465–576). `logging.Handler.handle` holds the handler's re-entrant lock while it calls `emit`;
`logging.shutdown`, also called by `logging.config.dictConfig`, holds it while it calls `flush`.
-/
namespace Otel
namespace Feedback

/-! ## The simple processor -/

/-- How a call ends. `overflow`: with `RecursionError`. -/
inductive End where
  | returned | overflow
deriving DecidableEq

/-- What there is before and after a call: the calls of `export` so far, and `suppress_instrumentation` in the thread's context. -/
structure World where
  exports : Nat
  suppressed : Bool
deriving DecidableEq

/-- `SimpleLogRecordProcessor.emit` (124–133), called through the handler. The stack has room for as many nested calls as the number says. `fails i`: the `i`-th call of `export` raises an
`Exception`. `warn` and `error`: records of these levels of the SDK's loggers reach the handler. `detach` (133) is not in a `finally`. -/
def emitSimple (fails : Nat → Bool) (warn error down : Bool) : Nat → World → End × World
  | 0, w => (.overflow, w)
  | room + 1, w =>
    if down then
      if warn then emitSimple fails warn error down room w else (.returned, w)
    else
      let w' : World := ⟨w.exports + 1, true⟩
      if fails w.exports && error then
        match emitSimple fails warn error down room w' with
        | (.overflow, w'') => (.overflow, w'')
        | (.returned, w'') => (.returned, { w'' with suppressed := w.suppressed })
      else (.returned, { w' with suppressed := w.suppressed })

/-! ## The batch processor -/

/-- A record: of the application, or about an export. -/
inductive Rec where
  | app (n : Nat)
  | own
deriving DecidableEq

/-- What the worker is exporting for: the end of a delay, or a full batch (`cycle`); a request of `force_flush` with its number, the number of records that were in the queue, how many
of these are left to be exported, and the number of calls of `export` when it began (ghost); the end of the thread, with the requests to be answered, and (ghost) the number of
records in the queue when it began, of the calls of `export` and of the records of other threads so far. -/
inductive Mode where
  | cycle
  | flush (id n : Nat) (left : Int) (begun : Nat)
  | drain (ids : List Nat) (n begun arrived : Nat)
deriving DecidableEq

/-- Where the worker is. -/
inductive WPc where
  /-- `while not self._shutdown` (236). -/
  | idle
  /-- `self._condition.wait(timeout)` (246). -/
  | waiting
  /-- The beginning of `_export` (285) or of a turn of its loop (290), or of that of `_drain_queue` (323). -/
  | start (m : Mode)
  /-- The loop that takes records from the queue (302–305). -/
  | pop (m : Mode) (batch : List Rec)
  /-- In `self._exporter.export` (308). -/
  | exporting (m : Mode) (size : Nat)
  /-- The exporter or the processor (310) logs; so many records are left. -/
  | logging (m : Mode) (size left : Nat)
  /-- After the loop (270), with the request taken before, if any. -/
  | stop (req : Option Nat)
  | gone
deriving DecidableEq

/-- Where a call of `force_flush` is. -/
inductive FPc where
  /-- `logging.shutdown` waits for the handler's lock. -/
  | locking
  | called
  /-- `flush_request.event.wait` (376). -/
  | waiting (id : Nat)
  | done (r : Bool)
deriving DecidableEq

/-- A call of `force_flush`; `held`: by `LoggingHandler.flush` in `logging.shutdown`. -/
structure Flush where
  held : Bool
  pc : FPc
deriving DecidableEq

structure State where
  queue : List Rec
  down : Bool
  /-- `_flush_request`. -/
  req : Option Nat
  /-- The number of requests so far. -/
  reqs : Nat
  /-- The requests whose event is set. -/
  set : List Nat
  worker : WPc
  flushes : List Flush
  /-- Which flush holds the handler's lock. -/
  owner : Option Nat
  /-- The batches that were exported (ghost). -/
  sent : List (List Rec)
  /-- The records of other threads that were accepted (ghost). -/
  arrived : Nat
  /-- The finished flushes: records in the queue when the worker began, calls of `export` (ghost). -/
  flushed : List (Nat × Nat)
  /-- The same for the end of the thread, and records of other threads meanwhile (ghost). -/
  drained : Option (Nat × Nat × Nat)
deriving DecidableEq

/-- A new processor; the flushes that will be called. -/
def State.init (held : List Bool) : State :=
  ⟨[], false, none, 0, [], .idle, held.map fun h => ⟨h, if h then .locking else .called⟩, none, [], 0, [], none⟩

/-- `self._queue.appendleft(log_data)` (354): a full `deque` drops its oldest. -/
def push (max : Nat) (q : List Rec) (r : Rec) : List Rec := (if q.length < max then q else q.tail) ++ [r]

/-- `_get_and_unset_flush_request` (326–331) and what the worker then exports for. -/
def State.mode (st : State) : Mode :=
  match st.req with
  | none => .cycle
  | some id => .flush id st.queue.length st.queue.length st.sent.length

/-- A batch has been exported and reported on: the rest of `_export_batch`, and of the turn of the loop (291–295, 265). -/
def after (m : Mode) (size : Nat) (st : State) : State :=
  match m with
  | .cycle => { st with worker := .idle }
  | .flush id n left begun =>
    if left - size ≤ 0 then { st with worker := .idle, set := id :: st.set, flushed := st.flushed ++ [(n, st.sent.length - begun)] }
    else { st with worker := .start (.flush id n (left - size) begun) }
  | .drain .. => { st with worker := .start m }

/-- A step of the worker (233–324). `d`: how many records the exporter and the processor log about this export, those that reach the handler. -/
def stepWorker (max size d : Nat) (st : State) : State :=
  match st.worker with
  | .idle =>
    if st.down then { st with worker := .stop none }
    else if st.queue.length < size ∧ st.req = none then { st with worker := .waiting }
    else { st with worker := .start st.mode, req := none }
  | .waiting =>
    if st.queue = [] then { st with worker := .idle, req := none, set := st.req.toList ++ st.set }
    else if st.down then { st with worker := .stop st.req, req := none }
    else { st with worker := .start st.mode, req := none }
  | .start .cycle => { st with worker := .pop .cycle [] }
  | .start (.flush id n left begun) =>
    if st.queue = [] then { st with worker := .idle, set := id :: st.set, flushed := st.flushed ++ [(n, st.sent.length - begun)] }
    else { st with worker := .pop (.flush id n left begun) [] }
  | .start (.drain ids n begun arrived) =>
    if st.queue = [] then { st with worker := .gone, set := ids ++ st.set, drained := some (n, st.sent.length - begun, st.arrived - arrived) }
    else { st with worker := .pop (.drain ids n begun arrived) [] }
  | .pop m batch =>
    match st.queue with
    | [] => { st with worker := .exporting m batch.length, sent := st.sent ++ [batch] }
    | r :: q =>
      if batch.length < size then { st with worker := .pop m (batch ++ [r]), queue := q }
      else { st with worker := .exporting m batch.length, sent := st.sent ++ [batch] }
  | .exporting m n => { st with worker := .logging m n d }
  | .logging m n 0 => after m n st
  | .logging m n (k + 1) =>
    if st.owner = none then { st with worker := .logging m n k, queue := if st.down then st.queue else push max st.queue .own } else st
  | .stop r => { st with worker := .start (.drain (r.toList ++ st.req.toList) st.queue.length st.sent.length st.arrived), req := none }
  | .gone => st

/-- The flush `t` goes to `pc`. -/
def State.goto (st : State) (t : Nat) (pc : FPc) : State := { st with flushes := st.flushes.modify t fun f => { f with pc := pc } }

/-- `force_flush` returns; `logging.shutdown` releases the handler's lock. -/
def State.leave (st : State) (t : Nat) (r : Bool) : State := { st.goto t (.done r) with owner := if st.owner = some t then none else st.owner }

/-- A step of a call of `force_flush` (366–379). -/
def stepFlush (t : Nat) (st : State) : State :=
  match st.flushes[t]? with
  | none => st
  | some f =>
    match f.pc with
    | .locking => if st.owner = none then { st.goto t .called with owner := some t } else st
    | .called =>
      if st.down then st.leave t true
      else
        match st.req with
        | some id => st.goto t (.waiting id)
        | none => { st.goto t (.waiting st.reqs) with req := some st.reqs, reqs := st.reqs + 1 }
    | .waiting id => if id ∈ st.set then st.leave t true else st
    | .done _ => st

/-- What may happen. -/
inductive Ev where
  /-- `emit` of another thread, that has looked at `_shutdown` before (349–354). -/
  | arrive (n : Nat)
  | worker (d : Nat)
  | flush (t : Nat)
  /-- The time of `event.wait` is over. -/
  | timeout (t : Nat)
  | shutdown
deriving DecidableEq

/-- One step; `max` is `max_queue_size`, `size` is `max_export_batch_size`. -/
def step (max size : Nat) (st : State) : Ev → State
  | .arrive n => { st with queue := push max st.queue (.app n), arrived := st.arrived + 1 }
  | .worker d => stepWorker max size d st
  | .flush t => stepFlush t st
  | .timeout t =>
    match st.flushes[t]? with
    | some ⟨_, .waiting _⟩ => st.leave t false
    | _ => st
  | .shutdown => { st with down := true }

/-- The steps of a schedule. -/
def run (max size : Nat) (st : State) (sched : List Ev) : State := sched.foldl (step max size) st

end Feedback
end Otel
