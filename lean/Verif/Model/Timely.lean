import Verif.Model.OtlpExport
/-!
# How long the batch processor takes
Models the worker of `BatchSpanProcessor` (`opentelemetry-sdk/src/opentelemetry/sdk/trace/export/__init__.py` 211–404) in time; `BatchLogRecordProcessor`
(`_logs/_internal/export/__init__.py` 233–376) is the same with other names. Time is in nanoseconds. It passes while the worker waits and while the exporter works; the worker's own
statements, and those of `on_end`, `force_flush` and `shutdown`, take no time and are not interrupted (what their interleavings do is in `Verif.Model.Batch`); a thread whose wait is over goes on
at once. The exporter is taken to return within a given time; `export` of the OTLP exporters is analysed below (`took`).
-/
namespace Otel
namespace Timely

/-- The settings, all at least 1 (`_validate_arguments`, 470–487; the batch size is at most the queue size), and how long the exporter may take. -/
structure Cfg where
  /-- `max_export_batch_size` -/
  batch : Nat
  /-- `max_queue_size` -/
  room : Nat
  /-- `schedule_delay_millis`, in nanoseconds -/
  delay : Nat
  /-- The exporter returns within this time. -/
  slow : Nat

/-- A span in the queue: when it was ended, and how many were before it in the queue then. -/
structure Item (σ : Type) where
  span : σ
  time : Nat
  ahead : Nat

/-- Where the worker is. -/
inductive Pc where
  /-- `while not self.done` (246), with the value of `timeout` -/
  | top (timeout : Nat)
  /-- in `self.condition.wait(timeout)` (256), which ends at `till` at the latest -/
  | waiting (till : Nat)
  /-- `wait` has returned (257) -/
  | woken
  /-- in `self.span_exporter.export` (360), called at `since`, of an `_export` begun at `start` (269); `left` is what will be left of `num_spans` (341) if there is a flush request -/
  | exporting (start since : Nat) (left : Option Nat)
  /-- `while self.queue` in `_drain_queue` (376) -/
  | drain
  /-- in `export`, called from there -/
  | draining (since : Nat)
  | exited
deriving DecidableEq

structure St (σ : Type) where
  now : Nat
  /-- oldest first -/
  queue : List (Item σ)
  pc : Pc
  done : Bool
  /-- When `shutdown` was called. -/
  shut : Option Nat
  /-- When the worker ended, which is when `shutdown` goes on to `span_exporter.shutdown()`. -/
  ended : Option Nat
  /-- Calls of `force_flush` whose request the worker has not taken up: the times of the calls. -/
  pending : List Nat
  /-- Those whose request it has. -/
  serving : List Nat
  /-- Those whose event was set: the times of the call and of the event. -/
  answered : List (Nat × Nat)
  /-- The spans passed to the exporter, and when. -/
  handed : List (Item σ × Nat)

/-- `BatchSpanProcessor.__init__` (154–204), and the worker's first line (244). -/
def init (σ : Type) (c : Cfg) : St σ :=
  { now := 0, queue := [], pc := .top c.delay, done := false, shut := none, ended := none, pending := [], serving := [], answered := [], handed := [] }

inductive Act (σ : Type) where
  /-- Time passes. -/
  | tick (d : Nat)
  /-- `on_end` of a sampled span -/
  | finish (s : σ)
  | flush
  | shutdown
  /-- The worker's next step. -/
  | work
  /-- `export` returns (or raises). -/
  | exported

variable {σ : Type}

/-- `notify` wakes the worker if it waits. -/
def wake : Pc → Pc
  | .waiting _ => .woken
  | pc => pc

/-- `_notify_flush_request_finished` (301–308). -/
def St.answer (st : St σ) : St σ := { st with answered := st.answered ++ st.serving.map fun c => (c, st.now), serving := [] }

/-- The first part of `_export_batch` (350–360). -/
def St.take (c : Cfg) (st : St σ) : St σ := { st with queue := st.queue.drop c.batch, handed := st.handed ++ (st.queue.take c.batch).map fun i => (i, st.now) }

/-- What is left of `num_spans` after a batch (340–341). -/
def St.left (c : Cfg) (st : St σ) (n : Nat) : Nat := n - min c.batch st.queue.length

/-- May time pass up to `t`? -/
def allows (c : Cfg) (t : Nat) : Pc → Bool
  | .waiting till => t ≤ till
  | .exporting _ since _ | .draining since => t ≤ since + c.slow
  | .exited => true
  | _ => false

/-- `self.queue.appendleft(span)` to a `deque` with `maxlen` (225): the oldest goes if there is no room. -/
def St.push (c : Cfg) (st : St σ) (s : σ) : St σ :=
  let q := if st.queue.length = c.room then st.queue.tail else st.queue
  { st with queue := q ++ [⟨s, st.now, q.length⟩] }

/-- A step. `wait` with a timeout that is not positive returns at once; so `timeout` is 0 where the code's is negative. -/
def step (c : Cfg) (st : St σ) : Act σ → St σ
  | .tick d => if allows c (st.now + d) st.pc then { st with now := st.now + d } else st
  | .finish s =>
    -- 212–229
    if st.done then st
    else
      let st := st.push c s
      if c.batch ≤ st.queue.length then { st with pc := wake st.pc } else st
  | .flush =>
    -- 383–390
    if st.done then { st with answered := st.answered ++ [(st.now, st.now)] }
    else { st with pending := st.pending ++ [st.now], pc := wake st.pc }
  | .shutdown =>
    -- 400–402
    if st.done then st else { st with done := true, shut := some st.now, pc := wake st.pc }
  | .work =>
    match st.pc with
    | .top timeout =>
      -- 246–256, 269–276
      if st.done then { st with pc := .drain, serving := st.serving ++ st.pending, pending := [] }
      else if st.queue.length < c.batch ∧ st.pending = [] then { st with pc := .waiting (st.now + timeout) }
      else if st.pending = [] then { st.take c with pc := .exporting st.now st.now none }
      else if st.queue = [] then { ({ st with serving := st.pending, pending := [] } : St σ).answer with pc := .top c.delay }
      else { st.take c with pc := .exporting st.now st.now (some (st.left c st.queue.length)), serving := st.pending, pending := [] }
    | .waiting till => if till ≤ st.now then { st with pc := .woken } else st
    | .woken =>
      -- 257–276
      if st.queue = [] then { ({ st with serving := st.pending, pending := [] } : St σ).answer with pc := .top c.delay }
      else if st.done then { st with pc := .drain, serving := st.pending, pending := [] }
      else if st.pending = [] then { st.take c with pc := .exporting st.now st.now none }
      else { st.take c with pc := .exporting st.now st.now (some (st.left c st.queue.length)), serving := st.pending, pending := [] }
    | .drain =>
      -- 376–377, 285–286
      if st.queue = [] then { st.answer with pc := .exited, ended := some st.now }
      else { st.take c with pc := .draining st.now }
    | _ => st
  | .exported =>
    match st.pc with
    | .exporting start _ left =>
      -- 339–344, 271–276
      if left.getD 0 = 0 ∨ st.queue = [] then { st.answer with pc := .top (c.delay - (st.now - start)) }
      else { st.take c with pc := .exporting start st.now (some (st.left c (left.getD 0))) }
    | .draining _ => { st with pc := .drain }
    | _ => st

/-- A run. -/
def runFrom (c : Cfg) (st : St σ) (acts : List (Act σ)) : St σ := acts.foldl (step c) st
def run (c : Cfg) (acts : List (Act σ)) : St σ := runFrom c (init σ c) acts

/-- How long a call of `export` of an OTLP exporter takes whose `i`-th request takes `request i` (`Export.Act`: requests and sleeps, in nanoseconds). -/
def took (request : Nat → Nat) (acts : List Export.Act) : Int := (acts.map fun | .attempt i => (request i : Int) | .sleep d => d).sum

end Timely
end Otel
