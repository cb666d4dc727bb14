import Verif.Model.Py
/-!
# The batch processors as a transition system
Models `BatchSpanProcessor` (`opentelemetry-sdk/src/opentelemetry/sdk/trace/export/__init__.py` 137–487) and its twin
`BatchLogRecordProcessor` (`sdk/_logs/_internal/export/__init__.py` 154–462), which differs only in accepting every
record. Any number of producer, flusher and shutdown threads and the worker thread interleave; a step is one access to
shared state (an atomic deque operation, a read or write of a flag, or one critical section's access to the flush
request). The condition variable's lock only makes "take the request and clear it" and "get or create the request" atomic;
`condition.wait` may return at any time (it has a time-out), so notifications need no modelling. Forking
(`_at_fork_reinit`) is in `Verif.Model.Fork`. The exporter's `export` returns or raises (swallowed); either way the worker goes on.

Fields marked *ghost* only record history for the statements.
-/
namespace Otel
namespace Batch

/-- Constructor arguments (export/__init__.py:152–204; validated 470–487: positive, batch ≤ queue). -/
structure Cfg (σ : Type) where
  maxQueue : Nat
  maxBatch : Nat
  /-- `span.context.trace_flags.sampled`; constantly true for log records. -/
  sampled : σ → Bool
  pos : 0 < maxBatch
  le : maxBatch ≤ maxQueue

/-- What the worker does after the current batch (export/__init__.py:325–344, 370–377): nothing more, continue a flush
of so many spans, or continue draining. -/
inductive Mode where
  | single
  | flush (r : Nat) (n : Int)
  | drain (f g : Option Nat)
deriving DecidableEq

/-- The worker's position in `worker` (export/__init__.py:243–286). `f`/`g` are its local flush requests. -/
inductive PC (σ : Type) where
  | top                                   -- `while not self.done`
  | check                                 -- inside the lock: `if self.done: break`
  | take1                                 -- `_get_and_unset_flush_request()`: take and clear
  | len1 (f : Option Nat)                 -- … `num_spans = len(queue)`
  | decide (f : Option Nat) (n : Nat)     -- wait or export
  | wait                                  -- `condition.wait(timeout)`
  | take2
  | len2 (f : Option Nat)
  | emptyQ (f : Option Nat) (n : Nat)     -- `if not self.queue`
  | doneQ (f : Option Nat) (n : Nat)      -- `if self.done: break`
  | flushLoop (r : Nat) (n : Int)         -- `while self.queue` in `_export`
  | fill (m : Mode) (buf : List σ)        -- popping in `_export_batch`
  | call (m : Mode) (buf : List σ)        -- about to call `export`
  | running (m : Mode) (k : Nat)          -- `export` of `k` spans running
  | notify (r : Nat)                      -- `_notify_flush_request_finished`
  | final (f : Option Nat)                -- after the loop: take the last request
  | drainLoop (f g : Option Nat)          -- `while self.queue` in `_drain_queue`
  | notifyF (f g : Option Nat)
  | notifyG (g : Option Nat)
  | stopped

/-- Calls of the exporter. -/
inductive Ev (σ : Type) where
  | export (batch : List σ)
  | shutdown

/-- A `force_flush` call: passed the check of `done`, waiting for a request's event, or returned. -/
inductive FState where
  | checked
  | waiting (r : Nat)
  | returned (ok : Bool) (byDone : Bool)
deriving DecidableEq

/-- A `force_flush` call and (ghost) how many spans had been accepted when it was called. -/
structure Flush where
  before : Nat
  state : FState

structure St (σ : Type) where
  /-- The deque, oldest first (`appendleft` adds at our end, `pop` takes from our front). -/
  queue : List σ
  done : Bool
  /-- `_flush_request`. -/
  req : Option Nat
  nextReq : Nat
  /-- The requests whose event is set. -/
  events : List Nat
  pc : PC σ
  log : List (Ev σ)
  /-- Spans whose `on_end` passed the checks but has not yet appended. -/
  inflight : List σ
  /-- `shutdown` calls that have set `done` and are joining the worker. -/
  joining : Nat
  flushes : List Flush
  /-- ghost: everything appended, in order. -/
  accepted : List σ
  /-- ghost: everything that left the queue, in order; `true` = popped by the worker, `false` = evicted by overflow. -/
  gone : List (σ × Bool)
  /-- ghost: when `done` was first set, how many spans had been appended and which were in flight. -/
  doneAt : Option (Nat × List σ)

/-- Construction (export/__init__.py:152–204). -/
def init (σ : Type) : St σ :=
  { queue := [], done := false, req := none, nextReq := 0, events := [], pc := .top, log := [], inflight := [],
    joining := 0, flushes := [], accepted := [], gone := [], doneAt := none }

/-- `event.set()` of an optional request (export/__init__.py:300–308). -/
def setEvent (events : List Nat) : Option Nat → List Nat
  | none => events
  | some r => events ++ [r]

variable {σ : Type}

/-- Start `_export(flush_request)` (export/__init__.py:334–338). -/
def beginExport (f : Option Nat) (n : Nat) : PC σ :=
  match f with
  | none => .fill .single []
  | some r => .flushLoop r n

/-- What follows a finished batch of `k` spans (export/__init__.py:338–344, 275–276, 376–377). -/
def afterBatch (k : Nat) : Mode → PC σ
  | .single => .top
  | .flush r n => if n - k ≤ 0 then .notify r else .flushLoop r (n - k)
  | .drain f g => .drainLoop f g

/-- One step of the worker (export/__init__.py:243–299, 325–377). -/
def wstep (c : Cfg σ) (s : St σ) : St σ :=
  match s.pc with
  | .top => { s with pc := if s.done then .final none else .check }
  | .check => { s with pc := if s.done then .final none else .take1 }
  | .take1 => { s with req := none, pc := .len1 s.req }
  | .len1 f => { s with pc := .decide f s.queue.length }
  | .decide f n =>
    { s with pc := if s.queue.length < c.maxBatch ∧ f = none then .wait else beginExport f n }
  | .wait => { s with pc := .take2 }
  | .take2 => { s with req := none, pc := .len2 s.req }
  | .len2 f => { s with pc := .emptyQ f s.queue.length }
  | .emptyQ f n =>
    if s.queue = [] then { s with events := setEvent s.events f, pc := .top } else { s with pc := .doneQ f n }
  | .doneQ f n => { s with pc := if s.done then .final f else beginExport f n }
  | .flushLoop r n => { s with pc := if s.queue = [] then .notify r else .fill (.flush r n) [] }
  | .fill m buf =>
    match s.queue with
    | [] => { s with pc := .call m buf }
    | x :: q =>
      if buf.length < c.maxBatch then
        { s with queue := q, gone := s.gone ++ [(x, true)], pc := .fill m (buf ++ [x]) }
      else { s with pc := .call m buf }
  | .call m buf => { s with log := s.log ++ [.export buf], pc := .running m buf.length }
  | .running m k => { s with pc := afterBatch k m }
  | .notify r => { s with events := s.events ++ [r], pc := .top }
  | .final f => { s with req := none, pc := .drainLoop f s.req }
  | .drainLoop f g => { s with pc := if s.queue = [] then .notifyF f g else .fill (.drain f g) [] }
  | .notifyF f g => { s with events := setEvent s.events f, pc := .notifyG g }
  | .notifyG g => { s with events := setEvent s.events g, pc := .stopped }
  | .stopped => s

/-- The scheduler's choices. -/
inductive Act (σ : Type) where
  | offer (x : σ)               -- `on_end(x)` reads `done` and the sampled flag
  | append (i : Nat)            -- the `i`-th span in flight is appended
  | flushCall                   -- `force_flush()` reads `done`
  | flushReq (i : Nat)          -- the `i`-th `force_flush` gets or creates the request
  | flushRet (i : Nat) (ok : Bool)   -- … returns: its event is set, or the time-out passed
  | shutCall                    -- `shutdown()` sets `done`
  | shutJoin                    -- a `shutdown()` has joined the worker and shuts the exporter down
  | worker

/-- Appending to the bounded deque (export/__init__.py:186, 225): a full deque loses its oldest element. -/
def push (c : Cfg σ) (s : St σ) (x : σ) : St σ :=
  match s.queue with
  | y :: q =>
    if (y :: q).length = c.maxQueue then
      { s with queue := q ++ [x], gone := s.gone ++ [(y, false)], accepted := s.accepted ++ [x] }
    else { s with queue := (y :: q) ++ [x], accepted := s.accepted ++ [x] }
  | [] => { s with queue := [x], accepted := s.accepted ++ [x] }

/-- One step of the system; a choice that is not enabled changes nothing. `on_end` (export/__init__.py:211–230),
`force_flush` (379–396; `_get_or_create_flush_request` 310–323), `shutdown` (398–404). -/
def step (c : Cfg σ) (s : St σ) : Act σ → St σ
  | .offer x => if s.done || !c.sampled x then s else { s with inflight := s.inflight ++ [x] }
  | .append i =>
    match s.inflight[i]? with
    | some x => push c { s with inflight := s.inflight.eraseIdx i } x
    | none => s
  | .flushCall =>
    { s with flushes := s.flushes ++ [⟨s.accepted.length, if s.done then .returned true true else .checked⟩] }
  | .flushReq i =>
    match s.flushes[i]? with
    | some ⟨b, .checked⟩ =>
      match s.req with
      | some r => { s with flushes := s.flushes.set i ⟨b, .waiting r⟩ }
      | none => { s with req := some s.nextReq, nextReq := s.nextReq + 1, flushes := s.flushes.set i ⟨b, .waiting s.nextReq⟩ }
    | _ => s
  | .flushRet i ok =>
    match s.flushes[i]? with
    | some ⟨b, .waiting r⟩ =>
      if ok = true ∧ r ∉ s.events then s else { s with flushes := s.flushes.set i ⟨b, .returned ok false⟩ }
    | _ => s
  | .shutCall =>
    { s with done := true, joining := s.joining + 1,
             doneAt := if s.done then s.doneAt else some (s.accepted.length, s.inflight) }
  | .shutJoin =>
    match s.joining, s.pc with
    | k + 1, .stopped => { s with joining := k, log := s.log ++ [.shutdown] }
    | _, _ => s
  | .worker => wstep c s

/-- A run of the system. -/
def run (c : Cfg σ) (acts : List (Act σ)) : St σ := acts.foldl (step c) (init σ)

/-- The batches handed to the exporter, in order. -/
def batches : List (Ev σ) → List (List σ)
  | [] => []
  | .export b :: l => b :: batches l
  | .shutdown :: l => batches l

/-- The spans handed to the exporter, in order. -/
def exported (s : St σ) : List σ := (batches s.log).flatten

/-- The spans lost to overflow, in order. -/
def evicted (s : St σ) : List σ := (s.gone.filter (fun p => !p.2)).map Prod.fst

end Batch
end Otel
