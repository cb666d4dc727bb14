import Verif.Model.Py
/-!
# What log exporters see of a record that others change
Models `Logger.emit` and `SynchronousMultiLogRecordProcessor.emit` (`opentelemetry-sdk/src/opentelemetry/sdk/_logs/_internal/__init__.py` 595–600, 323–325),
`SimpleLogRecordProcessor.emit` and `BatchLogRecordProcessor.emit` (`_internal/export/__init__.py` 124–133, 345–357) and the
worker that exports (258–317), as far as they pass on the record. A `LogRecord` is an object that can be changed: its fields can be assigned, its
attributes are a `BoundedAttributes` with `immutable=False` (`_internal/__init__.py` 198–203), its body is the application's object; `LogData` only
refers to it. Not modelled: shutdown, full queues, processors that raise; a record that is emitted twice; when the worker runs (any time).
-/
namespace Otel
namespace LogSharing
variable {V : Type}

/-- A registered processor: one that changes records, a simple one, a batch one. -/
inductive Proc (V : Type) where
  | edit (f : V → V)
  | simple
  | batch

/-- A record: what it contains now, and how many processors have been called with it. -/
structure Rec (V : Type) where
  val : V
  pos : Nat

/-- The records, numbered by the calls of `emit`; the queues of the batch processors, oldest first; what was exported: by which processor, which
record, with which content. -/
structure St (V : Type) where
  recs : List (Rec V)
  queues : Nat → List Nat
  exports : List (Nat × Nat × V)

/-- At first. -/
def init : St V := ⟨[], fun _ => [], []⟩

/-- The scheduler's choices: a thread emits a record; the thread goes on to the next processor; the application changes a record that it has
emitted; a worker exports the oldest record in its queue. -/
inductive Act (V : Type) where
  | emit (v : V)
  | next (r : Nat)
  | change (r : Nat) (f : V → V)
  | drain (k : Nat)

/-- A processor is called with a record (`lp.emit(log_data)`, 325). -/
def call (s : St V) (r : Nat) (t : Rec V) : Proc V → St V
  | .edit f => { s with recs := s.recs.set r ⟨f t.val, t.pos + 1⟩ }
  | .simple => { s with recs := s.recs.set r ⟨t.val, t.pos + 1⟩, exports := s.exports ++ [(t.pos, r, t.val)] }    -- export/__init__.py:130
  | .batch => { s with recs := s.recs.set r ⟨t.val, t.pos + 1⟩, queues := fun k => if k = t.pos then s.queues k ++ [r] else s.queues k }  -- 354

/-- The next processor is called. -/
def advance (procs : List (Proc V)) (s : St V) (r : Nat) (t : Rec V) : St V :=
  match procs[t.pos]? with
  | none => s
  | some p => call s r t p

/-- A worker exports (pops the record from the right of the deque, and the exporter reads it). -/
def export1 (s : St V) (k : Nat) : St V :=
  match s.queues k with
  | [] => s
  | r :: rest =>
    match s.recs[r]? with
    | none => s
    | some t => { s with queues := fun k' => if k' = k then rest else s.queues k', exports := s.exports ++ [(k, r, t.val)] }

/-- One step of the system. -/
def step (procs : List (Proc V)) (s : St V) : Act V → St V
  | .emit v => { s with recs := s.recs ++ [⟨v, 0⟩] }
  | .next r =>
    match s.recs[r]? with
    | none => s
    | some t => advance procs s r t
  | .change r f =>
    match s.recs[r]? with
    | none => s
    | some t => { s with recs := s.recs.set r ⟨f t.val, t.pos⟩ }
  | .drain k => export1 s k

/-- A schedule. -/
def run (procs : List (Proc V)) (acts : List (Act V)) : St V := acts.foldl (step procs) init

end LogSharing
end Otel
