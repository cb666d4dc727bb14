import Verif.Model.Py
/-!
# Fan-out to several processors
Models `SynchronousMultiSpanProcessor` and `ConcurrentMultiSpanProcessor`
(`opentelemetry-sdk/src/opentelemetry/sdk/trace/__init__.py` 144–303) and their log twins
`SynchronousMultiLogRecordProcessor`, `ConcurrentMultiLogRecordProcessor` (`sdk/_logs/_internal/__init__.py` 302–430),
whose bodies are the same up to names.
-/
namespace Otel
namespace Multi
variable {P : Type}

/-- `for sp in self._span_processors: sp.on_…(…)` (trace/__init__.py:169–187; _logs/_internal/__init__.py:323–330):
the processors called, in order, and whether the loop raised. `raises p` says whether `p`'s method raises. -/
def forEach (raises : P → Bool) : List P → List P × Bool
  | [] => ([], false)
  | p :: l =>
    if raises p then ([p], true)
    else let r := forEach raises l; (p :: r.1, r.2)

/-- What `force_flush` of one processor does. The base class returns `None`, which is falsy. -/
inductive FlushResult where
  | truthy
  | falsy
  | raises
deriving DecidableEq

/-- Result of a multi-processor `force_flush`. -/
inductive Out where
  | ret (b : Bool)
  | raised
deriving DecidableEq

/-- One iteration's environment: the processor, the clock when it is reached, and what its `force_flush` does. -/
structure Turn (P : Type) where
  proc : P
  now : Int
  result : FlushResult

/-- The loop of `SynchronousMulti….force_flush` (trace/__init__.py:203–212; logs 345–353): the calls made, with their
time-outs in milliseconds, and the outcome. -/
def syncLoop (deadline : Int) : List (Turn P) → List (P × Int) × Out
  | [] => ([], .ret true)
  | t :: l =>
    if t.now ≥ deadline then ([], .ret false)
    else
      let call := (t.proc, (deadline - t.now) / 1000000)
      match t.result with
      | .raises => ([call], .raised)
      | .falsy => ([call], .ret false)
      | .truthy => let r := syncLoop deadline l; (call :: r.1, r.2)

/-- `SynchronousMulti….force_flush(timeout_millis)` (trace/__init__.py:189–212), `start` being the first clock reading. -/
def syncFlush (start timeout : Int) (turns : List (Turn P)) : List (P × Int) × Out :=
  syncLoop (start + timeout * 1000000) turns

/-- Scanning the finished futures, in whatever order the set yields them (trace/__init__.py:297–301; logs 426–428). -/
def scan : List FlushResult → Out
  | [] => .ret true
  | .raises :: _ => .raised
  | .falsy :: _ => .ret false
  | .truthy :: l => scan l

/-- `ConcurrentMulti….force_flush` (trace/__init__.py:272–303; logs 403–430): every processor's future either finished in
time with a result or not; `order` arranges the finished ones. Each processor gets the whole time-out. -/
def concFlush (futures : List (Option FlushResult)) (order : List FlushResult) : Out :=
  if futures.any Option.isNone then .ret false else scan order

/-! ## Registration under concurrency
`self._span_processors += (sp,)` (trace/__init__.py:163–166) is a read and a write, under a lock; iterations read the
tuple once. -/

/-- An iteration in progress: the tuple it reads and how far it is. -/
structure Iter (P : Type) where
  snap : List P
  pos : Nat

structure Reg (P : Type) where
  procs : List P
  /-- Callers of `add_…` waiting for the lock. -/
  waiting : List P
  /-- The lock holder and the tuple it has read, if it has. -/
  holder : Option (P × Option (List P))
  iters : List (Iter P)

/-- `__init__` (trace/__init__.py:154–158). -/
def Reg.init (P : Type) : Reg P := { procs := [], waiting := [], holder := none, iters := [] }

inductive RAct (P : Type) where
  | add (p : P)          -- `add_span_processor(p)` is called
  | acquire (i : Nat)    -- the `i`-th waiting caller takes the lock
  | read                 -- the holder reads the tuple
  | write                -- … stores the extended tuple and leaves the lock
  | iter                 -- `on_start`/`on_end`/`shutdown` begins: reads the tuple
  | next (j : Nat)       -- iteration `j` calls its next processor

/-- One step. -/
def Reg.step (s : Reg P) : RAct P → Reg P
  | .add p => { s with waiting := s.waiting ++ [p] }
  | .acquire i =>
    match s.holder, s.waiting[i]? with
    | none, some p => { s with waiting := s.waiting.eraseIdx i, holder := some (p, none) }
    | _, _ => s
  | .read =>
    match s.holder with
    | some (p, none) => { s with holder := some (p, some s.procs) }
    | _ => s
  | .write =>
    match s.holder with
    | some (p, some old) => { s with procs := old ++ [p], holder := none }
    | _ => s
  | .iter => { s with iters := s.iters ++ [⟨s.procs, 0⟩] }
  | .next j =>
    match s.iters[j]? with
    | some it => if it.pos < it.snap.length then { s with iters := s.iters.set j ⟨it.snap, it.pos + 1⟩ } else s
    | none => s

/-- A run. -/
def Reg.run (acts : List (RAct P)) : Reg P := acts.foldl Reg.step (Reg.init P)

/-- The processors an iteration has called. -/
def Iter.called (it : Iter P) : List P := it.snap.take it.pos

end Multi
end Otel
