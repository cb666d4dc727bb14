import Verif.Model.Py
/-!
# Processors called by a thread pool
Models `ConcurrentMultiSpanProcessor` step by step: `on_start` and `on_end` of several threads
(`opentelemetry-sdk/src/opentelemetry/sdk/trace/__init__.py` 223–258), and its twin `ConcurrentMultiLogRecordProcessor`
(`opentelemetry-sdk/src/opentelemetry/sdk/_logs/_internal/__init__.py` 366–401), which is the same text.

There are `m` processors, numbered from 0, and a pool of `n` workers (`ThreadPoolExecutor(max_workers=num_threads)`). What an
application thread reports (the start or end of a span, a log record) is an event, a number. A processor that is given event `e`
may report events itself, while it works on `e` and on the same multi-processor (an exporter whose HTTP client is instrumented, a
handler that logs): `react e j` are those of processor `j`; afterwards it raises an exception if `raises e j`.

The pool: `submit` puts a task at the end of a queue; a worker takes the first one, runs it and sets its future. Tasks are
numbered in the order of submission, so the queue is the list of tasks not taken yet, in order; which of the workers takes a task makes no
difference, so that only the number of busy ones counts. Every action is one step of one thread and threads are interleaved in
any order.
-/
namespace Otel
namespace Pool

/-- Where a task is: in the queue; taken by a worker; run by a worker; done, with an exception or not. -/
inductive Status where
  | queued
  | taken
  | running
  | done (raised : Bool)
deriving DecidableEq

/-- A call of `_submit_and_await` (trace/__init__.py:235–246) for `event`: the tasks it has submitted so far and how many
it has awaited. -/
structure Call where
  event : Nat
  futures : List Nat
  awaited : Nat
deriving DecidableEq

/-- What a thread still reports, and the call it is in. -/
structure Activity where
  todo : List Nat
  call : Option Call
deriving DecidableEq

/-- A task: the application thread it was submitted by (`none` for a task submitted by a processor), the event and the processor to
call, where it is, and what the processor is doing while it runs. -/
structure Task where
  src : Option Nat
  event : Nat
  proc : Nat
  status : Status
  body : Activity
deriving DecidableEq

/-- What processors see: a call of one of their methods, and its end. -/
inductive Seen where
  | start (e : Nat)
  | finish (e : Nat)
deriving DecidableEq

/-- The program: number of processors and workers, what processors do. -/
structure Setup where
  procs : Nat
  workers : Nat
  react : Nat → Nat → List Nat
  raises : Nat → Nat → Bool

/-- The application threads, the tasks, and what has been seen: by which processor, on behalf of which thread. -/
structure State where
  threads : List Activity
  tasks : List Task
  log : List (Option Nat × Nat × Seen)
deriving DecidableEq

def State.init (scripts : List (List Nat)) : State :=
  { threads := scripts.map fun l => ⟨l, none⟩, tasks := [], log := [] }

/-- The number of busy workers. -/
def busy (tasks : List Task) : Nat := (tasks.filter fun t => t.status = .taken ∨ t.status = .running).length

/-- One step of a thread (or of a processor in a worker): what it does next, the tasks, and whether its call has just raised an
exception. `for sp in …: futures.append(submit(…))`, then `for future in futures: future.result()`, which waits until the task is
done and raises its exception. -/
def advance (m : Nat) (src : Option Nat) (a : Activity) (tasks : List Task) : Activity × List Task × Bool :=
  match a.call with
  | none =>
    match a.todo with
    | [] => (a, tasks, false)
    | e :: l => (⟨l, some ⟨e, [], 0⟩⟩, tasks, false)
  | some c =>
    if c.futures.length < m then
      (⟨a.todo, some { c with futures := c.futures ++ [tasks.length] }⟩,
        tasks ++ [⟨src, c.event, c.futures.length, .queued, ⟨[], none⟩⟩], false)
    else
      match c.futures[c.awaited]? with
      | none => (⟨a.todo, none⟩, tasks, false)
      | some i =>
        match (tasks[i]?).map Task.status with
        | some (.done false) => (⟨a.todo, some { c with awaited := c.awaited + 1 }⟩, tasks, false)
        | some (.done true) => (⟨a.todo, none⟩, tasks, true)
        | _ => (a, tasks, false)

/-- Who makes a step. -/
inductive Act where
  /-- application thread `t` -/
  | thread (t : Nat)
  /-- an idle worker takes the first task of the queue -/
  | take
  /-- the worker that has task `i` -/
  | work (i : Nat)
deriving DecidableEq

/-- One step. An application thread goes on with what it has to report after an exception. -/
def step (S : Setup) (s : State) : Act → State
  | .thread t =>
    match s.threads[t]? with
    | none => s
    | some a =>
      let r := advance S.procs (some t) a s.tasks
      { s with threads := s.threads.set t r.1, tasks := r.2.1 }
  | .take =>
    if busy s.tasks < S.workers then
      match s.tasks.findIdx? (fun t => t.status = .queued) with
      | none => s
      | some i => { s with tasks := s.tasks.modify i fun t => { t with status := .taken } }
    else s
  | .work i =>
    match s.tasks[i]? with
    | none => s
    | some t =>
      match t.status with
      | .taken =>
        { s with tasks := s.tasks.set i { t with status := .running, body := ⟨S.react t.event t.proc, none⟩ }
                 log := s.log ++ [(t.src, t.proc, .start t.event)] }
      | .running =>
        if t.body = ⟨[], none⟩ then
          { s with tasks := s.tasks.set i { t with status := .done (S.raises t.event t.proc) }
                   log := s.log ++ [(t.src, t.proc, .finish t.event)] }
        else
          let r := advance S.procs none t.body s.tasks
          if r.2.2 then
            -- the exception of a nested call leaves the processor's method
            { s with tasks := r.2.1.set i { t with status := .done true, body := ⟨[], none⟩ }
                     log := s.log ++ [(t.src, t.proc, .finish t.event)] }
          else { s with tasks := r.2.1.set i { t with body := r.1 } }
      | _ => s

/-- A run. -/
def run (S : Setup) (scripts : List (List Nat)) (acts : List Act) : State := acts.foldl (step S) (State.init scripts)

end Pool
end Otel
