import Verif.Model.Py
/-!
# Decorated functions
Models `opentelemetry-api/src/opentelemetry/util/_decorator.py` 33–85 (`_AgnosticContextManager`, on top of CPython's `contextlib._GeneratorContextManager`) as used by `start_as_current_span`
(`opentelemetry-sdk/src/opentelemetry/sdk/trace/__init__.py` 1076–1105) and `use_span` (`opentelemetry-api/src/opentelemetry/trace/__init__.py` 563–617): functions decorated with
`@tracer.start_as_current_span(…)` that run in several threads or tasks, each with its own current context. A task steps through its program; a step is one action. What a body does is a tree; a coroutine's body
stands where it is awaited, a generator's where it is consumed. Spans are recording (a span that is not has no exception recorded, see C18); a span's id is the task and a number. Left out: what an exception says,
cancellation other than as an exception of the body, `start_time`, attributes, links.
-/
namespace Otel
namespace Decorated

/-- A span: the task that started it and a number. -/
abbrev Id := Nat × Nat

/-- An `Exception`, or another `BaseException` (`CancelledError`, `KeyboardInterrupt`). -/
inductive Exc where
  | error
  | base
deriving DecidableEq

/-- A decorated function: the context manager object that decorates it, and the arguments it was made with. `context`: a context given at decoration, with the span in it, if any. -/
structure Fn where
  cm : Nat
  name : Nat
  context : Option (Option Id)
  endOnExit : Bool
  record : Bool
  status : Bool
deriving DecidableEq

/-- What a program does. -/
inductive Act where
  /-- anything that looks at the current span -/
  | note (n : Nat)
  | raise (e : Exc)
  /-- `try: … except Exception: pass` -/
  | attempt (body : List Act)
  /-- the call of a decorated function that is not a coroutine function, or the awaiting of a coroutine made by a decorated coroutine function; `body` is what the function does -/
  | call (f : Fn) (body : List Act)
  /-- the call of a decorated coroutine function: makes a coroutine -/
  | make (f : Fn)
  /-- the call of a decorated function that does its work later: a generator function, an asynchronous generator function, a function that is no coroutine function and returns an awaitable -/
  | lazy (f : Fn)
  /-- that work: the generator is consumed, the awaitable awaited -/
  | consume (body : List Act)
  /-- `with cm: …`, with the object that also decorates a function -/
  | enter (f : Fn) (body : List Act)

/-- What can be observed: a span is started, with its parent; a body looks at the current span; an exception is recorded, a status set, a span ended. -/
inductive Ev where
  | opened (s : Id) (name : Nat) (parent : Option Id)
  | note (n : Nat) (current : Option Id)
  | recorded (s : Id)
  | errored (s : Id)
  | closed (s : Id)
deriving DecidableEq

/-- The code a task has still to run. -/
inductive Micro where
  | act (a : Act)
  /-- the end of a `with` block: the span, the token of `attach`, the function -/
  | leave (s : Id) (saved : Option Id) (f : Fn)
  /-- the end of a `try` -/
  | caught

/-- A task: its code, its current span, how many spans it has started, the exception that is propagating, what was observed. -/
structure Task where
  code : List Micro
  cur : Option Id
  n : Nat
  raising : Option Exc
  log : List Ev

/-- `start_span` and `attach` (sdk 1089–1104, api 584): the parent is that of the given context, or the current one when the function is called, not when it was decorated. -/
def Task.open (T : Task) (t : Nat) (f : Fn) : Task :=
  { T with cur := some (t, T.n), n := T.n + 1, log := T.log ++ [.opened (t, T.n) f.name (f.context.getD T.cur)] }

/-- The end of the `with` block (api 585–617): `detach`, then the `except` and `finally` clauses; the exception goes on. -/
def Task.close (T : Task) (s : Id) (saved : Option Id) (f : Fn) : Task :=
  { T with
    cur := saved
    log := T.log ++ (if T.raising = some .error then (if f.record then [.recorded s] else []) ++ (if f.status then [.errored s] else []) else []) ++ (if f.endOnExit then [.closed s] else []) }

/-- One step of a task; `entered` are the context manager objects that were entered themselves: `__enter__` deletes what `_recreate_cm` needs (_decorator.py:59), so that calling the function raises
`AttributeError`, and so does entering again. -/
def stepTask (entered : List Nat) (t : Nat) (T : Task) : Task × List Nat :=
  match T.code with
  | [] => (T, entered)
  | .caught :: rest => ({ T with code := rest, raising := if T.raising = some .error then none else T.raising }, entered)
  | .leave s saved f :: rest => ({ T with code := rest }.close s saved f, entered)
  | .act a :: rest =>
    if T.raising ≠ none then ({ T with code := rest }, entered)
    else
      match a with
      | .note n => ({ T with code := rest, log := T.log ++ [.note n T.cur] }, entered)
      | .raise e => ({ T with code := rest, raising := some e }, entered)
      | .attempt body => ({ T with code := body.map .act ++ .caught :: rest }, entered)
      -- contextlib.ContextDecorator.__call__; _decorator.py:66–74
      | .call f body =>
        if f.cm ∈ entered then ({ T with code := rest, raising := some .error }, entered)
        else ({ T.open t f with code := body.map .act ++ .leave (t, T.n) T.cur f :: rest }, entered)
      -- _decorator.py:68–71: the wrapper is a coroutine function; nothing of it runs
      | .make _ => ({ T with code := rest }, entered)
      -- _decorator.py:74: the wrapper returns what the function returns, and leaves the `with` block
      | .lazy f =>
        if f.cm ∈ entered then ({ T with code := rest, raising := some .error }, entered)
        else ({ (T.open t f).close (t, T.n) T.cur f with code := rest }, entered)
      | .consume body => ({ T with code := body.map .act ++ rest }, entered)
      | .enter f body =>
        if f.cm ∈ entered then ({ T with code := rest, raising := some .error }, entered)
        else ({ T.open t f with code := body.map .act ++ .leave (t, T.n) T.cur f :: rest }, entered ++ [f.cm])

/-- All tasks. -/
structure State where
  tasks : List Task
  entered : List Nat

/-- A scheduled step of task `t`. -/
def step (st : State) (t : Nat) : State :=
  match st.tasks[t]? with
  | none => st
  | some T => ⟨st.tasks.set t (stepTask st.entered t T).1, (stepTask st.entered t T).2⟩

/-- A task that starts with a current span (that of the context it was started in). -/
def Task.init (p : Option Id × List Act) : Task := ⟨p.2.map .act, p.1, 0, none, []⟩

/-- A schedule. -/
def run (progs : List (Option Id × List Act)) (sched : List Nat) : State := sched.foldl step ⟨progs.map .init, []⟩

end Decorated
end Otel
