import Verif.Model.Tracer
/-!
# Traced programs with several threads and asyncio tasks
The programs of `Verif.Model.Tracer` with concurrency: a program may start threads (`threading.Thread`, which begin with an empty context) and asyncio
tasks (`asyncio.create_task`, which begin with a copy of the creator's context, as `contextvars` specifies). Threads and tasks are both called tasks here. The scheduler is arbitrary:
any task may make the next step. (asyncio switches only at `await`, which gives fewer schedules.) A task's own steps are those of `start_span`,
`attach`, the body, `detach`, and the clauses of `use_span` (`opentelemetry-api/src/opentelemetry/trace/__init__.py` 563–617,
`opentelemetry-sdk/src/opentelemetry/sdk/trace/__init__.py` 1075–1181).
-/
namespace Otel
namespace Tasks
open UseSpan (Esc onError)
open Sampling (Sampler)
open Tracer (Opts World startIn)

/-- Programs. -/
inductive Prog where
  | skip
  /-- `get_current_span()`, remembered under the number `n` -/
  | look (n : Nat)
  | raise (e : Esc)
  | seq (a b : Prog)
  /-- `try: a; except Exception: b` -/
  | tryExcept (a b : Prog)
  /-- a method of the `i`-th span started so far, by whichever task -/
  | op (i : Nat) (s : Span.Step)
  /-- `tracer.start_span(...)` in a line of the program, not made current -/
  | start (line : Nat) (o : Opts)
  /-- `with tracer.start_as_current_span(...): b` in a line of the program -/
  | block (line : Nat) (o : Opts) (b : Prog)
  /-- `asyncio.create_task(b())` (`copy`), or `Thread(target=b).start()` -/
  | spawn (copy : Bool) (b : Prog)

/-- How a function is written: `def`, `async def`, and both with `yield`. -/
inductive FuncKind where
  | plain
  | coroutine
  | generator
  | asyncGenerator
deriving DecidableEq

/-- A call of a function decorated with `@tracer.start_as_current_span(...)`
(`opentelemetry-api/src/opentelemetry/util/_decorator.py` 55–74): the wrapper of a coroutine function awaits the body inside the block; for every other
function `contextlib`'s wrapper calls it inside the block, which for a generator function of either kind only makes the generator; its body runs as the
caller iterates over it afterwards. Each call makes a new block. -/
def decorated (k : FuncKind) (line : Nat) (o : Opts) (body : Prog) : Prog :=
  match k with
  | .plain | .coroutine => .block line o body
  | .generator | .asyncGenerator => .seq (.block line o .skip) body

/-- What a task still has to do after its current code. -/
inductive Frame where
  | seq (b : Prog)
  | handler (b : Prog)
  /-- leave the block of the `i`-th span -/
  | leave (i : Nat) (o : Opts) (tok : Token)

/-- Where a task is. -/
inductive Ctl where
  | run (p : Prog)
  /-- the span is started, the context not yet attached -/
  | enter (i : Nat) (o : Opts) (b : Prog)
  /-- finished, or raising -/
  | ret (e : Option Esc)
  /-- the context is detached; next the `except` clause -/
  | error (i : Nat) (o : Opts) (e : Option Esc)
  /-- next the `finally` clause -/
  | finish (i : Nat) (o : Opts) (e : Option Esc)
  /-- the span is ended; next the processors are told -/
  | notify (i : Nat) (e : Option Esc)

/-- A task. -/
structure Task where
  ctl : Ctl
  stack : List Frame

/-- The process. -/
structure State where
  world : World
  tasks : List Task
  seen : List (Nat × SpanContext)

/-- A process running `main` in its first thread. -/
def State.init (main : Prog) : State := ⟨World.init, [⟨.run main, []⟩], []⟩

/-- One step of task `t`. -/
def step (S : Sampler) (lim : SpanLimits) (st : State) (t : Nat) : State :=
  match st.tasks[t]? with
  | none => st
  | some k =>
    let upd (w : World) (k' : Task) : State := { st with world := w, tasks := st.tasks.set t k' }
    match k.ctl with
    | .run .skip => upd st.world ⟨.ret none, k.stack⟩
    | .run (.look n) =>
      { st with seen := st.seen ++ [(n, Ctx.currentSpan (st.world.rt.getCurrent t))], tasks := st.tasks.set t ⟨.ret none, k.stack⟩ }
    | .run (.raise e) => upd st.world ⟨.ret (some e), k.stack⟩
    | .run (.seq a b) => upd st.world ⟨.run a, .seq b :: k.stack⟩
    | .run (.tryExcept a b) => upd st.world ⟨.run a, .handler b :: k.stack⟩
    | .run (.op i s) => upd (st.world.steps i [s]) ⟨.ret none, k.stack⟩
    | .run (.start _ o) => upd (startIn S lim t o st.world) ⟨.ret none, k.stack⟩
    | .run (.block _ o b) => upd (startIn S lim t o st.world) ⟨.enter st.world.spans.length o b, k.stack⟩
    | .run (.spawn copy b) =>
      let w := st.world
      { st with
        world := { w with rt := { w.rt with value := fun u => if u = st.tasks.length then (if copy then w.rt.value t else none) else w.rt.value u } }
        tasks := (st.tasks.set t ⟨.ret none, k.stack⟩) ++ [⟨.run b, []⟩] }
    | .enter i o b =>
      let w := st.world
      let a := w.rt.attach t (Ctx.setSpan (w.rt.getCurrent t) (w.ctxOf i))
      upd { w with rt := a.1 } ⟨.run b, .leave i o a.2 :: k.stack⟩
    | .ret e =>
      match k.stack with
      | [] => st
      | .seq b :: r => upd st.world (match e with | none => ⟨.run b, r⟩ | some _ => ⟨.ret e, r⟩)
      | .handler b :: r => upd st.world (match e with | some (.exception _ _) => ⟨.run b, r⟩ | _ => ⟨.ret e, r⟩)
      | .leave i o tok :: r => upd { st.world with rt := st.world.rt.detach t tok } ⟨.error i o e, r⟩
    | .error i o e =>
      upd (st.world.steps i (onError (st.world.recordingAt i) o.recordException o.setStatusOnException o.tExc e)) ⟨.finish i o e, k.stack⟩
    | .finish i o e =>
      if o.endOnExit then upd (st.world.steps i [.end_ o.tEnd]) ⟨.notify i e, k.stack⟩ else upd st.world ⟨.ret e, k.stack⟩
    | .notify i e => upd (st.world.steps i [.notifyEnd]) ⟨.ret e, k.stack⟩

/-- The steps of a schedule: at each moment the task that moves. -/
def runs (S : Sampler) (lim : SpanLimits) (main : Prog) (schedule : List Nat) : State :=
  schedule.foldl (step S lim) (State.init main)

end Tasks
end Otel
