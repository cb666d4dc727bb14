import Mathlib.Data.Nat.Basic
/-!
# Spans around parts of generators
A generator's body runs in the context of whoever asks for its next value, and may be left in the middle of a block `with tracer.start_as_current_span(...)`: the block is left when
the generator is resumed again, closed, or collected, perhaps in another thread or task. Models `use_span` (`opentelemetry-api/src/opentelemetry/trace/__init__.py` 564–617),
`Tracer.start_as_current_span` (`opentelemetry-sdk/src/opentelemetry/sdk/trace/__init__.py` 1077–1105) and `ContextVarsRuntimeContext`
(`opentelemetry-api/src/opentelemetry/context/contextvars_context.py` 25–53) under such programs. A *strand* is a thread or an asyncio task: that which has its own `contextvars.Context`.
Only the span is kept of a context, and of a span its parent and whether it is ended.
-/
namespace Otel
namespace Generators

/-- The current span: one from before the program began, or that of a block. -/
inductive Cur where
  | outer (n : Nat)
  | block (i : Nat)
deriving DecidableEq

/-- Whose code it is: a strand's own, or the body of a generator. -/
inductive Actor where
  | main (c : Nat)
  | gen (g : Nat)
deriving DecidableEq

/-- A block that was entered and not left: its span, and its token: the strand where it was entered (`Token` remembers its `contextvars.Context`) and what was current. -/
structure Block where
  span : Nat
  strand : Nat
  old : Cur
deriving DecidableEq

structure State where
  /-- The `ContextVar` of each strand. -/
  var : Nat → Cur
  /-- The generators that run in a strand: the innermost first. -/
  act : Nat → List Nat
  /-- The blocks that each has entered and not left, innermost first. -/
  blocks : Actor → List Block
  /-- The parents of the spans started so far. -/
  parents : List Cur
  /-- The spans ended so far, in order. -/
  ended : List Nat
  /-- How often "Failed to detach context" was logged. -/
  failed : Nat

/-- The beginning. -/
def State.init (v : Nat → Cur) : State := ⟨v, fun _ => [], fun _ => [], [], [], 0⟩

/-- What code can do. -/
inductive Op where
  /-- The beginning of a block `with tracer.start_as_current_span(...)`. -/
  | enter
  /-- The end of the innermost block of this code; also when an exception, or `GeneratorExit` by `close()` or by the garbage collector, is thrown into it. -/
  | leave
  /-- `next(g)`, `g.send(..)`, `g.throw(..)`, `g.close()`, or the garbage collector's call of it. -/
  | resume (g : Nat)
  /-- `yield`, or the end of the body. -/
  | suspend
deriving DecidableEq

/-- Whose code runs in a strand. -/
def State.actor (st : State) (c : Nat) : Actor :=
  match st.act c with
  | [] => .main c
  | g :: _ => .gen g

/-- A function with another value at one argument. -/
def put {α β : Type} [DecidableEq α] (f : α → β) (a : α) (b : β) : α → β := fun x => if x = a then b else f x

/-- A step of a strand. `enter`: `start_span`, whose parent is the current span, and `attach` (585); `leave`: `detach` (589; contextvars_context.py:47–53), which fails if the token
is of another strand (context/__init__.py:154–157), and `span.end()` (615–617). A block that is not there cannot be left. (Python refuses to
resume a generator that is running, with `ValueError`; here nothing prevents it, so there are more histories.) -/
def step (st : State) (ev : Nat × Op) : State :=
  match ev.2 with
  | .enter =>
    { st with
      var := put st.var ev.1 (.block st.parents.length)
      blocks := put st.blocks (st.actor ev.1) (⟨st.parents.length, ev.1, st.var ev.1⟩ :: st.blocks (st.actor ev.1))
      parents := st.parents ++ [st.var ev.1] }
  | .leave =>
    match st.blocks (st.actor ev.1) with
    | [] => st
    | b :: rest =>
      { st with
        var := if b.strand = ev.1 then put st.var ev.1 b.old else st.var
        blocks := put st.blocks (st.actor ev.1) rest
        ended := st.ended ++ [b.span]
        failed := if b.strand = ev.1 then st.failed else st.failed + 1 }
  | .resume g => { st with act := put st.act ev.1 (g :: st.act ev.1) }
  | .suspend => { st with act := put st.act ev.1 (st.act ev.1).tail }

/-- A run. -/
def run (st : State) (evs : List (Nat × Op)) : State := evs.foldl step st

end Generators
end Otel
