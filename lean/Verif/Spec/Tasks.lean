import Verif.Model.Tasks
/-!
# What a concurrent traced program should produce
Read off the text of the program, without regard to any schedule: which spans it starts, which block is around each, and what exception leaves each block;
what it sees and which span methods it calls. A task inherits the block around the place where it is created, a thread does not.
-/
namespace Otel
namespace Tasks
open UseSpan (Esc)
open Tracer (Opts)

/-- Is this an exception that `except Exception` catches? -/
def caught : Option Esc → Bool
  | some (.exception _ _) => true
  | _ => false

/-- What `b` after something that raised `e` (or nothing) raises. -/
def thenRaises (e r : Option Esc) : Option Esc := match e with | none => r | some e => some e

/-- The exception a program raises. Those of threads and tasks do not come back. -/
def raises : Prog → Option Esc
  | .raise e => some e
  | .seq a b => thenRaises (raises a) (raises b)
  | .tryExcept a b => if caught (raises a) then raises b else raises a
  | .block _ _ b => raises b
  | _ => none

/-- A place where a span is started: its line and arguments; for a block, what leaves it; the line of the innermost block around it. -/
structure Site where
  line : Nat
  opts : Opts
  leaves : Option (Option Esc)
  around : Option Nat

/-- What a program does. -/
inductive Event where
  | span (s : Site)
  | look (n : Nat) (around : Option Nat)
  | op (i : Nat) (s : Span.Step)

/-- Everything a program does, `cur` being the line of the innermost block around it. -/
def events (cur : Option Nat) : Prog → List Event
  | .look n => [.look n cur]
  | .op i s => [.op i s]
  | .seq a b => events cur a ++ if (raises a).isNone then events cur b else []
  | .tryExcept a b => events cur a ++ if caught (raises a) then events cur b else []
  | .start l o => [.span ⟨l, o, none, if o.newTrace then none else cur⟩]
  | .block l o b => .span ⟨l, o, some (raises b), if o.newTrace then none else cur⟩ :: events (some l) b
  | .spawn copy b => events (if copy then cur else none) b
  | _ => []

/-- The spans among these. -/
def sitesOf (l : List Event) : List Site := l.filterMap fun e => match e with | .span s => some s | _ => none

/-- The looks among these: number, line of the block around. -/
def looksOf (l : List Event) : List (Nat × Option Nat) := l.filterMap fun e => match e with | .look n a => some (n, a) | _ => none

/-- What leaving a block with an exception does to its span. -/
def exceptionSteps (o : Opts) : Option Esc → List Span.Step
  | some (.exception x text) =>
    (if o.recordException then [.recordException x [] o.tExc false] else []) ++ (if o.setStatusOnException then [.setStatus (.obj .error (some text))] else [])
  | _ => []

/-- What leaving the block does to its span. -/
def Site.exit (x : Site) : List Span.Step :=
  match x.leaves with
  | none => []
  | some e => exceptionSteps x.opts e ++ if x.opts.endOnExit then [.end_ x.opts.tEnd, .notifyEnd] else []

/-- All tasks have finished. -/
def State.finished (st : State) : Prop := ∀ k ∈ st.tasks, ∃ e, k = ⟨.ret e, []⟩

end Tasks
end Otel
