import Verif.Model.Pool
/-!
# What processors see of a thread
-/
namespace Otel
namespace Pool

/-- What processor `j` has seen on behalf of thread `t`. -/
def seenBy (t j : Nat) (log : List (Option Nat × Nat × Seen)) : List Seen :=
  (log.filter fun x => x.1 = some t ∧ x.2.1 = j).map fun x => x.2.2

/-- One event after the other, each one to its end. -/
def inOrder (l : List Nat) : List Seen := l.flatMap fun e => [.start e, .finish e]

/-- The events a processor has begun with. -/
def started (l : List Seen) : List Nat :=
  l.filterMap fun x => match x with
    | .start e => some e
    | .finish _ => none

/-- Processors do not raise. -/
def Calm (S : Setup) : Prop := ∀ e j : Nat, S.raises e j = false

/-- Processors do not report events themselves. -/
def Quiet (S : Setup) : Prop := ∀ e j : Nat, S.react e j = []

/-- Thread `a` with that `script` has returned from `k` calls. -/
def Returned (script : List Nat) (a : Activity) (k : Nat) : Prop :=
  match a.call with
  | none => k ≤ script.length ∧ a.todo = script.drop k
  | some c => script[k]? = some c.event ∧ a.todo = script.drop (k + 1)

/-- No thread or worker can do anything. -/
def Stuck (S : Setup) (s : State) : Prop := ∀ a : Act, step S s a = s

/-- The number of steps in which something happened. -/
def moves (S : Setup) : State → List Act → Nat
  | _, [] => 0
  | s, a :: l => (if step S s a = s then 0 else 1) + moves S (step S s a) l

end Pool
end Otel
