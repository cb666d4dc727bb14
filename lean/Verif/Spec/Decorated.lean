import Verif.Model.Decorated
/-!
# What decorated functions should do
A call runs in a span of its own: opened with the right parent, current in the body, and after the body the exception noted and the span ended.
-/
namespace Otel
namespace Decorated

/-- What is noted of an outcome when a function is left. -/
def atEnd (f : Fn) (s : Id) (r : Option Exc) : List Ev :=
  (if r = some .error ∧ f.record then [.recorded s] else []) ++ (if r = some .error ∧ f.status then [.errored s] else []) ++ (if f.endOnExit then [.closed s] else [])

mutual
/-- What one action of task `t` should show, with `cur` as the current span and `n` spans started before: the events, the number of spans, and what escapes. -/
def traceAct (t : Nat) (cur : Option Id) (n : Nat) : Act → List Ev × Nat × Option Exc
  | .note k => ([.note k cur], n, none)
  | .raise e => ([], n, some e)
  | .attempt body => ((trace t cur n body).1, (trace t cur n body).2.1, if (trace t cur n body).2.2 = some .error then none else (trace t cur n body).2.2)
  | .call f body =>
    (.opened (t, n) f.name (f.context.getD cur) :: (trace t (some (t, n)) (n + 1) body).1 ++ atEnd f (t, n) (trace t (some (t, n)) (n + 1) body).2.2, (trace t (some (t, n)) (n + 1) body).2.1,
      (trace t (some (t, n)) (n + 1) body).2.2)
  | .make _ => ([], n, none)
  | .lazy f => (.opened (t, n) f.name (f.context.getD cur) :: atEnd f (t, n) none, n + 1, none)
  | .consume body => trace t cur n body
  | .enter _ _ => ([], n, none)
/-- One action after the other, until something escapes. -/
def trace (t : Nat) (cur : Option Id) (n : Nat) : List Act → List Ev × Nat × Option Exc
  | [] => ([], n, none)
  | a :: l =>
    if (traceAct t cur n a).2.2 = none then
      ((traceAct t cur n a).1 ++ (trace t cur (traceAct t cur n a).2.1 l).1, (trace t cur (traceAct t cur n a).2.1 l).2.1, (trace t cur (traceAct t cur n a).2.1 l).2.2)
    else traceAct t cur n a
end

mutual
/-- The context manager objects are used as decorators only. -/
def pureAct : Act → Prop
  | .attempt body => pure body
  | .call _ body => pure body
  | .consume body => pure body
  | .enter _ _ => False
  | _ => True
/-- … by all actions. -/
def pure : List Act → Prop
  | [] => True
  | a :: l => pureAct a ∧ pure l
end

mutual
/-- Every decorated function ends its span. -/
def endingAct : Act → Prop
  | .attempt body => ending body
  | .call f body => f.endOnExit = true ∧ ending body
  | .lazy f => f.endOnExit = true
  | .consume body => ending body
  | _ => True
/-- … of all actions. -/
def ending : List Act → Prop
  | [] => True
  | a :: l => endingAct a ∧ ending l
end

/-- The spans that were started. -/
def openedIn (l : List Ev) : List Id := l.filterMap fun | .opened s _ _ => some s | _ => none

/-- The spans that were ended. -/
def closedIn (l : List Ev) : List Id := l.filterMap fun | .closed s => some s | _ => none

/-- A task that has run its program. -/
def Task.finished (T : Task) : Prop := T.code = []

end Decorated
end Otel
