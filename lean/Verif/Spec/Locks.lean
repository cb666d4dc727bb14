import Verif.Model.Locks
/-!
# Deadlock
-/
namespace Otel
namespace Locks

/-- Thread `i` waits for a lock that thread `j` holds. A thread waits for itself if it acquires a lock it holds, which is not an `RLock`. -/
def Waits (s : State) (i j : Nat) : Prop :=
  ∃ (ti tj : Thread) (l : Lock) (rest : List Act), s[i]? = some ti ∧ ti.rest = .acquire l :: rest ∧
    s[j]? = some tj ∧ l ∈ tj.held ∧ (j = i → l.reentrant = false)

/-- The threads `D` wait for each other. -/
def Deadlocked (s : State) (D : Nat → Prop) : Prop :=
  (∃ i : Nat, D i) ∧ ∀ i : Nat, D i → ∃ j : Nat, D j ∧ Waits s i j

/-- Handlers that call neither the API nor log. -/
def Passive : Op → Prop
  | .skip => True
  | .seq a b => Passive a ∧ Passive b
  | _ => False

/-- What is logged goes to such handlers. -/
def Logged : Op → Prop
  | .skip => True
  | .seq a b => Logged a ∧ Logged b
  | .log _ emit => Passive emit
  | _ => False

/-- A sequence of attributes that are stored in a span, or something logged. -/
def Stores : Op → Prop
  | .skip => True
  | .seq a b => Stores a ∧ Stores b
  | .store _ logged => Logged logged
  | .log _ emit => Passive emit
  | _ => False

/-- What callbacks may do: record measurements, create instruments that are not observable on SDK meters, get SDK meters, work with spans, log. -/
def CallbackSafe : Op → Prop
  | .skip | .record _ _ | .observed _ _ _ | .createSync _ | .getMeter _ => True
  | .seq a b => CallbackSafe a ∧ CallbackSafe b
  | .matchViews _ logged => Logged logged
  | .log _ emit => Passive emit
  | .setAttributes _ stores => Stores stores
  | .store _ logged => Logged logged
  | .addEvent _ | .addLink _ | .updateName _ | .readSpan _ => True
  | .setStatus _ logged => Logged logged
  | .boundary _ logged processors => Logged logged ∧ CallbackSafe processors
  | _ => False

/-- What exporters may do: everything but collecting. -/
def ExporterSafe : Op → Prop
  | .collect _ _ _ _ _ | .getMetricsData _ _ _ _ => False
  | .seq a b => ExporterSafe a ∧ ExporterSafe b
  | .matchViews _ logged => Logged logged
  | .log _ emit => Passive emit
  | .setAttributes _ stores => Stores stores
  | .store _ logged => Logged logged
  | .setStatus _ logged => Logged logged
  | .boundary _ logged processors => Logged logged ∧ ExporterSafe processors
  | _ => True

/-- Calls of an application whose callbacks and exporters do only what they may, and whose log handlers do not call the API. -/
def Safe : Op → Prop
  | .seq a b => Safe a ∧ Safe b
  | .collect _ callbacks _ _ exporter => CallbackSafe callbacks ∧ ExporterSafe exporter
  | .getMetricsData _ callbacks _ _ => CallbackSafe callbacks
  | .matchViews _ logged => Logged logged
  | .log _ emit => Passive emit
  | .setAttributes _ stores => Stores stores
  | .store _ logged => Logged logged
  | .setStatus _ logged => Logged logged
  | .boundary _ logged processors => Logged logged ∧ Safe processors
  | _ => True

/-- Nothing is logged. -/
def LogFree : Op → Prop
  | .seq a b => LogFree a ∧ LogFree b
  | .collect _ callbacks _ _ exporter => LogFree callbacks ∧ LogFree exporter
  | .getMetricsData _ callbacks _ _ => LogFree callbacks
  | .matchViews _ logged => LogFree logged
  | .log _ _ => False
  | .setAttributes _ stores => LogFree stores
  | .store _ logged => LogFree logged
  | .setStatus _ logged => LogFree logged
  | .boundary _ logged processors => LogFree logged ∧ LogFree processors
  | _ => True

/-- Calls of an application that logs, but in whose calls nothing is logged; what its handlers do is as free as what its threads do. -/
def HandlerSafe : Op → Prop
  | .seq a b => HandlerSafe a ∧ HandlerSafe b
  | .log _ emit => LogFree emit ∧ Safe emit
  | o => LogFree o ∧ Safe o

/-- All threads are out of their calls. -/
def AllReturned (s : State) : Prop := ∀ i : Nat, ∀ t : Thread, s[i]? = some t → t.rest = []

/-- A number of steps inside calls. -/
inductive Moves : Nat → State → State → Prop
  | refl (s : State) : Moves 0 s s
  | step (k i : Nat) (s s' s'' : State) (h : Moves k s s') (m : Move s' i s'') : Moves (k + 1) s s''

/-- How many steps what is left of a call takes at most. -/
def cost : List Act → Nat
  | [] => 0
  | .maybe _ :: l => 3 + cost l
  | _ :: l => 1 + cost l

/-- How many steps what is left of all calls takes at most. -/
def totalCost (s : State) : Nat := (s.map fun t => cost t.rest).sum

end Locks
end Otel
