import Verif.Model.Recording
import Verif.Spec.Metrics
/-!
# What concurrent recording should amount to
Read off the history: what each thread asked to be recorded, what each stream received, what each collection took; and what one stream, used by itself, gives.
-/
namespace Otel
namespace Recording
variable {K I O S : Type}

/-- The measurements that thread `t` made for stream set `s`: calls of the application (which go to every reader), and observations (which go to the reader that asked). -/
def begunBy (env : Env K I O S) (t : Nat) (s : Slot) (log : List (Ev K I O)) : List I :=
  log.filterMap fun
    | .called u i x => if u = t ∧ i = s.i ∧ s.r < env.readers ∧ s.j < env.arity s.r s.i then some x else none
    | .observed u r i x => if u = t ∧ i = s.i ∧ r = s.r ∧ s.j < env.arity s.r s.i then some x else none
    | _ => none

/-- The measurements of thread `t` that stream set `s` received. -/
def feedsBy (t : Nat) (s : Slot) (log : List (Ev K I O)) : List I :=
  log.filterMap fun
    | .fed u s' _ x => if u = t ∧ s' = s then some x else none
    | _ => none

/-- The calls `record` of thread `t`. -/
def recordsBy (t : Nat) (log : List (Ev K I O)) : List (Nat × I) :=
  log.filterMap fun
    | .called u i x => if u = t then some (i, x) else none
    | _ => none

section
variable [DecidableEq K]

/-- The creations of a stream. -/
def creations (s : Slot) (k : K) (log : List (Ev K I O)) : List I :=
  log.filterMap fun
    | .created s' k' x => if s' = s ∧ k' = k then some x else none
    | _ => none

/-- What is done to one stream. -/
inductive Op (I : Type) where
  | feed (x : I)
  | coll (now : Int)

/-- What was done to a stream, in order. -/
def opsOf (s : Slot) (k : K) (log : List (Ev K I O)) : List (Op I) :=
  log.filterMap fun
    | .fed _ s' k' x => if s' = s ∧ k' = k then some (.feed x) else none
    | .collected _ s' k' now _ => if s' = s ∧ k' = k then some (.coll now) else none
    | _ => none

/-- What was taken from a stream, in order. -/
def outsOf (s : Slot) (k : K) (log : List (Ev K I O)) : List O :=
  log.filterMap fun
    | .collected _ s' k' _ o => if s' = s ∧ k' = k then some o else none
    | _ => none

/-- What a stream received, in order. -/
def fedTo (s : Slot) (k : K) (log : List (Ev K I O)) : List I :=
  log.filterMap fun
    | .fed _ s' k' x => if s' = s ∧ k' = k then some x else none
    | _ => none

/-- How often thread `t` collected a stream. -/
def takes (t : Nat) (s : Slot) (k : K) (log : List (Ev K I O)) : Nat :=
  (log.filter fun
    | .collected u s' k' _ _ => decide (u = t ∧ s' = s ∧ k' = k)
    | _ => false).length
end

/-- A stream by itself: what it gives and its state. -/
def alone (env : Env K I O S) (s : Slot) : S → List (Op I) → List O × S
  | a, [] => ([], a)
  | a, .feed x :: l => alone env s (env.feed s a x) l
  | a, .coll now :: l => ((env.coll s a now).1 :: (alone env s (env.coll s a now).2 l).1, (alone env s (env.coll s a now).2 l).2)

/-- The SDK with one kind of aggregation (`Verif.Model.Metrics`) in every stream: `val` is the value of a measurement, `start` the state of the stream that a measurement creates. -/
def Env.of {α P : Type} (m : Metrics.Machine α P) (readers : Nat) (arity : Nat → Nat → Nat) (key : Slot → I → K) (val : I → α) (start : I → m.S) : Env K I (Option P) m.S where
  readers := readers
  arity := arity
  key := key
  new := fun _ _ x => start x
  feed := fun _ a x => m.aggregate a (val x)
  coll := fun _ a now => m.collect a now

/-- The measurements that `n` threads made for a stream. -/
def made [DecidableEq K] (env : Env K I O S) (n : Nat) (s : Slot) (k : K) (log : List (Ev K I O)) : List I :=
  (List.range n).flatMap fun t => (begunBy env t s log).filter fun x => decide (env.key s x = k)

/-- All threads have finished. -/
def State.finished (st : State K I O S) : Prop := ∀ k ∈ st.threads, k = []

end Recording
end Otel
