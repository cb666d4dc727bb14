import Verif.Model.ExemplarRace
/-!
# What exemplars may say, whatever the threads do
-/
namespace Otel
namespace Spec
open Metrics Exemplar

/-- Every field of the exemplar is that of some measurement of `P` (not necessarily the same one for all fields), or the value of an empty bucket. -/
structure Composed {α : Type} [Zero α] (point : MAttrs) (P : Offer α → Prop) (e : Ex α) : Prop where
  value : e.value = 0 ∨ ∃ o, P o ∧ e.value = o.value
  time : e.time = 0 ∨ ∃ o, P o ∧ e.time = o.time
  attrs : e.attrs = none ∨ e.attrs = some [] ∨ ∃ o a, P o ∧ o.attrs = some a ∧ e.attrs = some (a.filter fun kv => decide (kv.1 ∉ point.map Prod.fst))
  spanId : e.spanId = none ∨ ∃ o s t, P o ∧ o.span = some (s, t) ∧ e.spanId = some s
  traceId : e.traceId = none ∨ ∃ o s t, P o ∧ o.span = some (s, t) ∧ e.traceId = some t

namespace ExemplarRace
open Otel.ExemplarRace
variable {α : Type} [Zero α] [LinearOrder α]

/-- Either every measurement has attributes, or none has any. -/
def Uniform (os : List (Offer α)) : Prop := ∀ o ∈ os, ∀ o' ∈ os, o.attrs.getD [] = [] ↔ o'.attrs.getD [] = []

/-- Steps of `m` until `stop`. -/
inductive Runs (k : Kind α) (point : MAttrs) (m : Option Nat) (stop : State α → Prop) : State α → State α → Prop
  | stop (st : State α) : stop st → Runs k point m stop st st
  | step (st st' : State α) : ¬ stop st → Runs k point m stop (step k point st m) st' → Runs k point m stop st st'

/-- The call has returned or raised. -/
def Ended (t : Nat) (st : State α) : Prop := ∀ a, st.acts[t]? = some a → a.pc = .done ∨ a.pc = .raised

/-- No collection is in progress. -/
def Idle (st : State α) : Prop := st.coll = .idle

/-- The calls are made one after the other: `some t` is the call `t` of `offer`, `none` a collection. -/
inductive Serial (k : Kind α) (point : MAttrs) : State α → List (Option Nat) → State α → Prop
  | nil (st : State α) : Serial k point st [] st
  | offer (st st' st'' : State α) (t : Nat) (a : Act α) (l : List (Option Nat)) : st.acts[t]? = some a → a.pc = .load → Runs k point (some t) (Ended t) st st' →
      Serial k point st' l st'' → Serial k point st (some t :: l) st''
  | collect (st st' st'' : State α) (l : List (Option Nat)) : Runs k point none Idle (step k point st none) st' → Serial k point st' l st'' → Serial k point st (none :: l) st''

/-- What the call is in the model of a reservoir used by one thread. -/
def opOf (point : MAttrs) (offers : List (Offer α × Nat)) : Option Nat → List (Exemplar.Op α)
  | some t => match offers[t]? with | some (o, r) => [.offer o r] | none => []
  | none => [.collect point]

/-- One call on a reservoir used by one thread. -/
def stepRes (k : Kind α) (s : Res α) (op : Exemplar.Op α) : Res α :=
  match k with
  | .simple size => stepSimple size s op
  | .aligned bs => stepAligned bs s op

/-- The exemplars of the collections of a history. -/
def collections (k : Kind α) : Res α → List (Exemplar.Op α) → List (List (Ex α))
  | _, [] => []
  | s, .offer o r :: l => collections k (stepRes k s (.offer o r)) l
  | s, .collect point :: l => (s.collect point).1 :: collections k (stepRes k s (.collect point)) l

end ExemplarRace
end Spec
end Otel
