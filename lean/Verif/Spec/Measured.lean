import Verif.Model.Measured
import Verif.Spec.Recording
/-!
# What should reach the exporter
Read off the history of the SDK (what was recorded and collected) and the calls the exporters got.
-/
namespace Otel
namespace Measured
open Recording (Slot Env Call Reply)
variable {K I P S : Type}

/-- The results of thread `t`'s collections, in order: the points it took between the beginning and the end of each; `cur` is what it took in the collection under way. Collections without points are left out. -/
def collectionsFrom (t : Nat) (cur : List (Pt K P)) : List (Recording.Ev K I (Option P)) → List (Nat × List (Pt K P))
  | [] => []
  | .began u r :: l => if u = t then collectionsFrom t [] l else collectionsFrom t cur l
  | .collected u s k now (some p) :: l => if u = t then collectionsFrom t (cur ++ [(s, k, p)]) l else collectionsFrom t cur l
  | .ended u r :: l => if u = t then (if cur = [] then collectionsFrom t [] l else (r, cur) :: collectionsFrom t [] l) else collectionsFrom t cur l
  | _ :: l => collectionsFrom t cur l

/-- The results of thread `t`'s collections. -/
def collections (t : Nat) (log : List (Recording.Ev K I (Option P))) : List (Nat × List (Pt K P)) := collectionsFrom t [] log

/-- The calls of `export` that thread `t` made. -/
def startsBy (t : Nat) (l : List (XEv K P)) : List (Nat × List (Pt K P)) :=
  l.filterMap fun | .start u r b => if u = t then some (r, b) else none | _ => none

/-- The calls of the exporter of reader `r` follow each other: each ends, in the thread that made it and with what it was given, before the next begins. `now` is the call under way. -/
def OneByOne [DecidableEq K] [DecidableEq P] (r : Nat) : Option (Nat × List (Pt K P)) → List (XEv K P) → Prop
  | _, [] => True
  | now, .start t r' b :: l => if r' = r then now = none ∧ OneByOne r (some (t, b)) l else OneByOne r now l
  | now, .done t r' b _ :: l => if r' = r then now = some (t, b) ∧ OneByOne r none l else OneByOne r now l

/-- The points of stream `(s, k)`. -/
def ofStream [DecidableEq K] (s : Slot) (k : K) (b : List (Pt K P)) : List P := b.filterMap fun (s', k', p) => if s' = s ∧ k' = k then some p else none

/-- What the exporters were given of stream `(s, k)` in calls that ended with `ok`. -/
def ended [DecidableEq K] (s : Slot) (k : K) (ok : Bool) (l : List (XEv K P)) : List P :=
  l.flatMap fun
    | .done _ _ b ok' => if ok' = ok then ofStream s k b else []
    | _ => []

/-- What the exporters were given of stream `(s, k)`. -/
def given [DecidableEq K] (s : Slot) (k : K) (l : List (XEv K P)) : List P :=
  l.flatMap fun
    | .start _ _ b => ofStream s k b
    | _ => []

/-- A thread with nothing to do. -/
def State.finishedAt (st : State K I P S) (t : Nat) : Prop := (∀ c, st.core.threads[t]? = some c → c = []) ∧ st.phase t = .idle

/-- Every thread has finished. -/
def State.finished (st : State K I P S) : Prop := ∀ t, st.finishedAt t

/-- What thread `t` has taken of stream `(s, k)` and not handed to an exporter yet. -/
def State.holds [DecidableEq K] (st : State K I P S) (s : Slot) (k : K) (t : Nat) : List P :=
  ofStream s k ((match st.phase t with | .took _ b => b | .want _ b => b | _ => []) ++ st.acc t)

/-- Thread `t` has returned from its calls so far. -/
def State.betweenCalls (st : State K I P S) (t : Nat) : Prop := st.phase t = .idle ∧ ∃ cs : List (Call I), st.core.threads[t]? = some (cs.map .call)

/-- A program that collects reader `r`. -/
def collects (r : Nat) (p : List (Call I)) : Prop := ∃ now, Call.collect r now ∈ p

end Measured
end Otel
