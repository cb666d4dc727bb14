import Verif.Model.InMemory
/-!
# What `get_metrics_data` returned
-/
namespace Otel
namespace InMemory
variable {M : Type}

/-- All the data that `get_metrics_data` returned, in order. -/
def returned (l : List (Ev M)) : List M := l.flatMap fun | .got _ (some d) => d | _ => []
/-- All the data that were overwritten before anybody could see them. -/
def lost (l : List (Ev M)) : List M := l.flatMap fun | .overwritten d => d | _ => []
/-- The measurements that no collection has read yet. -/
def St.pending (st : St M) : List M := st.all.drop st.border
/-- No call is in progress. -/
def St.quiet (st : St M) : Prop := st.waiting = [] ∧ st.getter = none ∧ st.flushing = []
/-- Nobody calls `force_flush`. -/
def NoFlush (l : List (Act M)) : Prop := ∀ a ∈ l, ∀ b, a ≠ .flush b
/-- A call of `get_metrics_data` from beginning to end, undisturbed. -/
def getCall : List (Act M) := [.get, .lock 0, .go false, .go false, .go false]
/-- A call of `force_flush` from beginning to end, undisturbed. -/
def flushCall : List (Act M) := [.flush false, .store 0]

end InMemory
end Otel
