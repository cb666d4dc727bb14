import Verif.Model.Intervals
/-!
# When streams were opened and collected
-/
namespace Otel
namespace Intervals
variable {K : Type} [DecidableEq K]

/-- The reading of the clock when stream `k` was created. -/
def opened (k : K) (l : List (Ev K)) : Option Int := l.findSome? fun | .created k' _ s => if k' = k then some s else none | _ => none
/-- The times of the collections that have visited stream `k`, in order. -/
def visits (k : K) (l : List (Ev K)) : List Int := l.filterMap fun | .collected _ k' now _ => if k' = k then some now else none | _ => none
/-- The points of stream `k`, in the order they were made. -/
def points (k : K) (l : List (Ev K)) : List Point := l.filterMap fun | .collected _ k' _ (some p) => if k' = k then some p else none | _ => none
/-- The clock is never set back. -/
def Steady (sched : List Move) : Prop := ∀ d, Move.tick d ∈ sched → 0 ≤ d
/-- An observable instrument: only callbacks make measurements. -/
def Observable (progs : List (List (Call K))) : Prop := ∀ p ∈ progs, ∀ k, Call.record k ∉ p
/-- Thread `t` is in the middle of a collection: it has read the clock for it, and not returned. -/
def Reading (t : Nat) (now : Int) (l a1 a2 : List (Ev K)) : Prop := l = a1 ++ .read t now :: a2 ∧ .ended t ∉ a2

/-- A stream's history: measurements and collections, one after the other. It ends with an aggregation; the points come in order. -/
def history (inst coll : Metrics.Temporality) (start : Int) (h : List (Meas ⊕ Int)) : Agg × List Point :=
  h.foldl (fun s e => match e with
    | .inl x => (s.1.aggregate x, s.2)
    | .inr now => ((s.1.collect inst coll now).2, s.2 ++ (s.1.collect inst coll now).1.toList)) (Agg.new start, [])
/-- The measurements of a history. -/
def measured (h : List (Meas ⊕ Int)) : List Meas := h.filterMap Sum.getLeft?

end Intervals
end Otel
