import Verif.Model.Live
/-!
# C125: vocabulary
-/
namespace Otel
namespace Live
namespace Spec

/-- The attributes after these assignments, one after the other (C14 says what they are). -/
def after (b : BAttrs) (l : List (AKey × Val)) : BAttrs := l.foldl (fun b p => b.setCore p.1 p.2) b

/-- All assignments of the calls that found the span recording, in order. -/
def assignments (s : St) : List (AKey × Val) := s.entered.flatten

/-- The attributes after the first `n` assignments: the states the span goes through, if every assignment were a single step. -/
def stage (b : BAttrs) (s : St) (n : Nat) : BAttrs := after b ((assignments s).take n)

/-- How many steps the `i`-th call of `items()` is given. -/
def turns (i : Nat) (acts : List Act) : Nat := (acts.filter (fun | .next j => j == i | _ => false)).length

/-- No key twice, within the limit. -/
def Sound (b : BAttrs) : Prop := (Dict.keys b.d).Nodup ∧ ∀ n, b.maxlen = some n → b.d.length ≤ n

end Spec
end Live
end Otel
