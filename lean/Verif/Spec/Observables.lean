import Verif.Model.Observables
/-!
# C128: vocabulary
-/
namespace Otel
namespace Observables
namespace Spec
variable {K C : Type} [DecidableEq K]

/-- The call `i` has returned an instrument. -/
def Returned (s : St K C) (i : Nat) (key : K) (cbs : List C) : Prop := ∃ v n, s.calls[i]? = some ⟨key, v, cbs, .ret n⟩

/-- The call `i` is made, with this identity and these callbacks. -/
def Made (s : St K C) (i : Nat) (key : K) (cbs : List C) : Prop := ∃ v pc, s.calls[i]? = some ⟨key, v, cbs, pc⟩

/-- What the collections of `acts'` run, after `acts`. -/
def later (acts acts' : List (Act K C)) : List (List (Nat × List C)) := (run (acts ++ acts')).log.drop (run acts).log.length

end Spec
end Observables
end Otel
