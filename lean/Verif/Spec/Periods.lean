import Verif.Model.Periods
/-!
# Specification of C120
-/
namespace Otel
namespace Periods
variable {σ : Type}

/-- The measurements made in a run, in order, each with the time of the clock when it was made. -/
def Spec.made (c : Cfg) (acts : List (Act σ)) : List (Item σ) :=
  (List.range acts.length).filterMap fun k =>
    match acts[k]? with
    | some (Act.record x) => some ⟨x, (run c (acts.take k)).now⟩
    | _ => none

/-- The callbacks of a collection never take as long as either timeout. -/
def Spec.InTime (c : Cfg) : Prop := c.callbacks = true → c.slow < c.timeout ∧ c.slow < c.interval

/-- The time a collection and its export may take. -/
def Spec.cycle (c : Cfg) : Nat := c.slow + c.send

/-- A second. -/
def sec : Nat := 1000000000

/-- The time readers take that are given these times (`none`: not told). -/
def Spec.spent (readers : List (Nat → Nat)) (given : List (Option Nat)) : Nat := ((readers.zip given).map fun p => p.2.elim 0 p.1).sum

end Periods
end Otel
