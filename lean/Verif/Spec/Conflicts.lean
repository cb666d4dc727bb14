import Verif.Model.Conflicts
/-!
# Specification of C121
-/
namespace Otel
namespace Conflicts
open Metrics
variable {α : Type}

/-- What a metric stream looks like to a backend: its name, unit and kind of data (for sums with monotonicity and the instrument's temporality). -/
structure Spec.Identity where
  name : Str
  unit : Str
  data : Cls
deriving DecidableEq

/-- The name a stream is reported under: the view's, if it has one that is not empty, else the instrument's. -/
def Spec.nameOf (s : Stream α) : Str := (s.view.name.filter (· ≠ [])).getD s.instr.name

def Spec.identity (table : Kind → AggConf α) (s : Stream α) : Spec.Identity := ⟨Spec.nameOf s, s.instr.unit, s.cls table⟩

/-- What kind of data an aggregation reports. -/
def Spec.dataOf (monotonic : Bool) : Agg α → Cls
  | .drop => .drop
  | .last _ => .last
  | .sum a => .sum monotonic a.inst
  | .hist _ => .hist

/-- The streams an instrument feeds: one for each view that matches and fits, or a default one. -/
def Spec.streamsOf (fnm : Str → Str → Bool) (views : List (View α)) (i : Instr α) : List (Stream α) := (viewsFor fnm views i).map (⟨·, i⟩)

/-- The instrument feeds a stream through this view, which is among the provider's. -/
def Spec.Viewed (fnm : Str → Str → Bool) (views : List (View α)) (s : Stream α) : Prop :=
  s.view ∈ views ∧ s.view.matches fnm s.instr = true ∧ s.view.compatible s.instr = true

/-- Instruments are objects. -/
def Spec.Objects (is : List (Instr α)) : Prop := ∀ i ∈ is, ∀ j ∈ is, i.id = j.id → i = j

/-- `i` was measured before `j`. -/
def Spec.Before (is : List (Instr α)) (i j : Instr α) : Prop := ∃ pre post, is = pre ++ j :: post ∧ i ∈ pre ∧ j ∉ pre

end Conflicts
end Otel
