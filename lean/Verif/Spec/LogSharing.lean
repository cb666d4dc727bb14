import Verif.Model.LogSharing
/-!
# C130: vocabulary
-/
namespace Otel
namespace LogSharing
namespace Spec
variable {V : Type}

/-- The content `v` after the changes made by these processors, one after the other. -/
def changed (v : V) : List (Proc V) → V
  | [] => v
  | .edit f :: l => changed (f v) l
  | _ :: l => changed v l

/-- The contents of the record `r` that the `k`th processor exported, oldest first. -/
def got (k r : Nat) (exports : List (Nat × Nat × V)) : List V :=
  (exports.filter (fun e => e.1 = k ∧ e.2.1 = r)).map (fun e => e.2.2)

/-- The application does not change the record `r`. -/
def Unchanged (r : Nat) (acts : List (Act V)) : Prop := ∀ f, Act.change r f ∉ acts

/-- The `emit` of the record `r` has returned. -/
def Emitted (procs : List (Proc V)) (s : St V) (r : Nat) : Prop := ∃ v, s.recs[r]? = some ⟨v, procs.length⟩

end Spec
end LogSharing
end Otel
