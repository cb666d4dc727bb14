import Verif.Model.Lifecycles
/-!
# C129: vocabulary
-/
namespace Otel
namespace Lifecycles
namespace Spec
variable {P : Type}

/-- The span of an event. -/
def Ev.span : Ev P → Nat
  | .started s _ => s
  | .ended s _ => s

/-- What the processors are told about a span, in order. -/
def about (sp : Nat) (log : List (Ev P)) : List (Ev P) := log.filter (fun e => Ev.span e = sp)

/-- Who is told that the span started, in order. -/
def starts (sp : Nat) : List (Ev P) → List P
  | [] => []
  | .started s p :: l => if s = sp then p :: starts sp l else starts sp l
  | .ended _ _ :: l => starts sp l

/-- Who is told that the span ended, in order. -/
def ends (sp : Nat) : List (Ev P) → List P
  | [] => []
  | .ended s p :: l => if s = sp then p :: ends sp l else ends sp l
  | .started _ _ :: l => ends sp l

/-- `start_span` has returned the span. -/
def HasStarted (s : St P) (sp : Nat) : Prop := s.calls[sp]? = some ⟨none, .ret⟩

/-- `start_span` has raised. -/
def StartRaised (s : St P) (sp : Nat) : Prop := s.calls[sp]? = some ⟨none, .raised⟩

/-- The call `j` is a call of `end` on the span, and is there. -/
def Ending (s : St P) (j sp : Nat) (pc : PC P) : Prop := s.calls[j]? = some ⟨some sp, pc⟩

end Spec
end Lifecycles
end Otel
