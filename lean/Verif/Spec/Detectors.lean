import Verif.Model.Detectors
/-!
# What detectors detect
-/
namespace Otel
namespace Detectors

/-- What a detector gives if it is given the time it takes. -/
def Detector.result (d : Detector) : Resource.Detected :=
  match d.answer with
  | some r => .ok r
  | none => .fails d.raiseOnError

/-- A detector whose `detect` returns `r` after that time. -/
def quick (takes : WithTop Nat) (r : Resource) : Detector := ⟨false, takes, some r⟩

end Detectors
end Otel
