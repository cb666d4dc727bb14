import Verif.Model.Globals
/-!
# Programs whose providers can be set
-/
namespace Otel
namespace Globals

/-- The function given to `do_once` does not raise (it cannot for tracers and loggers; for meters it calls the instruments made before). -/
def Calm : Act → Prop
  | .next _ ok => ok = true
  | _ => True

/-- `n` calls of `get_…_provider`, and the first three steps of each. -/
def crowd (n : Nat) : List Act := List.replicate n .get ++ (List.range n).flatMap fun g => [.getNext g true, .getNext g true, .getNext g true]

/-- `n` calls of `get_…_provider`, one after the other, while the provider cannot be loaded. -/
def hopeless (n : Nat) : List Act := (List.range n).flatMap fun g => [.get, .getNext g false, .getNext g false, .getNext g false]

/-- All steps of the `i`-th call of `do_once`, if nothing holds it up. -/
def whole (i : Nat) : List Act := List.replicate 7 (.next i true)

/-- One call of `get_…_provider` from beginning to end, the `g`-th, whose provider is set by the `i`-th call of `do_once`. -/
def loading (g i : Nat) : List Act := [.get, .getNext g true, .getNext g true, .getNext g true] ++ whole i ++ [.getNext g true, .getNext g true]

/-- A provider is set, but making the instruments that were asked for before fails; a call of `get_…_provider` in another thread comes in between; the program then sets another one. -/
def clumsy (m n : Nat) : List Act :=
  [.set m, .next 0 true, .next 0 true, .next 0 true, .next 0 true, .get, .getNext 0 true, .next 0 false, .set n] ++ whole 1 ++ [.get, .getNext 1 true]

end Globals
end Otel
