import Verif.Model.Span
import Verif.Spec.Attributes
/-!
# What a span must look like after a history of calls, independently of the model's state
-/
namespace Otel
namespace Spec
open Span

/-- The calls that reach a span while it records: everything before the first `end` that follows a `start`.
(`end` before `start` raises and is no end.) The first argument says whether the span was already started. -/
def recorded : Bool → List Step → List Step
  | _, [] => []
  | _, .start t :: r => .start t :: recorded true r
  | true, .end_ _ :: _ => []
  | b, s :: r => s :: recorded b r

/-- The time given to the first `end` that follows a `start`. -/
def firstEnd : Bool → List Step → Option Int
  | _, [] => none
  | _, .start _ :: r => firstEnd true r
  | true, .end_ t :: _ => some t
  | b, _ :: r => firstEnd b r

/-- The time given to the first `start`. -/
def firstStart : List Step → Option Int
  | [] => none
  | .start t :: _ => some t
  | _ :: r => firstStart r

/-- The statuses asked for, in order; `set_status(UNSET)` and a non-status argument ask for nothing. -/
def requestedStatuses : List Step → List Status
  | [] => []
  | .setStatus (.obj c d) :: r => if c = .unset then requestedStatuses r else Status.make c d :: requestedStatuses r
  | .setStatus (.code c d) :: r => if c = .unset then requestedStatuses r else Status.make c d :: requestedStatuses r
  | _ :: r => requestedStatuses r

/-- The first OK wins for good; without one, the last request wins; without any, UNSET. -/
def winningStatus (l : List Status) : Status :=
  match l.find? (fun s => s.code = .ok) with
  | some s => s
  | none => l.getLast?.getD ⟨.unset, none⟩

/-- The attribute assignments made by the calls, in order. -/
def givenAttributes (l : List Step) : List (AKey × Val) :=
  l.flatMap fun | .setAttributes a => a | _ => []

/-- The events given (`record_exception` gives an event named `exception`). -/
def givenEvents (l : List Step) : List (Str × RawAttrs × Int) :=
  l.filterMap fun
    | .addEvent n a ts => some (n, a, ts)
    | .recordException e a ts esc => some ("exception".toList, excAttrs e a esc, ts)
    | _ => none

/-- A link counts when its context is valid, or it has attributes or trace state (and a context at all). -/
def validLink (l : Option SpanContext × RawAttrs) : Option (SpanContext × RawAttrs) :=
  match l with
  | (some c, a) => if c.isValid = true ∨ a ≠ [] ∨ c.traceState ≠ [] then some (c, a) else none
  | (none, _) => none

/-- The links given. -/
def givenLinks (l : List Step) : List (SpanContext × RawAttrs) :=
  l.filterMap fun
    | .addLink c a => validLink (c, a)
    | _ => none

/-- The name given last. -/
def lastName (n : Str) (l : List Step) : Str :=
  l.foldl (fun n s => match s with | .updateName m => m | _ => n) n

end Spec
end Otel
