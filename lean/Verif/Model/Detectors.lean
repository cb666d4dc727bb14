import Verif.Model.Resource
import Mathlib.Algebra.Order.Monoid.WithTop
import Mathlib.Algebra.Order.Group.Nat
/-!
# Resource detectors in a thread pool
Models `get_aggregated_resources` (`opentelemetry-sdk/src/opentelemetry/sdk/resources/__init__.py` 497–541) in time: the detectors
run in a `ThreadPoolExecutor(max_workers=4)`, and each one is awaited for at most `timeout`. Module `Resource` has the merging (`aggregate`).

Times are natural numbers, 0 is the call; `⊤` is never. Submitting, taking a task and merging take no time.
-/
namespace Otel
namespace Detectors
open Resource (Detected)

/-- A detector: `raise_on_error`, how long `detect` takes, and the resource it returns, or none if it raises an exception. -/
structure Detector where
  raiseOnError : Bool
  takes : WithTop Nat
  answer : Option Resource

/-- When the first worker is free. -/
def earliest (free : List (WithTop Nat)) : WithTop Nat := free.foldr min ⊤

/-- When the detectors finish (513–514): they are submitted in order, all at once, and the worker that is free first takes the next one. -/
def finishes (free : List (WithTop Nat)) : List Detector → List (WithTop Nat)
  | [] => []
  | d :: l =>
    (earliest free + d.takes) :: finishes (free.erase (earliest free) ++ [earliest free + d.takes]) l

/-- The loop over the futures (515–539), begun at time `now`: what `future.result(timeout)` gives for each detector, and when the loop is over if no
exception leaves it. A detector that is not finished in time counts as failed. -/
def await (timeout : Nat) : Nat → List (Detector × WithTop Nat) → List Detected × Nat
  | now, [] => ([], now)
  | now, (d, f) :: l =>
    if f ≤ ((now + timeout : Nat) : WithTop Nat) then
      ((match d.answer with
        | some r => Detected.ok r
        | none => .fails d.raiseOnError) :: (await timeout (max now (f.untopD 0)) l).1, (await timeout (max now (f.untopD 0)) l).2)
    else (.fails d.raiseOnError :: (await timeout (now + timeout) l).1, (await timeout (now + timeout) l).2)

/-- When the last of them is finished: leaving the `with` block waits for all of them (`Executor.__exit__` calls `shutdown(wait=True)`),
whether an exception leaves it or not. -/
def allDone (fs : List (WithTop Nat)) : WithTop Nat := fs.foldr max 0

/-- What awaiting each of the detectors gives. -/
def outcomes (timeout : Nat) (ds : List Detector) : List Detected := (await timeout 0 (ds.zip (finishes [0, 0, 0, 0] ds))).1

/-- `get_aggregated_resources`: the resource, or none for an exception, and when it returns or raises: when the loop is over and all detectors are
finished. (A loop that an exception leaves is over earlier, which makes no difference: `C110_returns`.) -/
def detect (timeout : Nat) (initial : Resource) (ds : List Detector) : Option Resource × WithTop Nat :=
  (Resource.aggregate initial (outcomes timeout ds),
    max ((await timeout 0 (ds.zip (finishes [0, 0, 0, 0] ds))).2 : WithTop Nat) (allDone (finishes [0, 0, 0, 0] ds)))

end Detectors
end Otel
