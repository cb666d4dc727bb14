import Verif.Model.Storage
/-!
# Instruments
Models the instrument methods of `opentelemetry-sdk/src/opentelemetry/sdk/metrics/_internal/instrument.py`, the loop over asynchronous
instruments of `measurement_consumer.py`, and how `ExplicitBucketHistogramAggregation` chooses its boundaries (aggregation.py).
-/
namespace Otel
namespace Metrics
variable {α : Type}

/-- The method of a synchronous instrument: `Counter.add` (instrument.py:160–180), `UpDownCounter.add` (189–204), `Histogram.record`
(251–272), `Gauge.set` (281–297): the measurement handed to the consumer, or `none` if the amount is refused (a warning is logged).
Amounts are linearly ordered, so NaN (which is not refused) is excluded. -/
def instrCall [Zero α] [LinearOrder α] (k : Kind) (amount : α) : Option α :=
  match k with
  | .counter => if amount < 0 then none else some amount
  | .histogram => if amount < 0 then none else some amount
  | _ => some amount

/-- A call a program makes: on a synchronous instrument, or a reader's collection. -/
inductive UCall (α : Type) where
  | call (i : Instr α) (now : Int) (attrs : Option MAttrs) (amount : α)
  | collect (r : Nat) (obs : List (Instr α × Meas α)) (timeout : Bool) (now : Int)

/-- What reaches the measurement consumer. -/
def UCall.op [Zero α] [LinearOrder α] : UCall α → Option (COp α)
  | .call i now attrs amount => (instrCall i.kind amount).map (fun v => .measure i ⟨now, attrs, v⟩)
  | .collect r obs timeout now => some (.collect r obs timeout now)

/-! ## Asynchronous instruments -/

/-- What one run of a user callback does: the observations it yields, then it raises or not. A generator given as callback yields nothing
once it is exhausted (instrument.py:116–133). -/
structure CallbackRun (α : Type) where
  obs : List (Meas α)
  raises : Bool

/-- `_Asynchronous.callback` (instrument.py:135–151): everything it yields, and how many failures it logs. An exception ends the loop over
that callback's observations only. -/
def callbackRun : List (CallbackRun α) → List (Meas α) × Nat
  | [] => ([], 0)
  | c :: l =>
    let r := callbackRun l
    if c.raises then (c.obs ++ r.1, r.2 + 1) else (c.obs ++ r.1, r.2)

/-- One asynchronous instrument in a collection: the clock when its turn comes, and what its callbacks do. The generator is advanced
only after the deadline has been checked. -/
structure AsyncTurn (α : Type) where
  instr : Instr α
  clock : Int
  callbacks : List (CallbackRun α)

/-- The loop over the asynchronous instruments of `SynchronousMeasurementConsumer.collect` (measurement_consumer.py:116–141), if no
observation is refused: what is observed, and whether `MetricsTimeoutError` is raised. -/
def gather (deadline : Int) : List (AsyncTurn α) → List (Instr α × Meas α) × Bool
  | [] => ([], false)
  | t :: l =>
    if t.clock ≥ deadline then ([], true)
    else ((callbackRun t.callbacks).1.map (t.instr, ·) ++ (gather deadline l).1, (gather deadline l).2)

/-! ## Boundaries of explicit-bucket histograms -/

/-- `ExplicitBucketHistogramAggregation` as an object: its `_boundaries` (aggregation.py:1365–1371). -/
structure Sticky (α : Type) where
  boundaries : Option (List α)

/-- `a or b` for an optional list: `None` and the empty list are falsy. -/
def orList (a : Option (List α)) (b : List α) : List α :=
  match a with
  | some (x :: l) => x :: l
  | _ => b

/-- `_create_aggregation` (aggregation.py:1373–1403): the boundaries of the aggregation created, and the object afterwards. `none` is
`AttributeError`: only histograms have `_advisory`. -/
def Sticky.create (dflt : List α) (s : Sticky α) (i : Instr α) : Option (List α) × Sticky α :=
  match s.boundaries with
  | some b => (some b, s)
  | none =>
    match i.kind with
    | .histogram => (some (orList i.advisory dflt), ⟨some (orList i.advisory dflt)⟩)
    | _ => (none, s)

/-- Aggregations created one after the other, for streams of the given instruments. -/
def Sticky.creates (dflt : List α) : Sticky α → List (Instr α) → List (Option (List α))
  | _, [] => []
  | s, i :: l => (s.create dflt i).1 :: Sticky.creates dflt (s.create dflt i).2 l

end Metrics
end Otel
