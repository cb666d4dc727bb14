import Verif.Model.Metrics
import Mathlib.Algebra.BigOperators.Group.List.Basic
import Mathlib.Order.BoundedOrder.Basic
/-!
# What metric points should say
The specification knows nothing of an aggregation's state. A history of measurements and collections is cut at the
collections into *cycles*; a point is a function of the measurements of its cycle (delta) or of all measurements so far
(cumulative).
-/
namespace Otel
namespace Metrics
variable {α : Type}

/-- What happened up to one collection: the interval since the previous collection (or the creation of the stream), the
measurements in that interval, and all measurements since creation. -/
structure Cycle (α : Type) where
  since : Int
  time : Int
  here : List α
  all : List α
deriving DecidableEq

/-- Cut a history at its collections. -/
def cyclesFrom (since : Int) (here all : List α) : List (Op α) → List (Cycle α)
  | [] => []
  | .meas v :: l => cyclesFrom since (here ++ [v]) (all ++ [v]) l
  | .coll t :: l => ⟨since, t, here, all⟩ :: cyclesFrom t [] all l

/-- The cycles of a stream created at `start`. -/
def cycles (start : Int) (l : List (Op α)) : List (Cycle α) := cyclesFrom start [] [] l

/-- All measurements of a history. -/
def measurements : List (Op α) → List α
  | [] => []
  | .meas v :: l => v :: measurements l
  | .coll _ :: l => measurements l

/-- The measurements after the last collection, if `here` came before. -/
def pendingFrom (here : List α) : List (Op α) → List α
  | [] => here
  | .meas v :: l => pendingFrom (here ++ [v]) l
  | .coll _ :: l => pendingFrom [] l

/-- The measurements not yet collected: those after the last collection. -/
def pending (l : List (Op α)) : List α := pendingFrom [] l

/-- Bucket `i` of a histogram with the given boundaries contains `v`: it is above the previous boundary (if any) and at
most the next (if any). -/
def inBucket [LinearOrder α] (bounds : List α) (i : Nat) (v : α) : Prop :=
  (∀ b, 0 < i → bounds[i - 1]? = some b → b < v) ∧ (∀ b, bounds[i]? = some b → v ≤ b)

/-- `m` is the least of the values, `+∞` if there are none. -/
def IsMin [LinearOrder α] (m : WithTop α) (vs : List α) : Prop :=
  (∀ v ∈ vs, m ≤ (v : WithTop α)) ∧ ((vs = [] ∧ m = ⊤) ∨ ∃ v ∈ vs, m = (v : WithTop α))

/-- `m` is the greatest of the values, `-∞` if there are none. -/
def IsMax [LinearOrder α] (m : WithBot α) (vs : List α) : Prop :=
  (∀ v ∈ vs, (v : WithBot α) ≤ m) ∧ ((vs = [] ∧ m = ⊥) ∨ ∃ v ∈ vs, m = (v : WithBot α))

/-- A histogram point describes exactly the measurements `vs`. -/
structure Describes [AddCommMonoid α] [LinearOrder α] (p : HistPoint α) (bounds : List α) (mm : Bool) (vs : List α) : Prop where
  bounds_eq : p.bounds = bounds
  one_more : p.buckets.length = bounds.length + 1
  bucket : ∀ i, i ≤ bounds.length → ∀ (d : DecidablePred (inBucket bounds i)), p.buckets[i]? = some (vs.countP (fun v => decide (inBucket bounds i v)))
  total : p.buckets.sum = p.count
  count_eq : p.count = vs.length
  sum_eq : p.sum = vs.sum
  min_eq : if mm then IsMin p.min vs else p.min = ⊤
  max_eq : if mm then IsMax p.max vs else p.max = ⊥

end Metrics
end Otel
