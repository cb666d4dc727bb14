import Verif.Model.Storage
import Mathlib.Data.Finset.Option
/-!
# C127: vocabulary
-/
namespace Otel
namespace Footprint
open Metrics
variable {α : Type}

/-- The elements of a list, each once, in the order of their first occurrences. -/
def firsts {K : Type} [DecidableEq K] (l : List K) : List K := l.foldl (fun acc k => if k ∈ acc then acc else acc ++ [k]) []

/-- The measurements that are made for reader `r`: those of synchronous instruments, and what the callbacks observe in its own collections. -/
def arrivals (r : Nat) : List (COp α) → List (Instr α × Meas α)
  | [] => []
  | .measure i m :: h => (i, m) :: arrivals r h
  | .collect r' obs _ _ :: h => (if r' = r then obs else []) ++ arrivals r h

/-- The attributes of the measurements of instrument `i` that a view keeps, as sets. -/
def setsOf [DecidableEq (Instr α)] (w : View α) (i : Instr α) (l : List (Instr α × Meas α)) : List StreamKey :=
  (l.filter (fun e => decide (e.1 = i))).filterMap (fun e => streamKey (restrict w.keys (e.2.attrs.getD [])))

/-- What a storage holds: for each instrument and each view applied to it, the attribute sets for which there is a stream. -/
def held (s : StorageState α) : List (Instr α × List (View α × List StreamKey)) :=
  s.map (fun x => (x.1, x.2.2.map (fun m => (m.view, m.dict.map (·.1)))))

/-- All streams of a storage. -/
def allStreams (s : StorageState α) : List (Instr α × View α × StreamKey) :=
  (held s).flatMap (fun x => x.2.flatMap (fun v => v.2.map (fun k => (x.1, v.1, k))))

/-- All data points of a collected batch. -/
def points (d : Option (List (ScopeId × List (Metric α)))) : List (DataPoint α) := (d.getD []).flatMap (fun g => g.2.flatMap (·.points))

/-- No measurement has an attribute value that cannot be hashed, as far as the views keep it. -/
def AllAccepted (sdk : Sdk α) (h : List (COp α)) : Prop :=
  ∀ r, ∀ e ∈ arrivals r h, raises sdk e.1 e.2 = false

/-- The attribute sets that have no keys but those of `ks`, at most one value for each, from `V`. -/
def Within (ks : Finset Str) (V : Str → Finset CVal) (a : StreamKey) : Prop :=
  (∀ x ∈ a, x.1 ∈ ks ∧ x.2 ∈ V x.1) ∧ ∀ x ∈ a, ∀ y ∈ a, x.1 = y.1 → x.2 = y.2

/-- A measurement of 1 with the attribute `id = k`. -/
def withId (k : Nat) : Meas Int := ⟨k, some [("id".toList, .atom (.int k))], 1⟩

/-- A program that counts something with a fresh id, over and over, with a collection by each of `m` readers after every measurement. -/
def freshIds (i : Instr Int) (m n : Nat) : List (COp Int) :=
  (List.range n).flatMap (fun k => COp.measure i (withId k) :: (List.range m).map (fun r => COp.collect r [] false k))

end Footprint
end Otel
