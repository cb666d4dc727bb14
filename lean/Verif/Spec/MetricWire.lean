import Verif.Model.MetricWire
import Verif.Spec.Measured
/-!
# What a collector reads
-/
namespace Otel
namespace MetricWire
open Recording (Slot)
open Measured (Pt XEv)
open Otlp (PBMetric PBData PB)
variable {σ K : Type}

/-- The values of the points of a sum whose attributes are the ones looked for. -/
def values (f : List (Str × Option PB) → Bool) : PBData → List Int
  | .sum _ _ pts => pts.filterMap fun p => if f p.head.attrs then (match p.value with | .int i => some i | .float _ => none) else none
  | _ => []

/-- What a request says of the counter with this scope and name, for the attributes looked for. -/
def readings [DecidableEq σ] (scope : σ) (name : Str) (f : List (Str × Option PB) → Bool) (req : List (σ × List PBMetric)) : List Int :=
  req.flatMap fun g => if g.1 = scope then g.2.flatMap fun m => if m.name = name then values f m.data else [] else []

/-- In this collection no other metric has the scope and name of stream set `s`, and `f` recognises the encoded attributes of `k` among those of its streams. -/
def Distinct (d : Desc σ K) (f : List (Str × Option PB) → Bool) (s : Slot) (k : K) (b : List (Pt K (Metrics.NumPoint Int))) : Prop :=
  ∀ q ∈ b, (d.scope q.1 = d.scope s → d.name q.1 = d.name s → q.1 = s) ∧ (f (Otlp.encodeAttributes (d.attrs q.2.1)) = true ↔ q.2.1 = k)

/-- An `int` that protobuf can hold. -/
def Int64 (i : Int) : Prop := -(2 ^ 63) ≤ i ∧ i < 2 ^ 63

/-- All values of a collection fit. -/
def Fits (b : List (Pt K (Metrics.NumPoint Int))) : Prop := ∀ q ∈ b, Int64 q.2.2.value

instance (b : List (Pt K (Metrics.NumPoint Int))) : Decidable (Fits b) := by unfold Fits Int64; infer_instance

/-- What the exporter of reader `s.r` was given of stream `(s, k)` and the server did not accept: the server did not accept the request, or there was none, because some value of the collection, of whatever
stream, does not fit. -/
def lost [DecidableEq K] (s : Slot) (k : K) (l : List (XEv K (Metrics.NumPoint Int))) : List (Metrics.NumPoint Int) :=
  l.flatMap fun
    | .done _ r b ok => if r = s.r ∧ (ok = false ∨ ¬ Fits b) then Measured.ofStream s k b else []
    | _ => []

end MetricWire
end Otel
