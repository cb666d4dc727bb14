import Verif.Model.NonFinite
import Verif.Spec.Metrics
import Verif.Spec.ExpHist
/-!
# What points should say when measurements may be NaN or infinite
-/
namespace Otel
namespace Metrics

/-- The finite part of a number. -/
def Fl.part : Fl → ℚ
  | .fin q => q
  | _ => 0

/-- `x` is the IEEE total of the values, whatever the order they are added in. -/
def IsTotal (vs : List Fl) (x : Fl) : Prop :=
  (.nan ∈ vs ∨ (.pinf ∈ vs ∧ .ninf ∈ vs) → x = .nan) ∧
  (.nan ∉ vs → .pinf ∈ vs → .ninf ∉ vs → x = .pinf) ∧
  (.nan ∉ vs → .ninf ∈ vs → .pinf ∉ vs → x = .ninf) ∧
  (.nan ∉ vs → .pinf ∉ vs → .ninf ∉ vs → x = .fin (vs.map Fl.part).sum)

/-- A finite number below zero, or minus infinity. -/
def Negative (v : Fl) : Prop := v = .ninf ∨ ∃ q : ℚ, q < 0 ∧ v = .fin q

/-- Bucket `i` is where `v` goes: a NaN into the lowest, any other number into the bucket whose interval contains it. -/
def InBucketF (bounds : List Fl) (i : Nat) (v : Fl) : Prop :=
  (v = .nan ∧ i = 0) ∨
  (v ≠ .nan ∧ (∀ b, 0 < i → bounds[i - 1]? = some b → Fl.lt b v = true) ∧ (∀ b, bounds[i]? = some b → Fl.lt v b = true ∨ v = b))

/-- `m` is the least value that is a number, `inf` if there is none. -/
def IsLeastF (m : Fl) (vs : List Fl) : Prop :=
  m ≠ .nan ∧ (∀ v ∈ vs, v ≠ .nan → m = v ∨ Fl.lt m v = true) ∧ (m = .pinf ∨ m ∈ vs)

/-- `m` is the greatest value that is a number, `-inf` if there is none. -/
def IsGreatestF (m : Fl) (vs : List Fl) : Prop :=
  m ≠ .nan ∧ (∀ v ∈ vs, v ≠ .nan → m = v ∨ Fl.lt v m = true) ∧ (m = .ninf ∨ m ∈ vs)

/-- Boundaries that are numbers, in order. -/
def OkBounds (bounds : List Fl) : Prop := .nan ∉ bounds ∧ bounds.Pairwise (fun a b => a = b ∨ Fl.lt a b = true)

/-- A histogram point describes exactly the measurements `vs`. -/
structure DescribesF (p : HistPointF) (bounds : List Fl) (mm : Bool) (vs : List Fl) : Prop where
  bounds_eq : p.bounds = bounds
  one_more : p.buckets.length = bounds.length + 1
  bucket : ∀ i, i ≤ bounds.length → ∀ (d : DecidablePred (InBucketF bounds i)),
    p.buckets[i]? = some (vs.countP (fun v => decide (InBucketF bounds i v)))
  total : p.buckets.sum = p.count
  count_eq : p.count = vs.length
  sum_eq : IsTotal vs p.sum
  min_eq : if mm then IsLeastF p.min vs else p.min = .pinf
  max_eq : if mm then IsGreatestF p.max vs else p.max = .ninf

namespace Exp

/-- A magnitude the exponential histogram can place: a positive finite double, or infinity. -/
def Placeable : Mag → Prop
  | .fin bits => PosDouble bits
  | .inf => True
  | .nan => False

/-- The magnitude of a measurement that is not zero. -/
def Meas.mag? : Meas → Option Mag
  | .zero => none
  | .pos m => some m
  | .neg m => some m

/-- The magnitudes of the positive measurements. -/
def posMags (vs : List Meas) : List Mag := vs.filterMap (fun v => match v with | .pos m => some m | _ => none)

/-- The magnitudes of the negative measurements (among them, for the code, NaN). -/
def negMags (vs : List Meas) : List Mag := vs.filterMap (fun v => match v with | .neg m => some m | _ => none)

/-- Record a sequence of measurements: the state afterwards, and whether some call raised. -/
def CurF.records (R : Nat → ℚ) : CurF → List Meas → CurF × Bool
  | c, [] => (c, false)
  | c, v :: vs =>
    let r := c.aggregate R v
    let r' := CurF.records R r.1 vs
    (r'.1, r.2 || r'.2)

/-- A new aggregation: empty buckets, at scale `s`. -/
def CurF.new (maxSize : Nat) (s : Int) : CurF :=
  { maxSize := maxSize, mapScale := s, pos := Buckets.new, neg := Buckets.new, count := 0, zeroCount := 0 }

/-- The same with the signs of all measurements changed. -/
def CurF.mirror (c : CurF) : CurF := { c with pos := c.neg, neg := c.pos }

end Exp
end Metrics
end Otel
