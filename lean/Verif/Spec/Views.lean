import Verif.Model.Storage
/-!
# What a stream is, stated on the history of an instrument
-/
namespace Otel
namespace Metrics
variable {α : Type} [AddCommGroup α] [LinearOrder α]

/-- Two attribute values are equal in Python. -/
def PyEq (v w : MVal) : Prop :=
  match v, w with
  | .atom a, .atom b => a.canon = b.canon
  | .tuple a, .tuple b => a.map MAtom.canon = b.map MAtom.canon
  | .list a, .list b => a.map MAtom.canon = b.map MAtom.canon
  | _, _ => False

/-- Two dicts are equal in Python: the same keys with equal values. -/
def DictEq (a b : MAttrs) : Prop :=
  (∀ k v, (k, v) ∈ a → ∃ w, (k, w) ∈ b ∧ PyEq v w) ∧ (∀ k v, (k, v) ∈ b → ∃ w, (k, w) ∈ a ∧ PyEq v w)

/-- No attribute value is unhashable. -/
def Hashable (a : MAttrs) : Prop := ∀ kv ∈ a, ∀ l, kv.2 ≠ MVal.list l

/-- The attributes a measurement keeps under a view. -/
def kept (w : View α) (a : Option MAttrs) : MAttrs := restrict w.keys (a.getD [])

open Classical in
/-- What a call on a stream set means to the stream of the attributes `a`: nothing if it measures other attributes. -/
noncomputable def opOf (w : View α) (a : MAttrs) : MatchOp α → Option (Op α)
  | .measure _ b v => if DictEq (kept w b) a then some (.meas v) else none
  | .coll t => some (.coll t)

open Classical in
/-- The call is a measurement with attributes equal to `a`; its time and attributes as given. -/
noncomputable def firstOf (w : View α) (a : MAttrs) : MatchOp α → Option (Int × MAttrs)
  | .measure now b _ => if DictEq (kept w b) a then some (now, kept w b) else none
  | .coll _ => none

/-- The history of one stream: from the first measurement whose kept attributes equal `a` on, the measurements with those
attributes and all collections. -/
noncomputable def streamHistory (w : View α) (a : MAttrs) (h : List (MatchOp α)) : List (Op α) :=
  (h.dropWhile (fun o => (firstOf w a o).isNone)).filterMap (opOf w a)

/-- The first measurement with those attributes: its time and its kept attributes as given. -/
noncomputable def firstWith (w : View α) (a : MAttrs) (h : List (MatchOp α)) : Option (Int × MAttrs) :=
  h.findSome? (firstOf w a)

/-- An aggregation on its own. -/
def aggM (c : AggConf α) (dflt : List α) (i : Instr α) (t : Temporality) (start : Int) : Machine α (Pt α) :=
  { S := Agg α, init := c.create dflt i start, aggregate := Agg.aggregate, collect := fun s now => s.collect t now }

/-! ## Which aggregation a stream gets, by the documentation -/

/-- The aggregation of a stream. -/
inductive Shape (α : Type) where
  | sum (monotonic : Bool)
  | last
  | drop
  | hist (bounds : List α) (recordMinMax : Bool)

/-- The documented default: sums for counters and up-down counters (monotonic for counters), an explicit-bucket histogram with the
advised or default boundaries, last values for gauges. -/
def Shape.ofKind (dflt : List α) (i : Instr α) : Shape α :=
  match i.kind with
  | .counter | .obsCounter => .sum true
  | .upDown | .obsUpDown => .sum false
  | .histogram => .hist (i.advisory.getD dflt) true
  | .gauge | .obsGauge => .last

/-- An explicitly chosen aggregation. -/
def Shape.ofConf (dflt : List α) (i : Instr α) : AggConf α → Shape α
  | .default => .ofKind dflt i
  | .sum => .sum (decide (i.kind = .counter ∨ i.kind = .obsCounter))
  | .last => .last
  | .drop => .drop
  | .hist b mm => .hist b mm

/-- The view's choice, else the reader's for this kind of instrument, else the default for the kind. -/
def Shape.of (dflt : List α) (view : AggConf α) (reader : AggConf α) (i : Instr α) : Shape α :=
  if view = .default then .ofConf dflt i reader else .ofConf dflt i view

/-- Observations are running totals; synchronous measurements are increments. -/
def inputOf (k : Kind) : Temporality :=
  if k = .obsCounter ∨ k = .obsUpDown ∨ k = .obsGauge then .cumulative else .delta

/-- Relabel what a machine returns. -/
def Machine.mapOut {P Q : Type} (f : P → Q) (m : Machine α P) : Machine α Q :=
  { S := m.S, init := m.init, aggregate := m.aggregate, collect := fun s t => ((m.collect s t).1.map f, (m.collect s t).2) }

/-- The stream of a shape on its own (the machines of C29–C31). -/
def Shape.machine (k : Kind) (t : Temporality) (start : Int) : Shape α → Machine α (Pt α)
  | .sum _ => (sumM (inputOf k) t start).mapOut .num
  | .last => (lastM t).mapOut .num
  | .drop => (dropM).mapOut .num
  | .hist b mm => (histM (inputOf k) t start b mm).mapOut .hist

/-- The metric data of a shape. -/
def Shape.data (t : Temporality) : Shape α → Option MData
  | .sum m => some (.sum t m)
  | .last => some .gauge
  | .drop => none
  | .hist _ _ => some (.hist t)

end Metrics
end Otel
