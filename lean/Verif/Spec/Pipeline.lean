import Verif.Spec.Views
/-!
# What a reader's collections should report, stated on the calls alone
-/
namespace Otel
namespace Metrics
variable {α : Type} [AddCommGroup α] [LinearOrder α]

/-- What reaches a reader: a measurement of an instrument, or a completed collection at a time. -/
inductive Arrival (α : Type) where
  | meas (i : Instr α) (m : Meas α)
  | coll (now : Int)

/-- What a call brings to reader `r`: every synchronous measurement; and for its own collections the observations of the
callbacks, then the collection itself unless it was given up. -/
def arrivals (r : Nat) : COp α → List (Arrival α)
  | .measure i m => [.meas i m]
  | .collect r' obs timeout now =>
    if r' = r then obs.map (fun o => .meas o.1 o.2) ++ (if timeout then [] else [.coll now]) else []

/-- The history of one instrument: its own measurements, and the collections. -/
def historyOf (i : Instr α) (l : List (Arrival α)) : List (MatchOp α) :=
  l.filterMap (fun a => match a with
    | .meas j m => if j = i then some (.measure m.now m.attrs m.value) else none
    | .coll t => some (.coll t))

/-- The instrument has measured. -/
def Measured (i : Instr α) (l : List (Arrival α)) : Prop := ∃ m, Arrival.meas i m ∈ l

/-- Every measurement keeps only hashable attribute values under every view made for its instrument. -/
def Accepted (sdk : Sdk α) (l : List (Arrival α)) : Prop :=
  ∀ i m, Arrival.meas i m ∈ l → ∀ w ∈ viewsFor sdk.fnm sdk.views i, Hashable (kept w m.attrs)

/-- The point of the stream with attributes `a`: an aggregation of the documented shape, started at the first measurement with these
attributes, fed the stream's measurements and collected at the reader's collections, reports `pt` at the last one; the point is labelled
with the attributes as first given. -/
def StreamReports (sdk : Sdk α) (rc : ReaderConf α) (i : Instr α) (w : View α) (h : List (MatchOp α)) (now : Int) (a : MAttrs)
    (p : DataPoint α) : Prop :=
  ∃ start label, firstWith w a h = some (start, label) ∧ p.attrs = label ∧
    (((Shape.of sdk.dflt w.agg (rc.table i.kind) i).machine i.kind (rc.temporality i.kind) start).out
      (streamHistory w a h ++ [.coll now])).getLast? = some (some p.pt)

/-- The metric (or its absence) that a view of an instrument contributes to a collection: one point for each attribute set whose stream
has something to report, none twice; nothing if there is no point, or if the shape is to drop. -/
def MetricReports (sdk : Sdk α) (rc : ReaderConf α) (i : Instr α) (w : View α) (h : List (MatchOp α)) (now : Int)
    (out : Option (Metric α)) : Prop :=
  ∃ ps : List (StreamKey × DataPoint α), (ps.map (·.1)).Nodup ∧
    (∀ k p, (k, p) ∈ ps ↔ ∃ a, Hashable a ∧ streamKey a = some k ∧ StreamReports sdk rc i w h now a p) ∧
    ((ps = [] ∨ (Shape.of sdk.dflt w.agg (rc.table i.kind) i).data (rc.temporality i.kind) = none) ∧ out = none ∨
      ps ≠ [] ∧ ∃ mt : Metric α, out = some mt ∧ mt.points = ps.map (·.2) ∧
        some mt.data = (Shape.of sdk.dflt w.agg (rc.table i.kind) i).data (rc.temporality i.kind) ∧ mt.unit = i.unit ∧
        mt.name = (match w.name with | some n => if n = [] then i.name else n | none => i.name) ∧
        mt.description = (match w.description with | some n => if n = [] then i.description else n | none => i.description))

open Classical in
/-- The values measured by an instrument with attributes equal to `a`. -/
noncomputable def values (i : Instr α) (a : MAttrs) (l : List (Arrival α)) : List α :=
  l.filterMap (fun x => match x with
    | .meas j m => if j = i ∧ DictEq (m.attrs.getD []) a then some m.value else none
    | .coll _ => none)

/-- What arrived after the last completed collection, after `acc`. -/
def sinceFrom (acc : List (Arrival α)) : List (Arrival α) → List (Arrival α)
  | [] => acc
  | .meas i m :: l => sinceFrom (acc ++ [.meas i m]) l
  | .coll _ :: l => sinceFrom [] l

/-- What arrived after the last completed collection. -/
def sinceLast (l : List (Arrival α)) : List (Arrival α) := sinceFrom [] l

end Metrics
end Otel
