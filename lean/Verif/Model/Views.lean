import Verif.Model.Metrics
import Mathlib.Data.Finset.Basic
import Mathlib.Data.Rat.Defs
/-!
# From a measurement to metric streams
Models `opentelemetry-sdk/src/opentelemetry/sdk/metrics/_internal/_view_instrument_match.py`, `view.py`,
`metric_reader_storage.py`, `measurement_consumer.py`, `instrument.py` and the `Aggregation` classes at the end of
`aggregation.py`. A call runs as one step here: in the code the dictionaries are only changed under a lock with a second
look at the key, and each aggregation has its own lock, so concurrent calls are equivalent to some order of whole calls as
far as one stream is concerned.
-/
namespace Otel
namespace Metrics

/-! ## Attribute values and their Python equality -/

/-- A scalar attribute value; finite floats are rationals. -/
inductive MAtom where
  | bool (b : Bool)
  | int (i : Int)
  | float (q : Rat)
  | str (s : Str)
deriving DecidableEq

/-- An attribute value of a measurement. -/
inductive MVal where
  | atom (a : MAtom)
  | tuple (l : List MAtom)
  | list (l : List MAtom)
deriving DecidableEq

/-- A scalar up to Python's `==` (and `hash`): `1 == True == 1.0`. -/
inductive CAtom where
  | num (q : Rat)
  | str (s : Str)
deriving DecidableEq

/-- The equality class of a scalar. -/
def MAtom.canon : MAtom → CAtom
  | .bool b => .num (if b then 1 else 0)
  | .int i => .num i
  | .float q => .num q
  | .str s => .str s

/-- A hashable value up to `==`. -/
inductive CVal where
  | atom (a : CAtom)
  | tuple (l : List CAtom)
deriving DecidableEq

/-- The equality class of a value; `none`: unhashable (`TypeError`). -/
def MVal.canon : MVal → Option CVal
  | .atom a => some (.atom a.canon)
  | .tuple l => some (.tuple (l.map MAtom.canon))
  | .list _ => none

/-- The attributes of a measurement, a Python dict. -/
abbrev MAttrs := List (Str × MVal)

/-- A `frozenset` of attribute items, up to `==`. -/
abbrev StreamKey := Finset (Str × CVal)

/-- Attribute filtering by the view (_view_instrument_match.py:94–103). -/
def restrict (keys : Option (List Str)) (a : MAttrs) : MAttrs :=
  match keys with
  | some ks => a.filter (fun kv => decide (kv.1 ∈ ks))
  | none => a

/-- `frozenset(attributes.items())` (_view_instrument_match.py:105); `none`: some value is unhashable. -/
def streamKey : MAttrs → Option StreamKey
  | [] => some ∅
  | (k, v) :: l =>
    match v.canon, streamKey l with
    | some c, some s => some (insert (k, c) s)
    | _, _ => none

/-! ## A family of lazily created members -/

/-- Members of a dictionary that are created at the first input for their key. -/
structure Members (K I O : Type) where
  S : Type
  new : K → I → S
  feed : S → I → S
  coll : S → Int → O × S

/-- One call on the dictionary: an input for a key, or a collection of all members. -/
inductive FOp (K I : Type) where
  | feed (k : K) (i : I)
  | coll (now : Int)

variable {K I O : Type}

/-- Input for one key: the double-checked creation and the call on the member (_view_instrument_match.py:107–134,
metric_reader_storage.py:78–124). -/
def Members.feedAt [DecidableEq K] (m : Members K I O) (k : K) (i : I) : List (K × m.S) → List (K × m.S)
  | [] => [(k, m.feed (m.new k i) i)]
  | (k', s) :: l => if k' = k then (k', m.feed s i) :: l else (k', s) :: m.feedAt k i l

/-- One call. The output is present for a collection: what each member returned, in insertion order. -/
def Members.step [DecidableEq K] (m : Members K I O) (d : List (K × m.S)) : FOp K I → List (K × m.S) × Option (List (K × O))
  | .feed k i => (m.feedAt k i d, none)
  | .coll t => (d.map (fun ks => (ks.1, (m.coll ks.2 t).2)), some (d.map (fun ks => (ks.1, (m.coll ks.2 t).1))))

/-- A history of calls on an empty dictionary: the final dictionary and what the collections returned. -/
def Members.run [DecidableEq K] (m : Members K I O) : List (K × m.S) → List (FOp K I) → List (K × m.S) × List (List (K × O))
  | d, [] => (d, [])
  | d, o :: l =>
    let r := m.step d o
    let q := m.run r.1 l
    (q.1, (match r.2 with | some out => [out] | none => []) ++ q.2)

/-! ## Aggregations as created for an instrument -/

/-- The SDK instrument classes (instrument.py). -/
inductive Kind where
  | counter | upDown | obsCounter | obsUpDown | histogram | gauge | obsGauge
deriving DecidableEq

/-- `isinstance(instrument, Asynchronous)`. -/
def Kind.isAsync : Kind → Bool
  | .obsCounter | .obsUpDown | .obsGauge => true
  | _ => false

/-- `isinstance(instrument, (Counter, ObservableCounter))`. -/
def Kind.monotonic : Kind → Bool
  | .counter | .obsCounter => true
  | _ => false

/-- The instrument's own temporality (aggregation.py: every `_create_aggregation`). -/
def Kind.temporality (k : Kind) : Temporality := if k.isAsync then .cumulative else .delta

/-- An instrumentation scope: name, version, schema url. -/
structure ScopeId where
  name : Str
  version : Option Str
  schema : Option Str
deriving DecidableEq

/-- An instrument; `id` is object identity (instruments hash by identity). -/
structure Instr (α : Type) where
  id : Nat
  kind : Kind
  name : Str
  unit : Str
  description : Str
  scope : ScopeId
  /-- `_advisory.explicit_bucket_boundaries`, histograms only. -/
  advisory : Option (List α)
deriving DecidableEq

/-- Configured aggregations (aggregation.py:1195–1475), without the exponential one. For the explicit-bucket class the
boundaries are the resolved ones (see `Sticky` in `Verif.Model.Instrument` for how they are resolved). -/
inductive AggConf (α : Type) where
  | default
  | sum
  | last
  | drop
  | hist (bounds : List α) (recordMinMax : Bool)
deriving DecidableEq

/-- A point of any kind. -/
inductive Pt (α : Type) where
  | num (p : NumPoint α)
  | hist (p : HistPoint α)

/-- State of an aggregation object of any class. -/
inductive Agg (α : Type) where
  | drop
  | last (s : LastAgg α)
  | sum (s : SumAgg α)
  | hist (s : HistAgg α)

section Agg
variable {α : Type} [AddCommGroup α] [LinearOrder α]

/-- `aggregate` of any class. -/
def Agg.aggregate : Agg α → α → Agg α
  | .drop, _ => .drop
  | .last s, v => .last (s.aggregate v)
  | .sum s, v => .sum (s.aggregate v)
  | .hist s, v => .hist (s.aggregate v)

/-- `collect` of any class. -/
def Agg.collect (t : Temporality) : Agg α → Int → Option (Pt α) × Agg α
  | .drop, _ => (none, .drop)
  | .last s, now => ((s.collect t now).1.map .num, .last (s.collect t now).2)
  | .sum s, now => ((s.collect t now).1.map .num, .sum (s.collect t now).2)
  | .hist s, now => ((s.collect t now).1.map .hist, .hist (s.collect t now).2)

/-- `_DEFAULT_EXPLICIT_BUCKET_HISTOGRAM_AGGREGATION_BOUNDARIES` is a parameter `dflt`.
`_create_aggregation` of a configured class (aggregation.py:1232–1312 for the default one, 1324–1475). -/
def AggConf.create (dflt : List α) (conf : AggConf α) (i : Instr α) (start : Int) : Agg α :=
  match conf with
  | .default =>
    match i.kind with
    | .counter | .upDown => .sum (SumAgg.new .delta start)
    | .obsCounter | .obsUpDown => .sum (SumAgg.new .cumulative start)
    | .histogram => .hist (HistAgg.new .delta start (i.advisory.getD dflt) true)
    | .gauge | .obsGauge => .last ⟨none⟩
  | .sum => .sum (SumAgg.new i.kind.temporality start)
  | .last => .last ⟨none⟩
  | .drop => .drop
  | .hist b mm => .hist (HistAgg.new i.kind.temporality start b mm)

end Agg

/-! ## Views -/

/-- A view (view.py:48–165). `instrumentType` is the class test; `fnm` in `matchView` is `fnmatch`. -/
structure View (α : Type) where
  instrumentType : Option (Kind → Bool)
  instrumentName : Option Str
  instrumentUnit : Option Str
  meterName : Option Str
  meterVersion : Option Str
  meterSchema : Option Str
  name : Option Str
  description : Option Str
  keys : Option (List Str)
  agg : AggConf α

variable {α : Type}

/-- `View._match` (view.py:167–195), by early returns. `scope.version`/`schema_url` may be `None`, which differs from every
string. -/
def View.matches (fnm : Str → Str → Bool) (w : View α) (i : Instr α) : Bool :=
  if (match w.instrumentType with | some t => !t i.kind | none => false) then false
  else if (match w.instrumentName with | some n => !fnm i.name n | none => false) then false
  else if (match w.instrumentUnit with | some n => !fnm i.unit n | none => false) then false
  else if (match w.meterName with | some n => i.scope.name != n | none => false) then false
  else if (match w.meterVersion with | some n => i.scope.version != some n | none => false) then false
  else if (match w.meterSchema with | some n => i.scope.schema != some n | none => false) then false
  else true

/-- `_check_view_instrument_compatibility` (metric_reader_storage.py:290–315). -/
def View.compatible (w : View α) (i : Instr α) : Bool :=
  !(i.kind.isAsync && (match w.agg with | .hist _ _ => true | _ => false))

/-- `_DEFAULT_VIEW` (metric_reader_storage.py:58); only its stream-customising fields matter. -/
def defaultView : View α :=
  { instrumentType := none, instrumentName := some [], instrumentUnit := none, meterName := none, meterVersion := none,
    meterSchema := none, name := none, description := none, keys := none, agg := .default }

/-- The views an instrument's streams are made for (metric_reader_storage.py:78–114, 250–288). The conflict warnings have no
effect on the streams. -/
def viewsFor (fnm : Str → Str → Bool) (views : List (View α)) (i : Instr α) : List (View α) :=
  match views.filter (fun w => w.matches fnm i && w.compatible i) with
  | [] => [defaultView]
  | l => l

/-! ## One stream set: a view applied to an instrument -/

/-- A measurement as it reaches a stream set: the current time, the restricted attributes, the value. -/
structure MIn (α : Type) where
  now : Int
  attrs : MAttrs
  value : α

/-- A data point with its attributes. -/
structure DataPoint (α : Type) where
  attrs : MAttrs
  pt : Pt α

section Match
variable [AddCommGroup α] [LinearOrder α]

/-- What configures the aggregations of a stream set: the view's aggregation unless it is the default one, then the
reader's for that class of instrument (_view_instrument_match.py:52–67, 110–129). -/
def effective (table : Kind → AggConf α) (w : View α) (i : Instr α) : AggConf α :=
  match w.agg with
  | .default => table i.kind
  | c => c

/-- The streams of a view applied to an instrument, keyed by the attribute set (_view_instrument_match.py:91–153): the
aggregation is created with the attributes of the first measurement, which label its points. -/
def streams (dflt : List α) (table : Kind → AggConf α) (t : Temporality) (w : View α) (i : Instr α) :
    Members StreamKey (MIn α) (Option (DataPoint α)) :=
  { S := MAttrs × Agg α
    new := fun _ m => (m.attrs, (effective table w i).create dflt i m.now)
    feed := fun s m => (s.1, s.2.aggregate m.value)
    coll := fun s now => ((s.2.collect t now).1.map (⟨s.1, ·⟩), (s.1, (s.2.collect t now).2)) }

/-- A call on a stream set. -/
inductive MatchOp (α : Type) where
  | measure (now : Int) (attrs : Option MAttrs) (v : α)
  | coll (now : Int)

/-- `consume_measurement` as a call on the dictionary; `none`: `TypeError` before anything is changed
(_view_instrument_match.py:91–105). -/
def matchOp (w : View α) : MatchOp α → Option (FOp StreamKey (MIn α))
  | .measure now a v =>
    let attrs := restrict w.keys (a.getD [])
    (streamKey attrs).map (fun k => .feed k ⟨now, attrs, v⟩)
  | .coll t => some (.coll t)

/-- `collect` of a stream set returns the points there are, or `None` (_view_instrument_match.py:136–153). -/
def matchOut (l : List (StreamKey × Option (DataPoint α))) : Option (List (DataPoint α)) :=
  match l.filterMap (·.2) with
  | [] => none
  | ps => some ps

end Match

end Metrics
end Otel
