import Verif.Model.Views
/-!
# Reader storages and the measurement consumer
Models `MetricReaderStorage` (metric_reader_storage.py:61–248) and `SynchronousMeasurementConsumer`
(measurement_consumer.py:58–145).
-/
namespace Otel
namespace Metrics
variable {α : Type} [AddCommGroup α] [LinearOrder α]

/-- What a provider fixes: the views, the default boundaries and `fnmatch`. -/
structure Sdk (α : Type) where
  views : List (View α)
  dflt : List α
  fnm : Str → Str → Bool

/-- What a reader fixes: temporality and default aggregation per instrument class (export/__init__.py:215–319). -/
structure ReaderConf (α : Type) where
  temporality : Kind → Temporality
  table : Kind → AggConf α

/-- A measurement of an instrument (measurement.py). -/
structure Meas (α : Type) where
  now : Int
  attrs : Option MAttrs
  value : α

/-- One stream set of an instrument: the view and the dictionary of its streams. -/
structure MatchState (α : Type) where
  view : View α
  dict : List (StreamKey × (MAttrs × Agg α))

/-- The streams as members of a dictionary. -/
abbrev streamsOf (sdk : Sdk α) (rc : ReaderConf α) (i : Instr α) (w : View α) : Members StreamKey (MIn α) (Option (DataPoint α)) :=
  streams sdk.dflt rc.table (rc.temporality i.kind) w i

/-- `consume_measurement` of one stream set; `none` is `TypeError` (_view_instrument_match.py:91–134). -/
def MatchState.consume (sdk : Sdk α) (rc : ReaderConf α) (i : Instr α) (s : MatchState α) (m : Meas α) : Option (MatchState α) :=
  (streamKey (restrict s.view.keys (m.attrs.getD []))).map (fun k =>
    { s with dict := (streamsOf sdk rc i s.view).feedAt k ⟨m.now, restrict s.view.keys (m.attrs.getD []), m.value⟩ s.dict })

/-- The loop of `MetricReaderStorage.consume_measurement` over the stream sets of an instrument
(metric_reader_storage.py:116–124): it stops at the first that raises; the flag is true if none does. -/
def consumeAll (sdk : Sdk α) (rc : ReaderConf α) (i : Instr α) (m : Meas α) : List (MatchState α) → List (MatchState α) × Bool
  | [] => ([], true)
  | s :: l =>
    match s.consume sdk rc i m with
    | none => (s :: l, false)
    | some s' => (s' :: (consumeAll sdk rc i m l).1, (consumeAll sdk rc i m l).2)

/-- A metric's data (metric_reader_storage.py:164–206, point.py). -/
inductive MData where
  | sum (t : Temporality) (monotonic : Bool)
  | gauge
  | hist (t : Temporality)
deriving DecidableEq

/-- A `Metric` (point.py). -/
structure Metric (α : Type) where
  name : Str
  description : Str
  unit : Str
  data : MData
  points : List (DataPoint α)

/-- Which aggregation object a configuration creates for an instrument, as the `isinstance` chain of
metric_reader_storage.py:164–206 sees it; `none` is `_DropAggregation`. -/
def dataKind (c : AggConf α) (i : Instr α) (t : Temporality) : Option MData :=
  match c with
  | .default =>
    match i.kind with
    | .counter | .upDown | .obsCounter | .obsUpDown => some (.sum t i.kind.monotonic)
    | .histogram => some (.hist t)
    | .gauge | .obsGauge => some .gauge
  | .sum => some (.sum t i.kind.monotonic)
  | .last => some .gauge
  | .drop => none
  | .hist _ _ => some (.hist t)

/-- `a or b` for an optional string: `None` and `""` are falsy. -/
def orStr (a : Option Str) (b : Str) : Str :=
  match a with
  | some (c :: s) => c :: s
  | _ => b

/-- Collection of one stream set and its metric, if any (metric_reader_storage.py:156–217). -/
def MatchState.collect (sdk : Sdk α) (rc : ReaderConf α) (i : Instr α) (now : Int) (s : MatchState α) :
    Option (Metric α) × MatchState α :=
  let r := (streamsOf sdk rc i s.view).step s.dict (.coll now)
  let s' := { s with dict := r.1 }
  match matchOut (r.2.getD []), dataKind (effective rc.table s.view i) i (rc.temporality i.kind) with
  | some ps, some d =>
    (some { name := orStr s.view.name i.name, description := orStr s.view.description i.description, unit := i.unit,
            data := d, points := ps }, s')
  | _, _ => (none, s')

/-- The storage as a dictionary of instruments: the stream sets of an instrument are created at its first measurement
(metric_reader_storage.py:78–124). -/
def instruments (sdk : Sdk α) (rc : ReaderConf α) : Members (Instr α) (Instr α × Meas α) (List (Metric α)) :=
  { S := Instr α × List (MatchState α)
    new := fun i _ => (i, (viewsFor sdk.fnm sdk.views i).map (⟨·, []⟩))
    feed := fun s m => (s.1, (consumeAll sdk rc s.1 m.2 s.2).1)
    coll := fun s now => ((s.2.map (fun x => (x.collect sdk rc s.1 now).1)).filterMap id,
      (s.1, s.2.map (fun x => (x.collect sdk rc s.1 now).2))) }

/-- Grouping of the metrics by instrumentation scope (metric_reader_storage.py:219–246), in order of first appearance.
Instruments without metrics open no group. -/
def addScope {M : Type} (sc : ScopeId) (ms : List M) : List (ScopeId × List M) → List (ScopeId × List M)
  | [] => [(sc, ms)]
  | (sc', l) :: r => if sc' = sc then (sc', l ++ ms) :: r else (sc', l) :: addScope sc ms r

/-- The whole result of a collection: `none` for `None`. -/
def groupScopes (out : List (Instr α × List (Metric α))) : Option (List (ScopeId × List (Metric α))) :=
  match out.foldl (fun acc im => if im.2.isEmpty then acc else addScope im.1.scope im.2 acc) [] with
  | [] => none
  | l => some l

/-- State of one storage. -/
abbrev StorageState (α : Type) := List (Instr α × (Instr α × List (MatchState α)))


/-- Whether a measurement raises `TypeError` in a storage: some stream set's attribute set is unhashable. -/
def raises (sdk : Sdk α) (i : Instr α) (m : Meas α) : Bool :=
  (viewsFor sdk.fnm sdk.views i).any (fun w => (streamKey (restrict w.keys (m.attrs.getD []))).isNone)

/-- `MetricReaderStorage.consume_measurement`: new state, and whether it returned normally. -/
def storageConsume (sdk : Sdk α) (rc : ReaderConf α) (s : StorageState α) (i : Instr α) (m : Meas α) : StorageState α × Bool :=
  ((instruments sdk rc).feedAt i (i, m) s,
    match s.find? (fun x => decide (x.1 = i)) with
    | some x => (consumeAll sdk rc x.2.1 m x.2.2).2
    | none => (consumeAll sdk rc i m ((viewsFor sdk.fnm sdk.views i).map (⟨·, []⟩))).2)

/-- `MetricReaderStorage.collect`. -/
def storageCollect (sdk : Sdk α) (rc : ReaderConf α) (s : StorageState α) (now : Int) :
    Option (List (ScopeId × List (Metric α))) × StorageState α :=
  let r := (instruments sdk rc).step s (.coll now)
  (groupScopes (r.2.getD []), r.1)

/-! ## The consumer -/

/-- `consume_measurement` of the consumer (measurement_consumer.py:80–92): every reader's storage in turn, stopping at the
first exception. -/
def broadcast (sdk : Sdk α) (i : Instr α) (m : Meas α) : List (ReaderConf α × StorageState α) → List (ReaderConf α × StorageState α)
  | [] => []
  | (rc, s) :: l =>
    let r := storageConsume sdk rc s i m
    if r.2 then (rc, r.1) :: broadcast sdk i m l else (rc, r.1) :: l

/-- The loop over the asynchronous measurements of a collection (measurement_consumer.py:130–141): stops at the first
exception. -/
def observe (sdk : Sdk α) (rc : ReaderConf α) : StorageState α → List (Instr α × Meas α) → StorageState α × Bool
  | s, [] => (s, true)
  | s, (i, m) :: l =>
    let r := storageConsume sdk rc s i m
    if r.2 then observe sdk rc r.1 l else (r.1, false)

/-- What a collection returns: metrics (or `None`), or an exception (`MetricsTimeoutError`, or the `TypeError` of an
observation). -/
inductive CollOut (α : Type) where
  | data (d : Option (List (ScopeId × List (Metric α))))
  | raised

/-- `collect` for one reader (measurement_consumer.py:103–145). `obs` are the observations of the instruments reached before the
deadline, `timeout` says that the deadline had passed when an instrument's turn came (which raises `MetricsTimeoutError` with the earlier
observations already consumed). `Verif.Model.Instrument` models how both result from the callbacks and the clock. -/
def collectReader (sdk : Sdk α) (rc : ReaderConf α) (s : StorageState α) (obs : List (Instr α × Meas α)) (timeout : Bool) (now : Int) :
    CollOut α × StorageState α :=
  let r := observe sdk rc s obs
  if r.2 && !timeout then
    let c := storageCollect sdk rc r.1 now
    (.data c.1, c.2)
  else (.raised, r.1)

/-- A call on the consumer: a synchronous measurement, or a collection by reader number `r`. -/
inductive COp (α : Type) where
  | measure (i : Instr α) (m : Meas α)
  | collect (r : Nat) (obs : List (Instr α × Meas α)) (timeout : Bool) (now : Int)

/-- One call; the output of a collection comes with its reader. -/
def consumerStep (sdk : Sdk α) (st : List (ReaderConf α × StorageState α)) : COp α → List (ReaderConf α × StorageState α) × Option (Nat × CollOut α)
  | .measure i m => (broadcast sdk i m st, none)
  | .collect r obs timeout now =>
    match st[r]? with
    | none => (st, none)
    | some (rc, s) =>
      let c := collectReader sdk rc s obs timeout now
      (st.set r (rc, c.2), some (r, c.1))

/-- A history of calls. -/
def consumerRun (sdk : Sdk α) : List (ReaderConf α × StorageState α) → List (COp α) → List (ReaderConf α × StorageState α) × List (Nat × CollOut α)
  | st, [] => (st, [])
  | st, o :: l =>
    let r := consumerStep sdk st o
    let q := consumerRun sdk r.1 l
    (q.1, r.2.toList ++ q.2)

/-- A fresh consumer for the given readers. -/
def consumerInit (rcs : List (ReaderConf α)) : List (ReaderConf α × StorageState α) := rcs.map (·, [])

end Metrics
end Otel
