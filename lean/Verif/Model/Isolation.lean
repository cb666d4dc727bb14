import Verif.Model.Metrics
import Verif.Model.ExpHist
import Mathlib.Algebra.Order.Group.Int
import Mathlib.Algebra.Order.Ring.Int
/-!
# One reader, all its streams: what a failure does to the others
`SynchronousMeasurementConsumer` and `MetricReaderStorage` of one reader with any number of streams of any aggregation, and the
`PeriodicExportingMetricReader` on top, with the exceptions that aggregations and attributes raise
(`opentelemetry-sdk/src/opentelemetry/sdk/metrics/_internal/` `measurement_consumer.py` 77–144, `metric_reader_storage.py` 116–248, `_view_instrument_match.py` 91–159,
`export/__init__.py` 322–348, 520–586).

A stream is one aggregation: one attribute set of one view match of one instrument. Streams are numbered in the order in which a collection visits them (the order of the dictionaries: instruments by first
measurement, then views, then attribute sets by first measurement); this order never changes once both streams exist, so a fixed numbering is no restriction. Streams are created by
their first measurement. Calls are one at a time (C95 is about threads), timeouts are left out (C120), values are integers, and there are no exemplars.
-/
namespace Otel
namespace Isolation
open Metrics

/-- What a stream's view (or the reader's preferred aggregation) asks for. `inst` is the instrument's temporality: `delta` for synchronous instruments. -/
inductive Kind where
  | sum (inst : Temporality)
  | last
  | hist (inst : Temporality) (bounds : List Int)
  | exp (inst : Temporality) (maxSize maxScale : Int)
deriving DecidableEq

/-- A stream's configuration: its aggregation, and the temporality the reader collects its instrument with (metric_reader_storage.py 147–149). -/
structure Conf where
  kind : Kind
  temp : Temporality

/-- An aggregation object. -/
inductive Agg where
  | sum (s : SumAgg Int)
  | last (s : LastAgg Int)
  | hist (s : HistAgg Int)
  | exp (s : Exp.Agg Int)

/-- A data point. -/
inductive Point where
  | num (p : NumPoint Int)
  | hist (p : HistPoint Int)
  | exp (p : Exp.Point Int)

/-- `_create_aggregation` (_view_instrument_match.py 111–130); `none`: the constructor raises. -/
def create (c : Conf) (now : Int) : Option Agg :=
  match c.kind with
  | .sum inst => some (.sum (SumAgg.new inst now))
  | .last => some (.last ⟨none⟩)
  | .hist inst bounds => some (.hist (HistAgg.new inst now bounds true))
  | .exp inst size scale => (Exp.Agg.new inst now size scale).map .exp

/-- `aggregate` (_view_instrument_match.py 132–134). `none`: it raises; what the exponential histogram has changed before is then left out (`C36_never_raises`: it does not happen for
numbers its mapping accepts). -/
def Agg.aggregate (idx : Int → Int → Int) (a : Agg) (v : Int) : Option Agg :=
  match a with
  | .sum s => some (.sum (s.aggregate v))
  | .last s => some (.last (s.aggregate v))
  | .hist s => some (.hist (s.aggregate v))
  | .exp s => (s.aggregate idx v).map .exp

/-- `collect` of an aggregation (_view_instrument_match.py 144–148). -/
def Agg.collect (a : Agg) (t : Temporality) (now : Int) : Exp.Outcome Point × Agg :=
  match a with
  | .sum s => (.returned ((s.collect t now).1.map .num), .sum (s.collect t now).2)
  | .last s => (.returned ((s.collect t now).1.map .num), .last (s.collect t now).2)
  | .hist s => (.returned ((s.collect t now).1.map .hist), .hist (s.collect t now).2)
  | .exp s =>
    match s.collect t now with
    | (.raised, s') => (.raised, .exp s')
    | (.returned p, s') => (.returned (p.map .exp), .exp s')

/-- A measurement: the stream it belongs to, `none` if its attributes are not hashable (`frozenset(attributes.items())` raises, _view_instrument_match.py 105); the time; the value. -/
structure Meas where
  pos : Option Nat
  now : Int
  v : Int
deriving DecidableEq

/-- The streams that exist. -/
abbrev Streams := Nat → Option Agg

/-- Replace one stream. -/
def upd (st : Streams) (p : Nat) (a : Agg) : Streams := fun q => if q = p then some a else st q

/-- The aggregation a measurement goes to: the one in the dictionary, or a new one (_view_instrument_match.py 107–130). -/
def getOrCreate (c : Conf) (a : Option Agg) (now : Int) : Option Agg :=
  match a with
  | some a => some a
  | none => create c now

/-- `consume_measurement` (_view_instrument_match.py 91–134): `none` if it raises. (The aggregation stays in the dictionary if creating it worked and `aggregate` raised: left out, see `Agg.aggregate`.) -/
def put (cfg : Nat → Conf) (idx : Int → Int → Int) (st : Streams) (m : Meas) : Option Streams :=
  match m.pos with
  | none => none
  | some p =>
    match getOrCreate (cfg p) (st p) m.now with
    | none => none
    | some a => (a.aggregate idx m.v).map (upd st p)

/-- Where an exception came from: the `i`-th observation of the callbacks, or the stream `p`. -/
inductive Where where
  | obs (i : Nat)
  | stream (p : Nat)
deriving DecidableEq

/-- How a collection ended: with data, by stream, or with an exception. -/
inductive Res where
  | ok (data : List (Nat × Point))
  | failed (w : Where)

/-- The observations of all callbacks are consumed one after the other (measurement_consumer.py 128–139), from number `i` on. Exceptions in the callbacks themselves are caught (C65): a callback is
what it yields. -/
def observe (cfg : Nat → Conf) (idx : Int → Int → Int) : Nat → List Meas → Streams → Option Nat × Streams
  | _, [], st => (none, st)
  | i, m :: ms, st =>
    match put cfg idx st m with
    | none => (some i, st)
    | some st' => observe cfg idx (i + 1) ms st'

/-- The loop of `MetricReaderStorage.collect` (metric_reader_storage.py 143–233) over the streams `ps`. How the points are grouped by metric and scope is C44's and C91's business. -/
def visit (cfg : Nat → Conf) (now : Int) : List Nat → Streams → List (Nat × Point) → Res × Streams
  | [], st, acc => (.ok acc, st)
  | p :: ps, st, acc =>
    match st p with
    | none => visit cfg now ps st acc
    | some a =>
      match a.collect (cfg p).temp now with
      | (.raised, a') => (.failed (.stream p), upd st p a')
      | (.returned none, a') => visit cfg now ps (upd st p a') acc
      | (.returned (some d), a') => visit cfg now ps (upd st p a') (acc ++ [(p, d)])

/-- `SynchronousMeasurementConsumer.collect` (measurement_consumer.py 103–144) for a reader with at most `n` streams. -/
def collect (cfg : Nat → Conf) (idx : Int → Int → Int) (n : Nat) (now : Int) (obs : List Meas) (st : Streams) : Res × Streams :=
  match observe cfg idx 0 obs st with
  | (some i, st') => (.failed (.obs i), st')
  | (none, st') => visit cfg now (List.range n) st' []

/-- Who collects: the ticker thread in its loop, the ticker thread a last time, or a caller of `force_flush`. -/
inductive Who where
  | loop
  | final
  | flush
deriving DecidableEq

/-- What happens, as an observer sees it. -/
inductive Ev where
  /-- a measurement by the application, and whether it was accepted (or raised) -/
  | meas (m : Meas) (ok : Bool)
  | pass (who : Who) (now : Int) (obs : List Meas) (res : Res)

/-- A periodic reader. `alive`: its thread is running. -/
structure Reader where
  streams : Streams
  alive : Bool
  stopped : Bool
  exported : List (List (Nat × Point))
  log : List Ev

/-- A new reader. -/
def Reader.new : Reader := ⟨fun _ => none, true, false, [], []⟩

/-- What the program and the clock do. The callbacks' observations are given with each collection. -/
inductive Cmd where
  | meas (m : Meas)
  | tick (now : Int) (obs : List Meas)
  | flush (now : Int) (obs : List Meas)
  | shutdown (now : Int) (obs : List Meas)

/-- `MetricReader.collect` and `_receive_metrics` (export/__init__.py 322–348, 540–556): without data there is no export; an exporter that was shut down takes nothing. -/
def Reader.pass (cfg : Nat → Conf) (idx : Int → Int → Int) (n : Nat) (r : Reader) (who : Who) (now : Int) (obs : List Meas) : Res × Reader :=
  let c := collect cfg idx n now obs r.streams
  let r := { r with streams := c.2, log := r.log ++ [.pass who now obs c.1] }
  match c.1 with
  | .failed w => (.failed w, r)
  | .ok d => (.ok d, if d.isEmpty || r.stopped then r else { r with exported := r.exported ++ [d] })

/-- One step. `tick` is one round of `_ticker`'s loop (export/__init__.py 520–530): only `MetricsTimeoutError` is caught, any other exception ends the thread. `shutdown` (558–573): a thread that is alive
leaves the loop and collects a last time (531–538); then the exporter is shut down. `force_flush` (575–578): an exception goes to the caller. -/
def Reader.step (cfg : Nat → Conf) (idx : Int → Int → Int) (n : Nat) (r : Reader) : Cmd → Reader
  | .meas m =>
    match put cfg idx r.streams m with
    | none => { r with log := r.log ++ [.meas m false] }
    | some st => { r with streams := st, log := r.log ++ [.meas m true] }
  | .tick now obs =>
    if r.alive then
      match r.pass cfg idx n .loop now obs with
      | (.ok _, r) => r
      | (.failed _, r) => { r with alive := false }
    else r
  | .flush now obs => (r.pass cfg idx n .flush now obs).2
  | .shutdown now obs =>
    if r.stopped then r
    else
      let r := if r.alive then (r.pass cfg idx n .final now obs).2 else r
      { r with alive := false, stopped := true }

/-- A whole program. -/
def run (cfg : Nat → Conf) (idx : Int → Int → Int) (n : Nat) (l : List Cmd) : Reader := l.foldl (Reader.step cfg idx n) Reader.new

end Isolation
end Otel
