import Verif.Model.Py
/-!
# The locks of the metrics API and SDK and of spans
Models which locks the functions of the metrics API and the methods of spans take, in which order, and what they hold while they run code of the
application (callbacks of observable instruments, exporters, span processors, handlers of Python's `logging`, which the SDK logs to). The data the locks protect is left out (modules `Storage`, `ProxyMetrics`, `Periodic`,
`Exemplar` model it).

`S/` is `opentelemetry-sdk/src/opentelemetry/sdk/metrics/_internal/`, `A/` is
`opentelemetry-api/src/opentelemetry/metrics/_internal/__init__.py`, `T/` is `opentelemetry-sdk/src/opentelemetry/sdk/trace/__init__.py`.

A thread is a list of things it still does with locks, and the locks it holds. Every acquire and release is one step of one thread; the threads
are interleaved in any order. A thread that has nothing left to do may call the API again.
-/
namespace Otel
namespace Locks

/-- The locks. Readers, providers, meters, proxy meters, instruments are numbers. -/
inductive Lock where
  /-- `InMemoryMetricReader._lock`, an `RLock` (S/export/__init__.py:408) -/
  | reader (r : Nat)
  /-- `PeriodicExportingMetricReader._export_lock`, a `Lock` (S/export/__init__.py:461) -/
  | exporting (r : Nat)
  /-- `_METER_PROVIDER_SET_ONCE._lock`, a `Lock` (A:829, opentelemetry-api/src/opentelemetry/util/_once.py:26) -/
  | setOnce
  /-- `_ProxyMeterProvider._lock`, a `Lock` (A:156) -/
  | proxyProvider
  /-- `_ProxyMeter._lock`, a `Lock` (A:510) -/
  | proxyMeter (m : Nat)
  /-- `SynchronousMeasurementConsumer._lock`, a `Lock` (S/measurement_consumer.py:63) -/
  | consumer (p : Nat)
  /-- `MeterProvider._meter_lock`, a `Lock` (S/__init__.py:423) -/
  | meters (p : Nat)
  /-- `Meter._instrument_ids_lock`, a `Lock` (A:212) -/
  | ids (m : Nat)
  /-- `Meter._instrument_id_instrument_lock`, a `Lock` (S/__init__.py:90) -/
  | instruments (m : Nat)
  /-- `MetricReaderStorage._lock`, an `RLock` (S/metric_reader_storage.py:70) -/
  | storage (r : Nat)
  /-- `_ViewInstrumentMatch._lock`, a `Lock` (S/_view_instrument_match.py:46), of view number `v` of instrument `i` -/
  | viewMatch (r i v : Nat)
  /-- `_Aggregation._lock`, a `Lock` (S/aggregation.py:99), of attribute set `k` -/
  | aggregation (r i v k : Nat)
  /-- `Span._lock`, a `Lock` (T:796) -/
  | span (x : Nat)
  /-- `BoundedAttributes._lock` of a span's attributes, an `RLock` (opentelemetry-api/src/opentelemetry/attributes/__init__.py:152) -/
  | attributes (x : Nat)
  /-- `BoundedList._lock` of a span's events, a `Lock` (opentelemetry-sdk/src/opentelemetry/sdk/util/__init__.py:58) -/
  | events (x : Nat)
  /-- `BoundedList._lock` of a span's links -/
  | links (x : Nat)
  /-- `logging.Handler.lock`, an `RLock` (Python standard library), held by `Handler.handle` while the handler emits a record -/
  | handler (h : Nat)
deriving DecidableEq

/-- Whether the lock is an `RLock`. -/
def Lock.reentrant : Lock → Bool
  | .reader _ => true
  | .storage _ => true
  | .attributes _ => true
  | .handler _ => true
  | _ => false

/-- What a thread does with locks. `maybe l` is `with l: …` behind a test whose outcome depends on the data (double-checked locking), so
that the lock is taken and released, or not taken at all. -/
inductive Act where
  | acquire (l : Lock)
  | release (l : Lock)
  | maybe (l : Lock)
deriving DecidableEq

/-- `with l: body` -/
def within (l : Lock) (body : List Act) : List Act := .acquire l :: body ++ [.release l]

/-- What belongs to what. -/
structure Sys where
  /-- the provider a reader is registered with -/
  providerOf : Nat → Nat
  /-- the readers of a provider, in order -/
  readersOf : Nat → List Nat
  /-- the provider of an SDK meter -/
  meterProvider : Nat → Nat
  /-- the provider of an instrument -/
  instrProvider : Nat → Nat
  /-- how many views an instrument has in a reader -/
  views : Nat → Nat → Nat
  /-- the attribute set that a view keeps of attributes `a` -/
  key : Nat → Nat → Nat → Nat → Nat
  /-- whether the reader is a `PeriodicExportingMetricReader` (else an `InMemoryMetricReader`) -/
  periodic : Nat → Bool

/-- `MetricReaderStorage.consume_measurement` and, for each view, `_ViewInstrumentMatch.consume_measurement`
(S/metric_reader_storage.py:78–124, S/_view_instrument_match.py:91–134): the lock of the storage only if the instrument is new,
the lock of the view only if the attributes are, then the lock of the aggregation, which `aggregate` takes (S/aggregation.py:190,
418, 513, 716). A `_DropAggregation` has no lock of its own to take (151–156); its section is one nobody else waits for. -/
def consume (S : Sys) (r i a : Nat) : List Act :=
  .maybe (.storage r) :: (List.range (S.views r i)).flatMap fun v =>
    .maybe (.viewMatch r i v) :: within (.aggregation r i v (S.key r i v a)) []

/-- `Counter.add` and the like: `SynchronousMeasurementConsumer.consume_measurement` (S/measurement_consumer.py:80–92), which holds no lock of
its own and gives the measurement to the storage of every reader. -/
def record (S : Sys) (i a : Nat) : List Act :=
  (S.readersOf (S.instrProvider i)).flatMap fun r => consume S r i a

/-- `Meter.create_counter`, `create_up_down_counter`, `create_histogram`, `create_gauge` (S/__init__.py:92–289): `_register_instrument`
(A:263–270) takes and releases the lock of the ids; then the instrument is looked up or stored under the other lock. -/
def createSync (m : Nat) : List Act :=
  within (.ids m) [] ++ within (.instruments m) []

/-- `Meter.create_observable_*` (S/__init__.py:156–195, 291–363): a new one is registered with the consumer, under the
lock of the consumer (S/measurement_consumer.py:94–101), an old one is not. -/
def createObservable (S : Sys) (m : Nat) : List Act :=
  within (.ids m) [] ++ .maybe (.consumer (S.meterProvider m)) :: within (.instruments m) []

/-- Creating an instrument, observable or not. -/
def create (S : Sys) (m : Nat) (observable : Bool) : List Act :=
  if observable then createObservable S m else createSync m

/-- `MeterProvider.get_meter` (S/__init__.py:553–583). -/
def getMeter (p : Nat) : List Act := within (.meters p) []

/-- `_ProxyMeterProvider.get_meter` (A:160–175): with its lock held it asks the real provider, if there is one. -/
def proxyGetMeter (real : Option Nat) : List Act :=
  within .proxyProvider (real.elim [] getMeter)

/-- `_ProxyMeter.create_*` (A:532–652): with its lock held it asks the real meter, if there is one. -/
def proxyCreate (S : Sys) (m : Nat) (real : Option Nat) (observable : Bool) : List Act :=
  within (.proxyMeter m) (real.elim [] fun x => create S x observable)

/-- `_ProxyMeter.on_set_meter_provider` (A:514–529): gets the real meter (number `x.2.1`), then, with its lock held, creates the real
instrument of each of its proxies (`on_meter_set`, opentelemetry-api/src/opentelemetry/metrics/_internal/instrument.py 133–139 and
the like); `x.2.2` says which are observable. -/
def proxyMeterSet (S : Sys) (p : Nat) (x : Nat × Nat × List Bool) : List Act :=
  getMeter p ++ within (.proxyMeter x.1) (x.2.2.flatMap (create S x.2.1))

/-- `set_meter_provider` (A:853–873), the first call: `Once.do_once` runs the function with its lock held (_once.py:42–46),
`_ProxyMeterProvider.on_set_meter_provider` (A:177–181) holds its own and goes through the proxy meters. -/
def setProvider (S : Sys) (p : Nat) (proxies : List (Nat × Nat × List Bool)) : List Act :=
  within .setOnce (within .proxyProvider (proxies.flatMap (proxyMeterSet S p)))

/-- `MetricReaderStorage.collect` (S/metric_reader_storage.py:126–240): with its lock held it collects each view of each instrument, which
holds the lock of the view while it takes the one of each aggregation (S/_view_instrument_match.py:136–155). The streams are
instrument, view and attribute sets, as they happen to be there. -/
def storageCollect (r : Nat) (streams : List (Nat × Nat × List Nat)) : List Act :=
  within (.storage r) (streams.flatMap fun x =>
    within (.viewMatch r x.1 x.2.1) (x.2.2.flatMap fun k => within (.aggregation r x.1 x.2.1 k) []))

/-- `SynchronousMeasurementConsumer.collect` (S/measurement_consumer.py:103–145): its lock is held while the callbacks run (`callbacks`: what
they do, and the observations as they are consumed) and while the storage is collected. -/
def consumerCollect (S : Sys) (r : Nat) (callbacks : List Act) (streams : List (Nat × Nat × List Nat)) : List Act :=
  within (.consumer (S.providerOf r)) (callbacks ++ storageCollect r streams)

/-- `_receive_metrics` of the readers (S/export/__init__.py:423–430, 540–555): the in-memory one stores the data under its
lock, the periodic one holds its lock while the exporter exports. -/
def receive (S : Sys) (r : Nat) (exporter : List Act) : List Act :=
  if S.periodic r then within (.exporting r) exporter else within (.reader r) []

/-- `MetricReader.collect` (S/export/__init__.py:321–348), which is also what `force_flush` (373–375) and a tick of the periodic reader (520–524) do: the metrics are
received if there are any, with the lock of the consumer released. -/
def collect (S : Sys) (r : Nat) (callbacks : List Act) (streams : List (Nat × Nat × List Nat)) (data : Bool)
    (exporter : List Act) : List Act :=
  consumerCollect S r callbacks streams ++ if data then receive S r exporter else []

/-- Calls of the API, and code of the application made of them. -/
inductive Op where
  | skip
  | seq (a b : Op)
  /-- a measurement of instrument `i` with attributes `a` -/
  | record (i a : Nat)
  /-- an observation that a callback has produced, consumed by the storage of reader `r` (S/measurement_consumer.py:128–139) -/
  | observed (r i a : Nat)
  | createSync (m : Nat)
  | createObservable (m : Nat)
  | getMeter (p : Nat)
  | proxyGetMeter (real : Option Nat)
  | proxyCreate (m : Nat) (real : Option Nat) (observable : Bool)
  | setProvider (p : Nat) (proxies : List (Nat × Nat × List Bool))
  /-- `MetricReader.collect`: what the callbacks do, what is there to collect, whether there is any data, what the exporter does -/
  | collect (r : Nat) (callbacks : Op) (streams : List (Nat × Nat × List Nat)) (data : Bool) (exporter : Op)
  /-- the first measurement of an instrument finds its views (S/metric_reader_storage.py:87–114, 250–315), with the lock of the storage held; what is
  logged about views that conflict or do not fit -/
  | matchViews (r : Nat) (logged : Op)
  /-- something is logged, by the application or the SDK: what handler `h` does with it -/
  | log (h : Nat) (emit : Op)
  /-- `Span.set_attribute(s)` (T:842–856), with the lock of the span held: the attributes are stored, or the span has ended and it is logged -/
  | setAttributes (x : Nat) (stores : Op)
  /-- one attribute is stored (opentelemetry-api/src/opentelemetry/attributes/__init__.py:167–187), or refused and logged -/
  | store (x : Nat) (logged : Op)
  /-- `Span.add_event` (T:859–880); what is logged about its attributes is logged before, with no lock of the span held -/
  | addEvent (x : Nat)
  /-- `Span.add_link` (T:882–905) -/
  | addLink (x : Nat)
  /-- `Span.update_name` (T:959–961) -/
  | updateName (x : Nat)
  /-- `Span.set_status` (T:966–995) and what it logs -/
  | setStatus (x : Nat) (logged : Op)
  /-- `Span.start` and `Span.end` (T:924–957): what is logged with the lock held if the span has been started or ended before, and what the processors do -/
  | boundary (x : Nat) (logged processors : Op)
  /-- reading the events, links and attributes of a span (T:455–464) -/
  | readSpan (x : Nat)
  /-- `InMemoryMetricReader.get_metrics_data` -/
  | getMetricsData (r : Nat) (callbacks : Op) (streams : List (Nat × Nat × List Nat)) (data : Bool)

/-- What a call does with locks. `get_metrics_data` (S/export/__init__.py:413–421) holds the lock of the reader while it collects. -/
def acts (S : Sys) : Op → List Act
  | .skip => []
  | .seq a b => acts S a ++ acts S b
  | .record i a => record S i a
  | .observed r i a => consume S r i a
  | .createSync m => createSync m
  | .createObservable m => createObservable S m
  | .getMeter p => getMeter p
  | .proxyGetMeter real => proxyGetMeter real
  | .proxyCreate m real observable => proxyCreate S m real observable
  | .setProvider p proxies => setProvider S p proxies
  | .collect r callbacks streams data exporter => collect S r (acts S callbacks) streams data (acts S exporter)
  | .matchViews r logged => within (.storage r) (acts S logged)
  | .log h emit => within (.handler h) (acts S emit)
  | .setAttributes x stores => within (.span x) (acts S stores)
  | .store x logged => within (.attributes x) (acts S logged)
  | .addEvent x => within (.span x) (within (.events x) [])
  | .addLink x => within (.span x) (within (.links x) [])
  | .updateName x => within (.span x) []
  | .setStatus x logged => within (.span x) (acts S logged)
  | .boundary x logged processors => within (.span x) (acts S logged) ++ acts S processors
  | .readSpan x => within (.events x) [] ++ within (.links x) [] ++ within (.attributes x) []
  | .getMetricsData r callbacks streams data =>
    within (.reader r) (collect S r (acts S callbacks) streams data [])

/-- `MeterProvider.force_flush` (S/__init__.py:466–498): every reader collects, one after the other; `PeriodicExportingMetricReader.force_flush`
(S/export/__init__.py:573–576) calls the `force_flush` of its exporter afterwards, with no lock held. `code r` are the callbacks, the streams, the
data, what the exporter does in `export` and in `force_flush` when reader `r` is flushed. -/
def forceFlush (S : Sys) (p : Nat) (code : Nat → Op × List (Nat × Nat × List Nat) × Bool × Op × Op) : Op :=
  (S.readersOf p).foldr (fun r o =>
    .seq (.seq (.collect r (code r).1 (code r).2.1 (code r).2.2.1 (code r).2.2.2.1) (if S.periodic r then (code r).2.2.2.2 else .skip)) o) .skip

/-- A thread: the locks it holds (a reentrant one as often as it was acquired) and what it still does. -/
structure Thread where
  held : List Lock
  rest : List Act
deriving DecidableEq

/-- The threads. -/
abbrev State := List Thread

/-- Thread `i` may take the lock: nobody else holds it, and it does not hold it itself, unless it is an `RLock`. -/
def free (s : State) (i : Nat) (l : Lock) : Prop :=
  ∀ j : Nat, ∀ t : Thread, s[j]? = some t → l ∈ t.held → j = i ∧ l.reentrant = true

/-- A step of thread `i` inside a call: it takes a lock; gives one back; needs the lock of a `maybe`, or does not need it. -/
inductive Move : State → Nat → State → Prop
  | acquire (s : State) (i : Nat) (t : Thread) (l : Lock) (rest : List Act) (h : s[i]? = some t)
      (next : t.rest = .acquire l :: rest) (ok : free s i l) : Move s i (s.set i ⟨l :: t.held, rest⟩)
  | release (s : State) (i : Nat) (t : Thread) (l : Lock) (rest : List Act) (h : s[i]? = some t)
      (next : t.rest = .release l :: rest) : Move s i (s.set i ⟨t.held.erase l, rest⟩)
  | need (s : State) (i : Nat) (t : Thread) (l : Lock) (rest : List Act) (h : s[i]? = some t)
      (next : t.rest = .maybe l :: rest) : Move s i (s.set i ⟨t.held, .acquire l :: .release l :: rest⟩)
  | needNot (s : State) (i : Nat) (t : Thread) (l : Lock) (rest : List Act) (h : s[i]? = some t)
      (next : t.rest = .maybe l :: rest) : Move s i (s.set i ⟨t.held, rest⟩)

/-- The states that `n` threads reach which make only calls `ok`: a thread that is not in a call may make one at any time. An exception in the code
of the application ends that code early (callbacks: S/instrument.py:148, exporters: S/export/__init__.py:553) or the call, and
`with` gives the locks back, which is what shorter code does. -/
inductive Reach (S : Sys) (ok : Op → Prop) (n : Nat) : State → Prop
  | start : Reach S ok n (List.replicate n ⟨[], []⟩)
  | call (s : State) (i : Nat) (t : Thread) (o : Op) (r : Reach S ok n s) (h : s[i]? = some t) (idle : t.rest = [])
      (allowed : ok o) : Reach S ok n (s.set i { t with rest := acts S o })
  | move (s s' : State) (i : Nat) (r : Reach S ok n s) (m : Move s i s') : Reach S ok n s'

end Locks
end Otel
