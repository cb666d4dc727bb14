import Verif.Model.Metrics
/-!
# The time intervals of metric points
Every point of a sum or a histogram says from when to when. The two ends are read from the wall clock, at different places and by different threads. Models the readings of `time_ns` in
`opentelemetry-sdk/src/opentelemetry/sdk/metrics/_internal/`: `instrument.py` 143, 171, 195, 263, 287 (the time of a measurement), `_view_instrument_match.py` 108–139 (the start of a stream),
`metric_reader_storage.py` 139 (the time of a collection), and what `aggregation.py` does with them (156–403, 549–611, 852–1071). One reader and one set of streams (an instrument and a view); what is
aggregated is a list of measurements. Left out: the reader storage's lock (it makes the creation of a set of streams wait for a collection, C95), gauges (their points have no start), timeouts, and the value of a point (C29–C36).
-/
namespace Otel
namespace Intervals
open Metrics (Temporality)

/-- A measurement: which one, when `add` or `record` (or the callback's observation) read the clock, when it was aggregated. -/
structure Meas where
  id : Nat
  stamp : Int
  fed : Int
deriving DecidableEq, Repr

/-- A point: `start_time_unix_nano`, `time_unix_nano`, and the measurements it sums up. -/
structure Point where
  start : Int
  time : Int
  contents : List Meas
deriving DecidableEq, Repr

/-- What an aggregation keeps: `_start_time_unix_nano`, `_previous_collection_start_nano`, `_value` and `_previous_value` (aggregation.py:165–185, 468–506, 630–708). -/
structure Agg where
  start : Int
  prev : Int
  value : Option (List Meas)
  total : List Meas
deriving DecidableEq, Repr

/-- The constructors (aggregation.py:165–185, 468–506, 630–708). -/
def Agg.new (start : Int) : Agg := { start := start, prev := start, value := none, total := [] }

/-- `aggregate` (aggregation.py:187–196, 511–525, 713–760), under the aggregation's lock. -/
def Agg.aggregate (a : Agg) (x : Meas) : Agg := { a with value := some (a.value.getD [] ++ [x]) }

/-- `collect` (aggregation.py:320–403, 549–611, 852–1071), under the aggregation's lock; `inst`: the temporality of the instrument (delta for the synchronous ones), `coll`: that of the reader.
For `inst = cumulative`, aggregation.py:369–403: only sums do it. -/
def Agg.collect (inst coll : Temporality) (a : Agg) (now : Int) : Option Point × Agg :=
  match inst, coll with
  | .delta, .delta =>
    match a.value with
    | none => (none, { a with prev := now })
    | some v => (some ⟨a.prev, now, v⟩, { a with value := none, prev := now })
  | .delta, .cumulative =>
    (some ⟨a.start, now, a.total ++ a.value.getD []⟩, { a with value := none, total := a.total ++ a.value.getD [] })
  | .cumulative, .delta =>
    match a.value with
    | none => (none, a)
    | some v => (some ⟨a.prev, now, v⟩, { a with value := none, prev := now })
  | .cumulative, .cumulative =>
    match a.value with
    | none => (none, a)
    | some v => (some ⟨a.start, now, v⟩, { a with value := none })

variable {K : Type} [DecidableEq K]

/-- A call: a measurement for a stream, or a collection, with the streams the callbacks observe. -/
inductive Call (K : Type) where
  | record (k : K)
  | collect (obs : List K)
deriving DecidableEq

/-- Where a thread is in recording a measurement. -/
inductive Rec (K : Type) where
  | stamp (k : K)
  | look (k : K) (id : Nat) (s : Int)
  | enter (k : K) (id : Nat) (s : Int)
  | check (k : K) (id : Nat) (s : Int)
  | insert (k : K) (id : Nat) (s start : Int)
  | agg (k : K) (id : Nat) (s : Int)
deriving DecidableEq

/-- Where a thread is: between calls; in `add`/`record` (`none`) or in consuming the observations of a collection (`some` of those to come); reading the clock for the collection; about to iterate over the streams; iterating; done. -/
inductive Phase (K : Type) where
  | idle
  | recording (p : Rec K) (after : Option (List K))
  | observe (rest : List K)
  | scan (now : Int)
  | item (now : Int) (i : Nat)
  | finish
deriving DecidableEq

/-- A thread and the calls it has still to make. -/
structure Thread (K : Type) where
  phase : Phase K
  calls : List (Call K)
deriving DecidableEq

/-- What happens. -/
inductive Ev (K : Type) where
  | stamped (id : Nat) (k : K) (s : Int)
  | created (k : K) (id : Nat) (start : Int)
  | fed (k : K) (x : Meas)
  | began (t : Nat) (now : Int)
  | read (t : Nat) (now : Int)
  | collected (t : Nat) (k : K) (now : Int) (out : Option Point)
  | ended (t : Nat)
deriving DecidableEq

/-- The clock (`time_ns`), the consumer's lock (measurement_consumer.py:63), the lock of the set of streams (_view_instrument_match.py:46), the streams (`_attributes_aggregation`), the threads, the history. -/
structure State (K : Type) where
  clock : Int
  consumer : Option Nat
  set : Option Nat
  streams : List (K × Agg)
  next : Nat
  threads : List (Thread K)
  log : List (Ev K)

/-- `dict[key].aggregate(measurement)` for a key that is there. -/
def modify (k : K) (f : Agg → Agg) : List (K × Agg) → List (K × Agg)
  | [] => []
  | (k', a) :: l => if k' = k then (k', f a) :: l else (k', a) :: modify k f l

/-- Recording, step by step (instrument.py:171, _view_instrument_match.py:108–139): `none`: blocked; the second component is what comes next, if anything. -/
def recStep (st : State K) (t : Nat) : Rec K → Option (State K × Option (Rec K))
  | .stamp k => some ({ st with next := st.next + 1, log := st.log ++ [.stamped st.next k st.clock] }, some (.look k st.next st.clock))
  -- _view_instrument_match.py:108
  | .look k id s => some (st, some (if k ∈ st.streams.map Prod.fst then .agg k id s else .enter k id s))
  -- _view_instrument_match.py:109
  | .enter k id s => if st.set = none then some ({ st with set := some t }, some (.check k id s)) else none
  -- _view_instrument_match.py:110–129
  | .check k id s =>
    if k ∈ st.streams.map Prod.fst then some ({ st with set := none }, some (.agg k id s))
    else some ({ st with log := st.log ++ [.created k id st.clock] }, some (.insert k id s st.clock))
  -- _view_instrument_match.py:130–135
  | .insert k id s start => some ({ st with set := none, streams := st.streams ++ [(k, Agg.new start)] }, some (.agg k id s))
  -- _view_instrument_match.py:137–139
  | .agg k id s => some ({ st with streams := modify k (·.aggregate ⟨id, s, st.clock⟩) st.streams, log := st.log ++ [.fed k ⟨id, s, st.clock⟩] }, none)

/-- One step of thread `t`. -/
def exec (inst coll : Temporality) (st : State K) (t : Nat) (th : Thread K) : Option (State K × Thread K) :=
  match th.phase with
  | .idle =>
    match th.calls with
    | [] => none
    | .record k :: r => some (st, ⟨.recording (.stamp k) none, r⟩)
    -- measurement_consumer.py:108
    | .collect obs :: r => if st.consumer = none then some ({ st with consumer := some t, log := st.log ++ [.began t st.clock] }, ⟨.observe obs, r⟩) else none
  | .recording p after =>
    match recStep st t p with
    | none => none
    | some (st', some p') => some (st', ⟨.recording p' after, th.calls⟩)
    | some (st', none) => some (st', ⟨match after with | none => .idle | some rest => .observe rest, th.calls⟩)
  -- measurement_consumer.py:117–141
  | .observe (k :: rest) => some (st, ⟨.recording (.stamp k) (some rest), th.calls⟩)
  -- metric_reader_storage.py:139
  | .observe [] => some ({ st with log := st.log ++ [.read t st.clock] }, ⟨.scan st.clock, th.calls⟩)
  -- _view_instrument_match.py:147
  | .scan now => if st.set = none then some ({ st with set := some t }, ⟨.item now 0, th.calls⟩) else none
  -- _view_instrument_match.py:148–153
  | .item now i =>
    match st.streams[i]? with
    | some (k, a) => some ({ st with streams := st.streams.set i (k, (a.collect inst coll now).2), log := st.log ++ [.collected t k now (a.collect inst coll now).1] }, ⟨.item now (i + 1), th.calls⟩)
    | none => some ({ st with set := none }, ⟨.finish, th.calls⟩)
  -- measurement_consumer.py:143–145
  | .finish => some ({ st with consumer := none, log := st.log ++ [.ended t] }, ⟨.idle, th.calls⟩)

/-- What the environment does next: a thread runs, or the clock changes (by a negative amount, if it is set back). -/
inductive Move where
  | go (t : Nat)
  | tick (d : Int)
deriving DecidableEq

/-- One step. -/
def step (inst coll : Temporality) (st : State K) : Move → State K
  | .tick d => { st with clock := st.clock + d }
  | .go t =>
    match st.threads[t]? with
    | none => st
    | some th =>
      match exec inst coll st t th with
      | none => st
      | some (st', th') => { st' with threads := st'.threads.set t th' }

/-- A new set of streams, and threads with their calls. -/
def State.init (clock : Int) (progs : List (List (Call K))) : State K :=
  { clock := clock, consumer := none, set := none, streams := [], next := 0, threads := progs.map fun p => ⟨.idle, p⟩, log := [] }

/-- A schedule. -/
def run (inst coll : Temporality) (clock : Int) (progs : List (List (Call K))) (sched : List Move) : State K := sched.foldl (step inst coll) (.init clock progs)

end Intervals
end Otel
