import Verif.Model.Py
/-!
# How long metrics take
Models `PeriodicExportingMetricReader` (`opentelemetry-sdk/src/opentelemetry/sdk/metrics/_internal/export/__init__.py` 436–576) in time: its ticker thread, the one call of `shutdown` that is not
refused, and threads recording measurements; and `MeterProvider.shutdown` (`metrics/_internal/__init__.py` 502–551) over several readers. Time is in nanoseconds. It passes while the ticker
waits, while the callbacks of observable instruments run, while the exporter works, and while `shutdown` waits; the other statements take no time, and a thread whose wait is over goes on at
once. Callbacks and the exporter are taken to return within given times. There are no calls of `force_flush` here (`Verif.Model.Periodic` has them, without times), and aggregation is left out: a
collection reads the measurements made since the last one that read any.
-/
namespace Otel
namespace Periods

structure Cfg where
  /-- `export_interval_millis`, in nanoseconds, which is positive (505–509) and taken finite -/
  interval : Nat
  /-- `export_timeout_millis`, in nanoseconds -/
  timeout : Nat
  /-- Are there observable instruments? Only their callbacks are timed (`measurement_consumer.py` 118–130). -/
  callbacks : Bool
  /-- The callbacks of a collection return within this time. -/
  slow : Nat
  /-- `export` of the exporter returns within this time. -/
  send : Nat
  /-- How long `shutdown` of the exporter waits for an export that is under way. The reader passes the remaining time as `timeout` (571), which no exporter of the repository has as a
  parameter: the gRPC exporter waits for its default of 30 s (`exporter.py` 355–363), the HTTP and console exporters do not wait. -/
  patience : Nat

/-- Where the ticker is. `last` is the collection after the loop (531–532). -/
inductive Pc where
  /-- in `self._shutdown_event.wait(interval_secs)` (522), until `till` at the latest -/
  | waiting (till : Nat)
  /-- in a collection begun at `since` (524, 533): the callbacks -/
  | collecting (since : Nat) (last : Bool)
  /-- in `self._exporter.export` (550), called at `since` -/
  | exporting (since : Nat) (last : Bool)
  | over
deriving DecidableEq

/-- Where the call of `shutdown` is. -/
inductive Caller where
  | idle
  /-- in `join` (570) until `till` at the latest -/
  | joining (till : Nat)
  /-- in `self._exporter.shutdown` (571), until `till` at the latest -/
  | closing (till : Nat)
  /-- returned at that time -/
  | returned (t : Nat)
deriving DecidableEq

/-- A measurement and when it was made. -/
structure Item (σ : Type) where
  value : σ
  time : Nat
deriving DecidableEq

/-- A measurement passed to `export`: when, and had `shutdown` of the exporter been called? -/
structure Sent (σ : Type) where
  item : Item σ
  time : Nat
  closed : Bool
deriving DecidableEq

structure St (σ : Type) where
  now : Nat
  pc : Pc
  /-- `self._shutdown_event` -/
  event : Bool
  caller : Caller
  /-- measurements no collection has read -/
  fresh : List (Item σ)
  sent : List (Sent σ)
  /-- when the collections of the loop began, newest first -/
  begun : List Nat
  /-- the time and the argument of the call of `shutdown` -/
  asked : Option (Nat × Nat)
  /-- when `shutdown` of the exporter was called -/
  closed : Option Nat
deriving DecidableEq

variable {σ : Type}

/-- The constructor (446–510) and the ticker's first line (521). -/
def init (σ : Type) (c : Cfg) : St σ :=
  { now := 0, pc := .waiting c.interval, event := false, caller := .idle, fresh := [], sent := [], begun := [], asked := none, closed := none }

inductive Act (σ : Type) where
  /-- Time passes. -/
  | tick (d : Nat)
  /-- A measurement is recorded. -/
  | record (x : σ)
  /-- The ticker's wait is over. -/
  | wake
  /-- The callbacks of a collection have returned; `more` says that there are data to export besides new measurements. -/
  | collected (more : Bool)
  /-- `export` returns (or raises: 552–553). -/
  | exported
  /-- `shutdown(timeout_millis)`, in nanoseconds -/
  | shutdown (t : Nat)
  /-- `join` returns. -/
  | joined
  /-- `shutdown` of the exporter returns. -/
  | done

/-- May time pass up to `t`, as far as the ticker is concerned? -/
def tickerAllows (c : Cfg) (event : Bool) (t : Nat) : Pc → Bool
  | .waiting till => !event && t ≤ till
  | .collecting since _ => t ≤ since + c.slow
  | .exporting since _ => t ≤ since + c.send
  | .over => true

/-- Is the exporter at work? -/
def Pc.busy : Pc → Bool
  | .exporting _ _ => true
  | _ => false

/-- May time pass up to `t`, as far as the call of `shutdown` is concerned? -/
def callerAllows (pc : Pc) (t : Nat) : Caller → Bool
  | .joining till => pc ≠ .over && t ≤ till
  | .closing till => pc.busy && t ≤ till
  | _ => true

/-- The ticker goes on after a collection (522–529, 537–538): back to the wait, or it ends. -/
def St.next (c : Cfg) (st : St σ) (last : Bool) : St σ := { st with pc := if last then .over else .waiting (st.now + c.interval) }

/-- `collect` (measurement_consumer.py 118–130): the deadline is checked after each callback, so a collection fails exactly if the last one it waited for came too late. -/
def late (c : Cfg) (now since timeout : Nat) : Bool := c.callbacks && since + timeout ≤ now

/-- The timeout of a collection: 524, 533. -/
def limit (c : Cfg) (last : Bool) : Nat := if last then c.interval else c.timeout

def step (c : Cfg) (st : St σ) : Act σ → St σ
  | .tick d => if tickerAllows c st.event (st.now + d) st.pc && callerAllows st.pc (st.now + d) st.caller then { st with now := st.now + d } else st
  | .record x => { st with fresh := st.fresh ++ [⟨x, st.now⟩] }
  | .wake =>
    -- 522–524, 531–533
    match st.pc with
    | .waiting till =>
      if st.event then { st with pc := .collecting st.now true }
      else if till ≤ st.now then { st with pc := .collecting st.now false, begun := st.now :: st.begun }
      else st
    | _ => st
  | .collected more =>
    match st.pc with
    | .collecting since last =>
      -- 525–530, 534–538, and `MetricReader.collect` (321–346): no data, no export
      if late c st.now since (limit c last) then st.next c last
      else if st.fresh = [] ∧ more = false then st.next c last
      else { st with pc := .exporting st.now last, fresh := [], sent := st.sent ++ st.fresh.map fun i => ⟨i, st.now, st.closed.isSome⟩ }
    | _ => st
  | .exported =>
    match st.pc with
    | .exporting _ last => st.next c last
    | _ => st
  | .shutdown t =>
    -- 557–570; a second call is refused
    if st.asked = none then { st with event := true, asked := some (st.now, t), caller := .joining (st.now + t) } else st
  | .joined =>
    -- 570–571
    match st.caller with
    | .joining till => if st.pc = .over ∨ till ≤ st.now then { st with caller := .closing (st.now + c.patience), closed := some st.now } else st
    | _ => st
  | .done =>
    match st.caller with
    | .closing till => if st.pc.busy = false ∨ till ≤ st.now then { st with caller := .returned st.now } else st
    | _ => st

def runFrom (c : Cfg) (st : St σ) (acts : List (Act σ)) : St σ := acts.foldl (step c) st
def run (c : Cfg) (acts : List (Act σ)) : St σ := runFrom c (init σ c) acts

/-- `MeterProvider.shutdown` (502–551) with `total` nanoseconds, at `now`: a reader is a function from the time it is given to the time its `shutdown` takes. The result is the time taken and,
for each reader, the time it was given, or `none` if the deadline had passed (524–528). -/
def provider (total : Nat) : Nat → List (Nat → Nat) → Nat × List (Option Nat)
  | now, [] => (now, [])
  | now, r :: rs =>
    if total ≤ now then
      let rest := provider total now rs
      (rest.1, none :: rest.2)
    else
      let rest := provider total (now + r (total - now)) rs
      (rest.1, some (total - now) :: rest.2)

end Periods
end Otel
