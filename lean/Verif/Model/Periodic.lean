import Verif.Model.Py
/-!
# `PeriodicExportingMetricReader` as a transition system
Models `opentelemetry-sdk/src/opentelemetry/sdk/metrics/_internal/export/__init__.py` 436–576 with any number of threads calling
`force_flush` and `shutdown`, the ticker thread, and threads recording measurements. Steps are accesses to shared state. `Once` is one
atomic step here (its concurrent behaviour is `Verif.Model.Once`). A collection reads everything recorded at one moment (in the code each
stream is read at some moment between the start and the end of the collection). Forking is in `Verif.Model.Fork`.
-/
namespace Otel
namespace Periodic

/-- How `self._collect(...)` ends (`MetricReader.collect`, 321–346): with metrics, with `None`, with `MetricsTimeoutError`, or with another
exception. -/
inductive CRes where
  | data | nothing | timeout | other
deriving DecidableEq

/-- Who does something: the ticker thread or the `i`-th call of a user. -/
inductive Tid where
  | ticker
  | user (i : Nat)
deriving DecidableEq

/-- The ticker's position in `_ticker` (520–538). `final` is the collection after the loop. -/
inductive TPC where
  | wait
  | collect (final : Bool)
  | want (final : Bool) (v : Nat)
  | exporting (final : Bool) (v : Nat)
  | finished
  | dead
deriving DecidableEq

/-- A user call: `force_flush` (573–576) or `shutdown` (557–571). -/
inductive UPC where
  | fCollect
  | fWant (v : Nat)
  | fExporting (v : Nat)
  | fFlush
  | fRet
  | fRaised
  | sStart
  | sSet
  | sJoin
  | sExp (late : Bool)
  | sRet (late : Bool)
  | sRefused
deriving DecidableEq

/-- A user call with (ghost) the number of measurements recorded when it was made. -/
structure User where
  before : Nat
  pc : UPC
deriving DecidableEq

/-- What happens, in order. `v` is the number of measurements the collection covers. -/
inductive Ev where
  | collected (who : Tid) (final : Bool) (v : Nat) (c : CRes)
  | exportBegin (who : Tid) (v : Nat)
  | exportEnd (who : Tid)
  | exporterFlush
  | exporterShutdown (i : Nat) (late : Bool)
deriving DecidableEq

structure St where
  /-- `none`: no thread (interval `math.inf`). -/
  ticker : Option TPC
  event : Bool
  once : Bool
  lock : Option Tid
  users : List User
  recorded : Nat
  log : List Ev
deriving DecidableEq

/-- The constructor (446–510); `thread` is false for an infinite interval. -/
def init (thread : Bool) : St := ⟨if thread then some .wait else none, false, false, none, [], 0, []⟩

/-- The scheduler's choices. `c` is how a collection ends if one ends in this step, `late` whether `join` times out. Whether `export`
raises does not matter: `_receive_metrics` (540–555) swallows it. -/
inductive Act where
  | record
  | callFlush
  | callShutdown
  | ticker (c : CRes)
  | user (i : Nat) (c : CRes) (late : Bool)
deriving DecidableEq

/-- Where the ticker goes after a collection (520–538): back to the loop, or it ends. -/
def after : Bool → TPC
  | true => .finished
  | false => .wait

/-- One step of the ticker. -/
def tstep (s : St) (p : TPC) (c : CRes) : St :=
  match p with
  | .wait => { s with ticker := some (.collect s.event) }
  | .collect final =>
    let s : St := { s with log := s.log ++ [.collected .ticker final s.recorded c] }
    match c with
    | .data => { s with ticker := some (.want final s.recorded) }
    | .nothing => { s with ticker := some (after final) }
    | .timeout => { s with ticker := some (after final) }
    | .other => { s with ticker := some .dead }
  | .want final v =>
    match s.lock with
    | none => { s with lock := some .ticker, ticker := some (.exporting final v), log := s.log ++ [.exportBegin .ticker v] }
    | some _ => s
  | .exporting final _ => { s with lock := none, ticker := some (after final), log := s.log ++ [.exportEnd .ticker] }
  | .finished => s
  | .dead => s

/-- Move user call `i` on. -/
def goto (s : St) (i : Nat) (u : User) (pc : UPC) : St := { s with users := s.users.set i ⟨u.before, pc⟩ }

/-- Is the ticker thread over, so that `join` returns? -/
def St.tickerOver (s : St) : Bool :=
  match s.ticker with
  | none => true
  | some .finished => true
  | some .dead => true
  | _ => false

/-- One step of a user call. -/
def ustep (s : St) (i : Nat) (u : User) (c : CRes) (late : Bool) : St :=
  match u.pc with
  | .fCollect =>
    let s : St := { s with log := s.log ++ [.collected (.user i) false s.recorded c] }
    match c with
    | .data => goto s i u (.fWant s.recorded)
    | .nothing => goto s i u .fFlush
    | .timeout => goto s i u .fRaised
    | .other => goto s i u .fRaised
  | .fWant v =>
    match s.lock with
    | none => { goto s i u (.fExporting v) with lock := some (.user i), log := s.log ++ [.exportBegin (.user i) v] }
    | some _ => s
  | .fExporting _ => { goto s i u .fFlush with lock := none, log := s.log ++ [.exportEnd (.user i)] }
  | .fFlush => { goto s i u .fRet with log := s.log ++ [.exporterFlush] }
  | .sStart => if s.once then goto s i u .sRefused else { goto s i u .sSet with once := true }
  | .sSet => { goto s i u .sJoin with event := true }
  | .sJoin => if s.tickerOver then goto s i u (.sExp false) else if late then goto s i u (.sExp true) else s
  | .sExp l => { goto s i u (.sRet l) with log := s.log ++ [.exporterShutdown i l] }
  | .fRet => s
  | .fRaised => s
  | .sRet _ => s
  | .sRefused => s

/-- One step. -/
def step (s : St) : Act → St
  | .record => { s with recorded := s.recorded + 1 }
  | .callFlush => { s with users := s.users ++ [⟨s.recorded, .fCollect⟩] }
  | .callShutdown => { s with users := s.users ++ [⟨s.recorded, .sStart⟩] }
  | .ticker c =>
    match s.ticker with
    | none => s
    | some p => tstep s p c
  | .user i c late =>
    match s.users[i]? with
    | none => s
    | some u => ustep s i u c late

/-- A run. -/
def run (thread : Bool) (acts : List Act) : St := acts.foldl step (init thread)

end Periodic
end Otel
