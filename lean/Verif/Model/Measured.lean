import Verif.Model.Recording
/-!
# From the measurement to the exporter
`Verif.Model.Recording` runs the threads that record and collect; `Verif.Model.Periodic` counts measurements. Here a collection's result is what a periodic reader exports: models
`opentelemetry-sdk/src/opentelemetry/sdk/metrics/_internal/export/__init__.py` 322–346 (`collect`) and 540–555 (`_receive_metrics`) on top of `Verif.Model.Recording`. Any thread may collect (the ticker,
callers of `force_flush`, 573–576); a thread's next call begins when its export has ended. Left out: `shutdown`, timeouts of callbacks and forks (C52, C61, C93), what `exporter.force_flush` does.
-/
namespace Otel
namespace Measured
open Recording (Slot Env Call Reply)

/-- A point: the stream it comes from and what the stream gave. -/
abbrev Pt (K P : Type) := Slot × K × P

/-- Where a thread is: not at a collection's result; with a result, still holding the consumer's lock; waiting for the reader's `_export_lock`; in `exporter.export`. -/
inductive Phase (K P : Type) where
  | idle
  | took (r : Nat) (b : List (Pt K P))
  | want (r : Nat) (b : List (Pt K P))
  | sending (r : Nat) (b : List (Pt K P))
deriving DecidableEq

/-- What the exporter of reader `r` sees: thread `t` calls `export`; the call ends, with success or not (`FAILURE` and an exception are the same here: line 551 ignores the result, 552–553 the exception). -/
inductive XEv (K P : Type) where
  | start (t r : Nat) (b : List (Pt K P))
  | done (t r : Nat) (b : List (Pt K P)) (ok : Bool)
deriving DecidableEq

/-- The SDK, what each thread has collected so far (local variables of `MetricReaderStorage.collect`, metric_reader_storage.py:134–248), the `_export_lock`s. -/
structure State (K I P S : Type) where
  core : Recording.State K I (Option P) S
  acc : Nat → List (Pt K P)
  phase : Nat → Phase K P
  busy : Nat → Option Nat
  exports : List (XEv K P)

variable {K I P S : Type} [DecidableEq K] [DecidableEq P]

/-- The points that thread `t` gets in these events; a stream without a point gives `None` and is left out (metric_reader_storage.py:156–162, _view_instrument_match.py:148–153). -/
def points (t : Nat) (evs : List (Recording.Ev K I (Option P))) : List (Pt K P) :=
  evs.filterMap fun
    | .collected u s k _ (some p) => if u = t then some (s, k, p) else none
    | _ => none

/-- After a step of thread `t` in the SDK whose code was `m`. A result without any point is `None` and is not exported (metric_reader_storage.py:248, export/__init__.py:342). -/
def handle (st : State K I P S) (t : Nat) (m : Recording.Micro I) (core : Recording.State K I (Option P) S) : State K I P S :=
  let got := st.acc t ++ points t (core.log.drop st.core.log.length)
  match m, st.phase t with
  | .ended r, _ => { st with core := core, acc := Function.update st.acc t [], phase := Function.update st.phase t (.took r got) }
  | .unlock .consumer, .took r b =>
    { st with core := core, acc := Function.update st.acc t got, phase := Function.update st.phase t (if b = [] then .idle else .want r b) }
  | _, _ => { st with core := core, acc := Function.update st.acc t got }

/-- One step of thread `t`; `reply` is what a callback does, `ok` how an export ends. `none`: blocked or finished. -/
def advance (env : Env K I (Option P) S) (st : State K I P S) (t : Nat) (reply : Reply I) (ok : Bool) : Option (State K I P S) :=
  match st.phase t with
  -- export/__init__.py:549
  | .want r b =>
    if st.busy r = none then
      some { st with busy := Function.update st.busy r (some t), phase := Function.update st.phase t (.sending r b), exports := st.exports ++ [.start t r b] }
    else none
  -- export/__init__.py:550–553
  | .sending r b => some { st with busy := Function.update st.busy r none, phase := Function.update st.phase t .idle, exports := st.exports ++ [.done t r b ok] }
  | _ =>
    match st.core.threads[t]? with
    | some (m :: _) =>
      match Recording.exec env st.core t reply m with
      | some _ => some (handle st t m (Recording.step env st.core (t, reply)))
      | none => none
    | _ => none

/-- A scheduled step. -/
def step (env : Env K I (Option P) S) (st : State K I P S) (mv : Nat × Reply I × Bool) : State K I P S := (advance env st mv.1 mv.2.1 mv.2.2).getD st

/-- The start. -/
def State.init (progs : List (List (Call I))) : State K I P S := ⟨.init progs, fun _ => [], fun _ => .idle, fun _ => none, []⟩

/-- A schedule. -/
def run (env : Env K I (Option P) S) (progs : List (List (Call I))) (sched : List (Nat × Reply I × Bool)) : State K I P S := sched.foldl (step env) (.init progs)

end Measured
end Otel
