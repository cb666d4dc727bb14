import Verif.Model.Py
/-!
# `InMemoryMetricReader` called by several threads
Models `InMemoryMetricReader.get_metrics_data` and `_receive_metrics` with `MetricReader.collect` and `force_flush`
(`opentelemetry-sdk/src/opentelemetry/sdk/metrics/_internal/export/__init__.py` 321–346, 366–368, 411–432), called by any number of threads while others record.
Which thread makes a call makes no difference, so calls have no names: those of `get_metrics_data` that wait for the reader's lock are in a list, the one that
has it is `getter`, and those of `force_flush` (also through the provider) that have collected and not yet stored are in a list.

A collection reads everything at one moment: collections exclude each other by the consumer's lock (`measurement_consumer.py` 98–140), and each stream is read
at some moment of it. One stream is modelled; its aggregation is replaced by the list of its measurements (module `Measured` has the sums).
-/
namespace Otel
namespace InMemory

variable {M : Type}

/-- Where the call of `get_metrics_data` that has the lock is (415–419): before `collect()`, with what it collected, or before it reads `_metrics_data`. -/
inductive Phase (M : Type) where
  | locked
  | collected (d : Option (List M))
  | stored

/-- What is seen: the call of `get_metrics_data` made when `since` measurements had been recorded returned `d`, or raised an exception; a call of
`force_flush` raised one; (not seen) data were overwritten. -/
inductive Ev (M : Type) where
  | got (since : Nat) (d : Option (List M))
  | getRaised
  | flushRaised
  | overwritten (d : List M)

/-- The shared state. `all` has all measurements recorded so far, `border` the number of them that have been collected, `slot` is `self._metrics_data`.
`waiting` and `getter` have (ghost) the number of measurements recorded when the call was made. -/
structure St (M : Type) where
  all : List M
  border : Nat
  slot : Option (List M)
  waiting : List Nat
  getter : Option (Nat × Phase M)
  flushing : List (List M)
  log : List (Ev M)

/-- A new reader (395–409). -/
def start : St M := ⟨[], 0, none, [], none, [], []⟩

/-- What a collection gives (`metric_reader_storage.py` 119–258): with delta temporality what was recorded since the last one, else everything; `None` if there
is nothing. -/
def collection (delta : Bool) (st : St M) : Option (List M) :=
  let d := if delta then st.all.drop st.border else st.all
  if d.isEmpty then none else some d

/-- `_receive_metrics` (423–430). -/
def receive (d : List M) (st : St M) : St M :=
  { st with slot := some d, log := st.log ++ (match st.slot with | some o => [.overwritten o] | none => []) }

/-- The scheduler's choices: a measurement is recorded; `get_metrics_data` is called; the `i`-th waiting call gets the lock; the call that has it goes on, its
collection raising an exception (a callback that takes too long) if `raises`; `force_flush` is called and collects; the `i`-th of these stores. -/
inductive Act (M : Type) where
  | record (m : M)
  | get
  | lock (i : Nat)
  | go (raises : Bool)
  | flush (raises : Bool)
  | store (i : Nat)

/-- One step; a choice that is not possible changes nothing. -/
def step (delta : Bool) (st : St M) : Act M → St M
  | .record m => { st with all := st.all ++ [m] }
  | .get => { st with waiting := st.waiting ++ [st.all.length] }
  | .lock i =>
    match st.getter, st.waiting[i]? with
    | none, some n => { st with waiting := st.waiting.eraseIdx i, getter := some (n, .locked) }
    | _, _ => st
  | .go raises =>
    match st.getter with
    | none => st
    | some (n, .locked) =>
      if raises then { st with getter := none, log := st.log ++ [.getRaised] }
      else { st with getter := some (n, .collected (collection delta st)), border := st.all.length }
    | some (n, .collected none) => { st with getter := some (n, .stored) }
    | some (n, .collected (some d)) => receive d { st with getter := some (n, .stored) }
    | some (n, .stored) => { st with getter := none, slot := none, log := st.log ++ [.got n st.slot] }
  | .flush raises =>
    if raises then { st with log := st.log ++ [.flushRaised] }
    else { st with flushing := st.flushing ++ (collection delta st).toList, border := st.all.length }
  | .store i =>
    match st.getter, st.flushing[i]? with
    | none, some d => receive d { st with flushing := st.flushing.eraseIdx i }
    | _, _ => st

/-- Any number of steps. -/
def run (delta : Bool) (st : St M) (l : List (Act M)) : St M := l.foldl (step delta) st

end InMemory
end Otel
