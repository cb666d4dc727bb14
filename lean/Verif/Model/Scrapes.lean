import Verif.Model.Prometheus
import Mathlib.Logic.Function.Basic
/-!
# Scrapes of the Prometheus exporter by several threads
Models `_CustomCollector` and `PrometheusMetricReader` (exporter/opentelemetry-exporter-prometheus/src/opentelemetry/exporter/prometheus/__init__.py:131–211, 366–385) with
`MetricReader.collect` and `force_flush` (opentelemetry-sdk/src/opentelemetry/sdk/metrics/_internal/export/__init__.py:323–370). The collector has no lock, `prometheus_client` serves
every scrape in a thread of its own, and `force_flush` may be called by any thread; one step of a thread is one operation on the shared queue, which is a `deque`, or the
collection (which the SDK makes under its lock).
-/
namespace Otel
namespace Scrapes
open Prom (PMetric Family Env)
variable {α ν : Type}

/-- A `MetricsData`: the attributes of its resources and the metrics of all of them. -/
structure Snap (α ν : Type) where
  resources : List (Dict Str α)
  metrics : List (PMetric α ν)

/-- What a scrape is given: the target info (an `InfoMetricFamily`, with its labels) or a family. -/
inductive Item (ν : Type) where
  | target (labels : Dict Str Str)
  | family (f : Family ν)

/-- `attributes = {**attributes, **res.resource.attributes}` over the resources (__init__.py:193–195), and `_create_info_metric` (373–385): the sanitised keys, a later value
replacing an earlier one under the same key. -/
def infoOf (env : Env α) (s : Snap α ν) : Dict Str Str :=
  let attributes := s.resources.foldl Dict.update []
  attributes.foldl (fun d kv => Dict.set d (Prom.sanitizeAttribute env.isdigit kv.1) (env.render kv.2)) []

/-- `metric_family_id_metric_family.values()`: the target info comes first if there is one (its key `target` is no other family's, those contain `|`). -/
def itemsOf (info : Option (Dict Str Str)) (d : Dict Str (Family ν)) : List (Item ν) :=
  (info.map Item.target).toList ++ d.map (fun kv => .family kv.2)

/-- A call of a user or of the client library. -/
inductive Call where
  | scrape
  | flush
deriving DecidableEq

/-- Where a thread is. `info` is the target info in the scrape's dictionary, `fams` the rest of the dictionary, `out` what it has been given. -/
inductive Phase (α ν : Type) where
  | idle
  /-- The collection is made, `add_metrics_data` not called yet; `scrape` says who collects. -/
  | hold (scrape : Bool) (s : Snap α ν)
  /-- Before `if len(self._metrics_datas)` (190). -/
  | check
  /-- Before `self._metrics_datas[0]` (194). -/
  | peek
  /-- Before `while self._metrics_datas` (205). -/
  | test (info : Option (Dict Str Str)) (fams : Dict Str (Family ν)) (out : List (Item ν))
  /-- Before `self._metrics_datas.popleft()` (207). -/
  | pop (info : Option (Dict Str Str)) (fams : Dict Str (Family ν)) (out : List (Item ν))

/-- What happens, in order. -/
inductive Ev (α ν : Type) where
  /-- A scrape (`true`) or a flush began; the collection it made. -/
  | began (t : Nat) (scrape : Bool) (s : Option (Snap α ν))
  | appended (t : Nat) (s : Snap α ν)
  | popped (t : Nat) (s : Snap α ν)
  /-- A scrape ended, with what it was given and whether an exception ended it. -/
  | scraped (t : Nat) (out : List (Item ν)) (raised : Bool)
  | flushed (t : Nat)

structure State (α ν : Type) where
  queue : List (Snap α ν)
  /-- `_target_info` -/
  info : Option (Dict Str Str)
  threads : List (List Call)
  phase : Nat → Phase α ν
  log : List (Ev α ν)

/-- The reader after `__init__`, the threads with their programs. -/
def start (progs : List (List Call)) : State α ν := ⟨[], none, progs, fun _ => .idle, []⟩

def State.goto (st : State α ν) (t : Nat) (p : Phase α ν) : State α ν := { st with phase := Function.update st.phase t p }
def State.event (st : State α ν) (e : Ev α ν) : State α ν := { st with log := st.log ++ [e] }

/-- The scrape of thread `t` ends. -/
def State.finish (st : State α ν) (t : Nat) (out : List (Item ν)) (raised : Bool) : State α ν := (st.goto t .idle).event (.scraped t out raised)

/-- One step of thread `t`; `c` is the result of the collection if the step makes one (`none` if there are no metrics). `disable` is `_disable_target_info`. `_target_info` is tested,
made from the first element, stored and read again (192–202) in one step with the access to that element: it never becomes `None` again, and what is made of it is the same for the
data of one provider. -/
def step (env : Env α) (disable : Bool) (t : Nat) (c : Option (Snap α ν)) (st : State α ν) : State α ν :=
  match st.phase t with
  | .idle =>
    match st.threads[t]? with
    | some (.flush :: rest) =>
      let st := { st with threads := st.threads.set t rest }.event (.began t false c)
      match c with
      | none => st.event (.flushed t)
      | some s => st.goto t (.hold false s)
    | some (.scrape :: rest) =>
      let st := { st with threads := st.threads.set t rest }.event (.began t true c)
      match c with
      | none => st.goto t .check
      | some s => st.goto t (.hold true s)
    | _ => st
  | .hold scrape s =>
    let st := { st with queue := st.queue ++ [s] }.event (.appended t s)
    if scrape then st.goto t .check else (st.goto t .idle).event (.flushed t)
  | .check =>
    if st.queue.isEmpty || disable then st.goto t (.test none [] [])
    else if st.info.isSome then st.goto t (.test st.info [] [])
    else st.goto t .peek
  | .peek =>
    match st.queue with
    | [] => st.finish t [] true
    | s :: _ => { st with info := some (infoOf env s) }.goto t (.test (some (infoOf env s)) [] [])
  | .test info fams out =>
    if st.queue.isEmpty then st.finish t out false else st.goto t (.pop info fams out)
  | .pop info fams out =>
    match st.queue with
    | [] => st.finish t out true
    | s :: rest =>
      let st := { st with queue := rest }.event (.popped t s)
      match Prom.translate env fams s.metrics with
      | none => st.finish t out true
      | some fams => st.goto t (.test info fams (out ++ itemsOf info fams))

/-- A schedule: which thread steps, and what a collection made in that step returns. -/
abbrev Sched (α ν : Type) := List (Nat × Option (Snap α ν))

def run (env : Env α) (disable : Bool) (sched : Sched α ν) (st : State α ν) : State α ν := sched.foldl (fun st (x : Nat × Option (Snap α ν)) => step env disable x.1 x.2 st) st

end Scrapes
end Otel
