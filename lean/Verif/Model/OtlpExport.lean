import Verif.Model.Py
/-!
# OTLP export: retries, splitting, shutdown
Models `exporter/opentelemetry-exporter-otlp-proto-grpc/src/opentelemetry/exporter/otlp/proto/grpc/exporter.py`, `metric_exporter/__init__.py`
next to it, the exporters of `exporter/opentelemetry-exporter-otlp-proto-http/src/opentelemetry/exporter/otlp/proto/http/` and
`_create_exp_backoff_generator` (`exporter/opentelemetry-exporter-otlp-proto-common/…/_internal/__init__.py` 179–211).
-/
namespace Otel
namespace Export

/-! ## Retries -/

/-- The `i`-th value of `_create_exp_backoff_generator(max_value)`. -/
def backoff (maxValue i : Nat) : Nat := if maxValue = 0 then 2 ^ i else min (2 ^ i) maxValue

/-- What one attempt tells the retry loop: it succeeded, must not be repeated, may be repeated (with the delay in nanoseconds the server
asks for, if it does), or raised something the loop does not catch. -/
inductive Verdict where
  | ok
  | fail
  | retry (delay : Option Int)
  | raises
deriving DecidableEq

inductive Outcome where
  | success
  | failure
  | raised
deriving DecidableEq

/-- What an export does: a request, or a sleep (in nanoseconds). -/
inductive Act where
  | attempt (i : Nat)
  | sleep (d : Int)
deriving DecidableEq

/-- The retry loop from its `i`-th round (gRPC: exporter.py:292–353, HTTP: trace_exporter/__init__.py:152–178). `shut i` is `self._shutdown`
as the `i`-th round reads it (constantly `False` for HTTP, which does not look), `verdict i` the answer to the `i`-th attempt. `time.sleep` of
a negative number raises `ValueError`. The delay read from `RetryInfo` is a float in the code; here it is an exact number of nanoseconds. -/
def loop (shut : Nat → Bool) (verdict : Nat → Verdict) (i : Nat) : Outcome × List Act :=
  if h : backoff 64 i = 64 then (.failure, [])
  else if shut i then (.failure, [])
  else match verdict i with
    | .ok => (.success, [.attempt i])
    | .fail => (.failure, [.attempt i])
    | .raises => (.raised, [.attempt i])
    | .retry d =>
      let delay := d.getD (backoff 64 i * 1000000000)
      if delay < 0 then (.raised, [.attempt i])
      else
        let r := loop shut verdict (i + 1)
        (r.1, .attempt i :: .sleep delay :: r.2)
termination_by 6 - i
decreasing_by
  have : i < 6 := by
    rcases Nat.lt_or_ge i 6 with h6 | h6
    · exact h6
    · exfalso
      apply h
      have : 2 ^ 6 ≤ 2 ^ i := Nat.pow_le_pow_right (by decide) h6
      have h64 : (64 : Nat) ≤ 2 ^ i := this
      show (if (64 : Nat) = 0 then 2 ^ i else min (2 ^ i) 64) = 64
      rw [if_neg (by decide), Nat.min_eq_right h64]
  omega

/-- The status codes of gRPC. -/
inductive Code where
  | ok | cancelled | unknown | invalidArgument | deadlineExceeded | notFound | alreadyExists | permissionDenied | unauthenticated
  | resourceExhausted | failedPrecondition | aborted | outOfRange | unimplemented | internal | unavailable | dataLoss
deriving DecidableEq

/-- The list in exporter.py:307–315. -/
def Code.retryable : Code → Bool
  | .cancelled | .deadlineExceeded | .resourceExhausted | .aborted | .outOfRange | .unavailable | .dataLoss => true
  | _ => false

/-- What the stub does: returns, raises `RpcError` with a code and perhaps a `RetryInfo`, or raises something else (as does
`_translate_data`). -/
inductive GrpcAnswer where
  | returned
  | error (c : Code) (retryInfo : Option (Int × Int))
  | other

/-- exporter.py:297–351. -/
def grpcVerdict : GrpcAnswer → Verdict
  | .returned => .ok
  | .error c info =>
    if c.retryable then .retry (info.map (fun sn => sn.1 * 1000000000 + sn.2))
    else if c = .ok then .ok
    else .fail
  | .other => .raises

/-- `OTLPExporterMixin._export` (exporter.py:270–353). -/
def grpcExport (shutAtStart : Bool) (shut : Nat → Bool) (answers : Nat → GrpcAnswer) : Outcome × List Act :=
  if shutAtStart then (.failure, []) else loop shut (fun i => grpcVerdict (answers i)) 0

/-- `requests`: a response with a status, or an exception (connection error, timeout). -/
inductive HttpAnswer where
  | status (s : Nat)
  | exception

/-- `Response.ok`, `_retryable` (trace_exporter/__init__.py:141–147) and the branches 161–177. -/
def httpVerdict : HttpAnswer → Verdict
  | .status s =>
    if ¬ (400 ≤ s ∧ s < 600) then .ok
    else if s = 408 ∨ (500 ≤ s ∧ s ≤ 599) then .retry none
    else .fail
  | .exception => .raises

/-- `OTLPSpanExporter.export`, `OTLPLogExporter.export` over HTTP (trace_exporter/__init__.py:180–189): the flag is read once. -/
def httpExport (shutAtStart : Bool) (answers : Nat → HttpAnswer) : Outcome × List Act :=
  if shutAtStart then (.failure, []) else loop (fun _ => false) (fun i => httpVerdict (answers i)) 0

/-- `OTLPMetricExporter.export` over HTTP (metric_exporter/__init__.py:194–226): there is no flag; `shutdown` does nothing (228–229). -/
def httpMetricExport (answers : Nat → HttpAnswer) : Outcome × List Act := loop (fun _ => false) (fun i => httpVerdict (answers i)) 0

/-! ## Splitting metrics data -/
section Split
variable {R S M P : Type}

/-- `MetricsData`: resources, their scopes, their metrics, their data points; `R`, `S` and `M` are the other fields. -/
abbrev Tree (R S M P : Type) := List (R × List (S × List (M × List P)))

/-- The local variables of `_split_metrics_data` (metric_exporter/__init__.py:178–259). In the code each list is the last element's child
of the enclosing one; here `rs`, `ss` and `ms` are the lists without that last element, and `ps` the current data points. -/
structure St (R S M P : Type) where
  out : List (Tree R S M P)
  size : Nat
  rs : Tree R S M P
  ss : List (S × List (M × List P))
  ms : List (M × List P)
  ps : List P

/-- The loop over data points (213–244). -/
def onPoint (limit : Int) (r : R) (s : S) (m : M) (st : St R S M P) (p : P) : St R S M P :=
  let ps := st.ps ++ [p]
  let size := st.size + 1
  if limit ≤ size then
    { out := st.out ++ [st.rs ++ [(r, st.ss ++ [(s, st.ms ++ [(m, ps)])])]], size := 0, rs := [], ss := [], ms := [], ps := [] }
  else { st with ps := ps, size := size }

/-- The loop over metrics (201–248): an empty metric is removed. -/
def onMetric (limit : Int) (r : R) (s : S) (st : St R S M P) (m : M × List P) : St R S M P :=
  let st := m.2.foldl (onPoint limit r s m.1) { st with ps := [] }
  { st with ms := if st.ps.isEmpty then st.ms else st.ms ++ [(m.1, st.ps)] }

/-- The loop over scopes (193–252): an empty scope is removed. -/
def onScope (limit : Int) (r : R) (st : St R S M P) (s : S × List (M × List P)) : St R S M P :=
  let st := s.2.foldl (onMetric limit r s.1) { st with ms := [] }
  { st with ss := if st.ms.isEmpty then st.ss else st.ss ++ [(s.1, st.ms)] }

/-- The loop over resources (185–256). -/
def onResource (limit : Int) (st : St R S M P) (r : R × List (S × List (M × List P))) : St R S M P :=
  let st := r.2.foldl (onScope limit r.1) { st with ss := [] }
  { st with rs := if st.ss.isEmpty then st.rs else st.rs ++ [(r.1, st.ss)] }

/-- `_split_metrics_data`. -/
def split (limit : Int) (data : Tree R S M P) : List (Tree R S M P) :=
  let st := data.foldl (onResource limit) { out := [], size := 0, rs := [], ss := [], ms := [], ps := [] }
  if 0 < st.size then st.out ++ [st.rs] else st.out

/-- `OTLPMetricExporter.export` (metric_exporter/__init__.py:158–176) where `send` is `_export`: the data sent and the result. -/
def exportSplits (send : Tree R S M P → Outcome) : Outcome → List (Tree R S M P) → List (Tree R S M P) × Outcome
  | res, [] => ([], res)
  | res, t :: l =>
    match send t with
    | .raised => ([t], .raised)
    | .failure => let q := exportSplits send .failure l; (t :: q.1, q.2)
    | .success => let q := exportSplits send res l; (t :: q.1, q.2)

/-- `export`. -/
def metricExport (send : Tree R S M P → Outcome) (limit : Option Int) (data : Tree R S M P) : List (Tree R S M P) × Outcome :=
  match limit with
  | none => ([data], send data)
  | some n => exportSplits send .success (split n data)

end Split

end Export
end Otel
