import Verif.Model.OtlpExport
import Verif.Model.Batch
/-!
# What the collector receives
Puts the batch processor (`Verif.Model.Batch`) in front of an OTLP span or log exporter (`Verif.Model.OtlpExport`) and a collector: the
batches the processor hands over, one after the other, each sent by the exporter's retry loop over a network that may lose the request, lose
the answer, or deliver and store only a part.
-/
namespace Otel
namespace Delivery
open Export (Outcome Act GrpcAnswer HttpAnswer grpcExport httpExport)

/-- How the exporter talks to the collector during one call of `export`: what the `i`-th attempt is answered, and for gRPC the flag
`_shutdown` as the `i`-th round reads it. -/
inductive Transport where
  | grpc (shut : Nat → Bool) (answers : Nat → GrpcAnswer)
  | http (answers : Nat → HttpAnswer)

/-- The surroundings of one call of `export`: `down` is `_shutdown` at its start, `arrived i` says whether the collector got the request of
the `i`-th attempt, `kept i x` whether it stored item `x` of it (the rest it reports in the answer's `partial_success`, which no exporter of
this repository reads). -/
structure Call (σ : Type) where
  down : Bool
  wire : Transport
  arrived : Nat → Bool
  kept : Nat → σ → Bool

variable {σ : Type}

/-- `OTLPExporterMixin._export` (otlp/proto/grpc/exporter.py:270–353) or `OTLPSpanExporter.export` over HTTP
(otlp/proto/http/trace_exporter/__init__.py:180–189, and `_log_exporter` alike): the answer is looked at only for its status. -/
def send (c : Call σ) : Outcome × List Act :=
  match c.wire with
  | .grpc shut answers => grpcExport c.down shut answers
  | .http answers => httpExport c.down answers

/-- The requests among what an export does. -/
def requests (l : List Act) : List Nat := l.filterMap (fun | .attempt i => some i | .sleep _ => none)

/-- What the collector stores of one attempt with the `k`-th batch: each attempt sends the whole batch
(exporter.py:296–301, trace_exporter/__init__.py:159). -/
def stored (c : Call σ) (k : Nat) (b : List σ) (i : Nat) : Option (Nat × List σ) :=
  if c.arrived i then some (k, b.filter (c.kept i)) else none

/-- … and of one call of `export`. -/
def received (c : Call σ) (k : Nat) (b : List σ) : List (Nat × List σ) := (requests (send c).2).filterMap (stored c k b)

/-- … and of the processor's calls: `_export_batch` (sdk/trace/export/__init__.py:346–368) ignores the result, swallows what is raised, and
goes on to the next batch. -/
def deliver (w : Nat → Call σ) : Nat → List (List σ) → List (Nat × List σ)
  | _, [] => []
  | k, b :: bs => received (w k) k b ++ deliver w (k + 1) bs

/-- The collector after a run of the batch processor; `w k` surrounds the `k`-th call of `export`. -/
def collector (w : Nat → Call σ) (s : Batch.St σ) : List (Nat × List σ) := deliver w 0 (Batch.batches s.log)

end Delivery
end Otel
