import Verif.Model.Batch
import Verif.Model.Periodic
import Verif.Model.OtlpShutdown
/-!
# `os.fork`
A forked process is a copy of the memory with one thread, the one that forked; locks stay as they are, also those held by threads that do not exist in the
child. The thread that forks is taken to be outside the methods modelled here. Then the handlers registered with `os.register_at_fork` run in the child. The
parent goes on unchanged.
-/
namespace Otel

/-- The batch processor in a forked process: `_at_fork_reinit` (`opentelemetry-sdk/src/opentelemetry/sdk/trace/export/__init__.py` 231–241,
`sdk/_logs/_internal/export/__init__.py` 222–230) makes a new lock, empties the queue and starts a new worker. A flush request and the `done` flag stay. The
history fields begin anew: they are those of the child. -/
def Batch.fork {σ : Type} (s : Batch.St σ) : Batch.St σ :=
  { s with
    queue := [], pc := .top, log := [], inflight := [], joining := 0, flushes := [], accepted := [], gone := [],
    doneAt := if s.done then some (0, []) else none }

/-- The periodic reader in a forked process: `_at_fork_reinit` (`opentelemetry-sdk/src/opentelemetry/sdk/metrics/_internal/export/__init__.py` 512–518, registered
at 495–504 if there is a thread) starts a new ticker, and that is all: the measurements, the lock, the shutdown event stay. -/
def Periodic.fork (s : Periodic.St) : Periodic.St :=
  { s with ticker := s.ticker.map fun _ => .wait, users := [], log := [] }

/-- The gRPC exporter in a forked process: it registers no handler (`exporter/opentelemetry-exporter-otlp-proto-grpc/src/opentelemetry/exporter/otlp/proto/grpc/exporter.py` 189–262). -/
def GrpcShutdown.fork (s : GrpcShutdown.St) : GrpcShutdown.St := { s with exporter := fun _ => .idle, stopper := fun _ => .idle }

end Otel
