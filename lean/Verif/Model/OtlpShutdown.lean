import Verif.Model.OtlpExport
/-!
# The gRPC exporter and its shutdown, concurrently
`_export` and `shutdown` of `exporter/opentelemetry-exporter-otlp-proto-grpc/src/opentelemetry/exporter/otlp/proto/grpc/exporter.py` (270–363)
called by any number of threads. A step is one access to `_shutdown`, `_export_lock`, the channel or the server.
-/
namespace Otel
namespace GrpcShutdown
open Export (Verdict Outcome)

/-- Where a call of `_export` is. `top n`: before the check of round `n`; `waiting n`: wants the lock; `entered n`: has the lock, before
`Export`; `flying n`: in the RPC; `sleeping n`: in `sleep`, with the lock; `leaving`: before the release, with the result or, for
`again n`, the next round. -/
inductive EPc where
  | idle
  | top (n : Nat)
  | waiting (n : Nat)
  | entered (n : Nat)
  | flying (n : Nat)
  | sleeping (n : Nat)
  | leaving (o : Outcome)
  | again (n : Nat)
  | done (o : Outcome)
deriving DecidableEq

/-- Where a call of `shutdown` is; `got`: after `acquire` returned (its result is ignored). -/
inductive SPc where
  | idle
  | waiting
  | got
  | flagged
  | closed
  | done
  | raised
deriving DecidableEq

structure St where
  locked : Bool
  shut : Bool
  channelClosed : Bool
  exporter : Nat → EPc
  stopper : Nat → SPc

/-- The start: nothing has been called. -/
def init : St := { locked := false, shut := false, channelClosed := false, exporter := fun _ => .idle, stopper := fun _ => .idle }

def setE (s : St) (t : Nat) (pc : EPc) : St := { s with exporter := fun u => if u = t then pc else s.exporter u }
def setS (s : St) (t : Nat) (pc : SPc) : St := { s with stopper := fun u => if u = t then pc else s.stopper u }

/-- `timeouts` says whether `acquire(timeout=…)` in `shutdown` may give up. -/
inductive Step (timeouts : Prop) : St → St → Prop
  /-- 275–277 -/
  | begin (s : St) (t : Nat) (h : s.exporter t = .idle) : Step timeouts s (setE s t (if s.shut then .done .failure else .top 0))
  /-- 292–294 -/
  | round (s : St) (t n : Nat) (h : s.exporter t = .top n) :
      Step timeouts s (setE s t (if Export.backoff 64 n = 64 ∨ s.shut = true then .done .failure else .waiting n))
  /-- 296 -/
  | acquire (s : St) (t n : Nat) (h : s.exporter t = .waiting n) (hl : s.locked = false) :
      Step timeouts s (setE { s with locked := true } t (.entered n))
  /-- 298: on a closed channel gRPC raises `ValueError`, which is not an `RpcError` -/
  | call (s : St) (t n : Nat) (h : s.exporter t = .entered n) :
      Step timeouts s (setE s t (if s.channelClosed then .leaving .raised else .flying n))
  /-- 298–351; a negative delay raises -/
  | answer (s : St) (t n : Nat) (v : Verdict) (h : s.exporter t = .flying n) :
      Step timeouts s (setE s t (match v with
        | .ok => .leaving .success
        | .fail => .leaving .failure
        | .raises => .leaving .raised
        | .retry d => if d.getD 0 < 0 then .leaving .raised else .sleeping n))
  /-- 337 -/
  | wake (s : St) (t n : Nat) (h : s.exporter t = .sleeping n) : Step timeouts s (setE s t (.again (n + 1)))
  /-- the end of the `with`: releasing a lock that is not locked raises `RuntimeError` -/
  | leave (s : St) (t : Nat) (o : Outcome) (h : s.exporter t = .leaving o) :
      Step timeouts s (setE { s with locked := false } t (.done (if s.locked then o else .raised)))
  | leaveAgain (s : St) (t n : Nat) (h : s.exporter t = .again n) :
      Step timeouts s (setE { s with locked := false } t (if s.locked then .top n else .done .raised))
  /-- 356–358 -/
  | sBegin (s : St) (t : Nat) (h : s.stopper t = .idle) : Step timeouts s (setS s t (if s.shut then .done else .waiting))
  /-- 360 -/
  | sAcquire (s : St) (t : Nat) (h : s.stopper t = .waiting) (hl : s.locked = false) :
      Step timeouts s (setS { s with locked := true } t .got)
  | sTimeout (s : St) (t : Nat) (h : s.stopper t = .waiting) (hl : s.locked = true) (ht : timeouts) : Step timeouts s (setS s t .got)
  /-- 361 -/
  | sFlag (s : St) (t : Nat) (h : s.stopper t = .got) : Step timeouts s (setS { s with shut := true } t .flagged)
  /-- 362 -/
  | sClose (s : St) (t : Nat) (h : s.stopper t = .flagged) : Step timeouts s (setS { s with channelClosed := true } t .closed)
  /-- 363 -/
  | sRelease (s : St) (t : Nat) (h : s.stopper t = .closed) :
      Step timeouts s (setS { s with locked := false } t (if s.locked then .done else .raised))

/-- Reachable by any interleaving. -/
inductive Reach (timeouts : Prop) : St → Prop
  | init : Reach timeouts init
  | step (s s' : St) (h : Reach timeouts s) (hs : Step timeouts s s') : Reach timeouts s'

end GrpcShutdown
end Otel
