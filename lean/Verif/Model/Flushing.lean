import Verif.Model.Batch
/-!
# A provider with batch processors: ending spans and `TracerProvider.force_flush`
Composes the model `Batch` of the batch span processor, once for each registered processor, with `Span.end` (`opentelemetry-sdk/src/opentelemetry/sdk/
trace/__init__.py` 938–948), `SynchronousMultiSpanProcessor.on_end` and `force_flush` (173–175, 182–205) and `TracerProvider.force_flush` (1287–1305).
The processors are registered beforehand. The multi-processor of log records is the same code (`_logs/_internal/__init__.py` 323–325, 332–352).
-/
namespace Otel
namespace Flushing
variable {σ : Type}

/-- A call of `end` that found the span running: it tells the processors one after the other; `offered`: `on_end` of the processor `pos` has passed its
checks. -/
structure EndCall (σ : Type) where
  span : σ
  pos : Nat
  offered : Bool
deriving DecidableEq

/-- A call of the provider's `force_flush`: the calls of `force_flush` it has made, one for each processor so far, by their number at the processor;
whether it waits for the last; what it has returned. -/
structure FCall where
  idxs : List Nat
  waiting : Bool
  res : Option Bool
deriving DecidableEq

/-- The state. -/
structure St (σ : Type) where
  procs : List (Batch.St σ)
  ends : List (EndCall σ)
  flushes : List FCall

/-- At first. -/
def init (cfgs : List (Batch.Cfg σ)) : St σ := ⟨cfgs.map (fun _ => Batch.init σ), [], []⟩

/-- The scheduler's choices. `internal`: a step of a processor's worker, of a call of its `force_flush` or `shutdown`, or of other users of the
processor. -/
inductive Act (σ : Type) where
  | internal (k : Nat) (a : Batch.Act σ)
  | endCall (x : σ)
  | endNext (e i : Nat)
  | flushCall
  | flushNext (f : Nat) (late : Bool)

/-- A step at one processor. -/
def atProc (cfgs : List (Batch.Cfg σ)) (procs : List (Batch.St σ)) (k : Nat) (a : Batch.Act σ) : List (Batch.St σ) :=
  match cfgs[k]?, procs[k]? with
  | some c, some p => procs.set k (Batch.step c p a)
  | _, _ => procs

variable [DecidableEq σ]

/-- A call of `end` goes on: `on_end` of a processor passes its checks, or appends the span (the `i`th in flight) to the queue and returns. -/
def endStep (cfgs : List (Batch.Cfg σ)) (s : St σ) (e i : Nat) (t : EndCall σ) : St σ :=
  match s.procs[t.pos]? with
  | none => s
  | some p =>
    if t.offered then
      if p.inflight[i]? = some t.span then
        { s with procs := atProc cfgs s.procs t.pos (.append i), ends := s.ends.set e ⟨t.span, t.pos + 1, false⟩ }
      else if t.span ∈ p.inflight then s
      else { s with ends := s.ends.set e ⟨t.span, t.pos + 1, false⟩ }
    else { s with procs := atProc cfgs s.procs t.pos (.offer t.span), ends := s.ends.set e ⟨t.span, t.pos, true⟩ }

/-- What the loop of `force_flush` does with the answer of a processor (202–203). -/
def answered (t : FCall) : Option Batch.Flush → FCall
  | some ⟨_, .returned true _⟩ => ⟨t.idxs, false, none⟩
  | some ⟨_, .returned false _⟩ => ⟨t.idxs, false, some false⟩
  | _ => t

/-- A call of the provider's `force_flush` goes on; `late`: the deadline has passed (199–200). -/
def flushStep (cfgs : List (Batch.Cfg σ)) (s : St σ) (f : Nat) (late : Bool) (t : FCall) : St σ :=
  if t.res ≠ none then s
  else if t.waiting then
    match t.idxs.getLast?, s.procs[t.idxs.length - 1]? with
    | some i, some p => { s with flushes := s.flushes.set f (answered t p.flushes[i]?) }
    | _, _ => s
  else
    match s.procs[t.idxs.length]? with
    | none => { s with flushes := s.flushes.set f ⟨t.idxs, false, some true⟩ }
    | some p =>
      if late then { s with flushes := s.flushes.set f ⟨t.idxs, false, some false⟩ }
      else { s with procs := atProc cfgs s.procs t.idxs.length .flushCall, flushes := s.flushes.set f ⟨t.idxs ++ [p.flushes.length], true, none⟩ }

/-- One step of the system. -/
def step (cfgs : List (Batch.Cfg σ)) (s : St σ) : Act σ → St σ
  | .internal k a => { s with procs := atProc cfgs s.procs k a }
  | .endCall x => { s with ends := s.ends ++ [⟨x, 0, false⟩] }
  | .endNext e i =>
    match s.ends[e]? with
    | none => s
    | some t => endStep cfgs s e i t
  | .flushCall => { s with flushes := s.flushes ++ [⟨[], false, none⟩] }
  | .flushNext f late =>
    match s.flushes[f]? with
    | none => s
    | some t => flushStep cfgs s f late t

/-- A schedule. -/
def run (cfgs : List (Batch.Cfg σ)) (acts : List (Act σ)) : St σ := acts.foldl (step cfgs) (init cfgs)

end Flushing
end Otel
