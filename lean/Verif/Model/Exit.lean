import Verif.Model.Py
/-!
# Providers at the end of the process
Models when the processors of tracer and logger providers and the readers of meter providers are shut down: by
`TracerProvider.shutdown` (`opentelemetry-sdk/src/opentelemetry/sdk/trace/__init__.py` 1187–1218, 1270–1285, 177–180,
235–246, 260–262), `LoggerProvider.shutdown` (`opentelemetry-sdk/src/opentelemetry/sdk/_logs/_internal/__init__.py` 604–625,
683–699, 327–330, 384–401: the same text with other names) and `MeterProvider.shutdown`
(`opentelemetry-sdk/src/opentelemetry/sdk/metrics/_internal/__init__.py` 412–464, 501–548), called by the program or by the
interpreter at exit. Calls are made by one thread. Processors are numbered; `raises x n` says whether shutting down
processor `x` raises an exception when `n` shutdowns have been made before, by anyone. Deadlines are those of `Verif.Model.Provider`
and do not pass here.

The interpreter (CPython 3.9 or later) first closes all thread pools for new tasks (`concurrent.futures.thread._python_exit`, run
by `threading._shutdown`), then calls the functions registered with `atexit`, last one first, and goes on when one raises.
-/
namespace Otel
namespace Exit

/-- The kinds of providers: with a `SynchronousMulti…Processor`, with a `ConcurrentMulti…Processor`, or a meter provider. -/
inductive Kind where
  | sync
  | conc
  | meter
deriving DecidableEq

/-- A provider: its processors or readers, and `_shutdown` of a meter provider. -/
structure Prov where
  kind : Kind
  procs : List Nat
  shut : Bool
deriving DecidableEq

/-- The process: the providers made so far, the numbers of those whose `shutdown` is registered with `atexit` (in the order of
registration; the same as those whose `_atexit_handler` is not `None`), the readers in `_all_metric_readers`, whether thread
pools are closed, and the shutdowns made: which provider shut down which processor or reader. -/
structure World where
  provs : List Prov
  handlers : List Nat
  readers : List Nat
  closed : Bool
  log : List (Nat × Nat)
deriving DecidableEq

def World.init : World := { provs := [], handlers := [], readers := [], closed := false, log := [] }

/-- `atexit.unregister(self._atexit_handler)` if there is one. -/
def World.unregister (w : World) (p : Nat) : World := { w with handlers := w.handlers.filter (· ≠ p) }

/-- `for sp in self._span_processors: sp.shutdown()` (trace/__init__.py:177–180): stops at the first exception. -/
def seqLoop (raises : Nat → Nat → Bool) (p : Nat) : List Nat → List (Nat × Nat) → List (Nat × Nat) × Bool
  | [], log => (log, false)
  | x :: xs, log => if raises x log.length then (log ++ [(p, x)], true) else seqLoop raises p xs (log ++ [(p, x)])

/-- All are called, and exceptions are remembered: the tasks of `_submit_and_await` (trace/__init__.py:241–246; in some order,
here that of submission; the first exception in that order is raised), and the loop over the readers
(metrics/_internal/__init__.py:516–531). -/
def allLoop (raises : Nat → Nat → Bool) (p : Nat) : List Nat → List (Nat × Nat) → List (Nat × Nat) × Bool
  | [], log => (log, false)
  | x :: xs, log =>
    let r := allLoop raises p xs (log ++ [(p, x)])
    (r.1, raises x log.length || r.2)

/-- `shutdown()` of provider `p`; the second component says whether it raises. -/
def shutdown (raises : Nat → Nat → Bool) (w : World) (p : Nat) : World × Bool :=
  match w.provs[p]? with
  | none => (w, false)
  | some v =>
    match v.kind with
    | .sync =>
      let r := seqLoop raises p v.procs w.log
      let w' := { w with log := r.1 }
      if r.2 then (w', true) else (w'.unregister p, false)
    | .conc =>
      -- `submit` raises `RuntimeError` when the pools are closed
      if w.closed && !v.procs.isEmpty then (w, true)
      else
        let r := allLoop raises p v.procs w.log
        let w' := { w with log := r.1 }
        if r.2 then (w', true) else (w'.unregister p, false)
    | .meter =>
      if v.shut then (w, false)
      else
        let r := allLoop raises p v.procs w.log
        ({ w with log := r.1, provs := w.provs.set p { v with shut := true } }.unregister p, r.2)

/-- Registering the readers of a new meter provider (metrics/_internal/__init__.py:449–464): stops with an exception at one
that has a provider already. -/
def claim : List Nat → List Nat → List Nat × Bool
  | [], owned => (owned, false)
  | r :: rs, owned => if owned.contains r then (owned, true) else claim rs (owned ++ [r])

/-- What a program does. `create` is the constructor of a tracer or logger provider, or of a meter provider with its
readers, with the argument `shutdown_on_exit`; `add` is `add_span_processor` or `add_log_record_processor`. -/
inductive Op where
  | create (kind : Kind) (readers : List Nat) (onExit : Bool)
  | add (p x : Nat)
  | shutdown (p : Nat)
deriving DecidableEq

/-- One call; the second component says whether it raises. A meter provider's constructor registers `shutdown` before it
looks at the readers, and leaves it registered if it then raises. -/
def step (raises : Nat → Nat → Bool) (w : World) : Op → World × Bool
  | .create .meter rs onExit =>
    let c := claim rs w.readers
    ({ w with
        provs := w.provs ++ [⟨.meter, rs, false⟩]
        handlers := if onExit then w.handlers ++ [w.provs.length] else w.handlers
        readers := c.1 }, c.2)
  | .create k _ onExit =>
    ({ w with
        provs := w.provs ++ [⟨k, [], false⟩]
        handlers := if onExit then w.handlers ++ [w.provs.length] else w.handlers }, false)
  | .add p x =>
    match w.provs[p]? with
    | none => (w, false)
    | some v => if v.kind = .meter then (w, false) else ({ w with provs := w.provs.set p { v with procs := v.procs ++ [x] } }, false)
  | .shutdown p => shutdown raises w p

/-- A program: the world it leaves and which of its calls raised. -/
def run (raises : Nat → Nat → Bool) : World → List Op → World × List Bool
  | w, [] => (w, [])
  | w, o :: l =>
    let r := step raises w o
    let q := run raises r.1 l
    (q.1, r.2 :: q.2)

/-- The functions registered with `atexit`, one after the other. -/
def callHandlers (raises : Nat → Nat → Bool) : List Nat → World → World
  | [], w => w
  | p :: ps, w => callHandlers raises ps (shutdown raises w p).1

/-- The end of the process. -/
def exit (raises : Nat → Nat → Bool) (w : World) : World :=
  callHandlers raises w.handlers.reverse { w with closed := true }

/-- A program and the end of its process. -/
def whole (raises : Nat → Nat → Bool) (l : List Op) : World := exit raises (run raises World.init l).1

end Exit
end Otel
