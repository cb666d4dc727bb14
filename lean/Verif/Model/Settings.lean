import Verif.Model.Limits
import Verif.Model.NonFinite
/-!
# The settings of the batching processors and of the periodic metric reader
Models the constructors of `BatchSpanProcessor` and `BatchLogRecordProcessor`
(`opentelemetry-sdk/src/opentelemetry/sdk/trace/export/__init__.py` 155–204, 410–487,
`opentelemetry-sdk/src/opentelemetry/sdk/_logs/_internal/export/__init__.py` 172–220, 381–462: the same text with other
names of variables) and of `PeriodicExportingMetricReader`
(`opentelemetry-sdk/src/opentelemetry/sdk/metrics/_internal/export/__init__.py` 446–510), and how the worker and the ticker
use the delay. The two sizes are `int`s and the times numbers, as annotated; `int(_)` of a string is `pyInt10`, `float(_)` of
a string is a parameter. Nothing is rounded.
-/
namespace Otel
namespace Settings
open Metrics (Fl)

/-- `a <= b` on floats: false if one of them is NaN. -/
def le : Fl → Fl → Bool
  | .nan, _ => false
  | _, .nan => false
  | a, b => !Fl.lt b a

/-- `_DEFAULT_MAX_QUEUE_SIZE` and the others (trace/export/__init__.py:42–45, _logs/_internal/export/__init__.py:42–45). -/
def defaultQueue : Int := 2048
def defaultDelay : Int := 5000
def defaultBatch : Int := 512
def defaultTimeout : Int := 30000

/-- `_default_max_queue_size` and its three siblings (trace/export/__init__.py:410–467): `int(environ.get(name, default))`,
or the default on `ValueError`. -/
def fromEnv (U : DigitTable) (env : Option Str) (dflt : Int) : Int :=
  match env with
  | none => dflt
  | some s =>
    match pyInt10 U s with
    | some v => v
    | none => dflt

/-- The arguments of the constructor. -/
structure Args where
  queue : Option Int := none
  delay : Option Fl := none
  batch : Option Int := none
  timeout : Option Fl := none

/-- `OTEL_BSP_MAX_QUEUE_SIZE`, `OTEL_BSP_SCHEDULE_DELAY`, `OTEL_BSP_MAX_EXPORT_BATCH_SIZE`, `OTEL_BSP_EXPORT_TIMEOUT` (or
`OTEL_BLRP_…` for log records). -/
structure Env where
  queue : Option Str := none
  delay : Option Str := none
  batch : Option Str := none
  timeout : Option Str := none

/-- The settings of a processor. -/
structure Batching where
  queue : Int
  delay : Fl
  batch : Int
  timeout : Fl
deriving DecidableEq

/-- `_validate_arguments` (trace/export/__init__.py:469–487): whether it returns. -/
def validate (queue : Int) (delay : Fl) (batch : Int) : Bool :=
  if queue ≤ 0 then false
  else if le delay 0 then false
  else if batch ≤ 0 then false
  else if batch > queue then false
  else true

/-- The constructor (trace/export/__init__.py:155–204): the settings, or `none` for `ValueError`. -/
def batching (U : DigitTable) (a : Args) (e : Env) : Option Batching :=
  let queue := (a.queue).getD (fromEnv U e.queue defaultQueue)
  let delay := (a.delay).getD (Fl.fin (fromEnv U e.delay defaultDelay))
  let batch := (a.batch).getD (fromEnv U e.batch defaultBatch)
  let timeout := (a.timeout).getD (Fl.fin (fromEnv U e.timeout defaultTimeout))
  if validate queue delay batch then some ⟨queue, delay, batch, timeout⟩ else none

/-- What the constructor of the metric reader does: starts a thread, starts none, or raises `ValueError`. -/
inductive Reader where
  | ticking (interval timeout : Fl)
  | manual (interval timeout : Fl)
  | raised
deriving DecidableEq

/-- `float(environ.get(name, default))`, or the default on `ValueError` (metrics/_internal/export/__init__.py:464–483). -/
def floatEnv (float : Str → Option Fl) (env : Option Str) (dflt : Fl) : Fl :=
  match env with
  | none => dflt
  | some s =>
    match float s with
    | some v => v
    | none => dflt

/-- `PeriodicExportingMetricReader.__init__` (metrics/_internal/export/__init__.py:446–510). -/
def reader (float : Str → Option Fl) (interval timeout : Option Fl) (envInterval envTimeout : Option Str) : Reader :=
  let i := (interval).getD (floatEnv float envInterval (.fin 60000))
  let t := (timeout).getD (floatEnv float envTimeout (.fin 30000))
  if Fl.lt 0 i && Fl.lt i .pinf then .ticking i t
  else if le i 0 then .raised
  else .manual i t

/-- What waiting with a timeout does: `Condition.wait` and `Event.wait` of the standard library block on a lock for a positive
timeout, poll it otherwise, and raise `OverflowError` above `threading.TIMEOUT_MAX`. -/
inductive Wait where
  | blocks (seconds : ℚ)
  | polls
  | raises
deriving DecidableEq

/-- `threading.TIMEOUT_MAX` in seconds (CPython on 64-bit Linux). -/
def timeoutMax : ℚ := 9223372036

/-- `condition.wait(timeout)`. -/
def wait : Fl → Wait
  | .fin q => if 0 < q then (if timeoutMax < q then .raises else .blocks q) else .polls
  | .pinf => .raises
  | .ninf => .polls
  | .nan => .polls

/-- `x / 1e3`. -/
def seconds : Fl → Fl
  | .fin q => .fin (q / 1000)
  | x => x

/-- The first wait of the worker (trace/export/__init__.py:243–257, _logs/_internal/export/__init__.py:233–246) and of the
ticker (metrics/_internal/export/__init__.py:520–522). -/
def firstWait (delay : Fl) : Wait := wait (seconds delay)

end Settings
end Otel
