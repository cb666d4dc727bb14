import Verif.Model.Context
import Verif.Model.Span
import Mathlib.Data.Rat.Floor
/-!
# Samplers, id generation and `Tracer.start_span`
Models `opentelemetry-sdk/src/opentelemetry/sdk/trace/sampling.py` 155–453, `sdk/trace/id_generator.py` 45–60 and
`Tracer.start_span` (`sdk/trace/__init__.py` 1107–1181).

A sampler is a function of the arguments of `should_sample`; theorems quantify over all such functions, so a
stateful sampler is covered call by call.
-/
namespace Otel
namespace Sampling

/-- `Decision` (sampling.py:155–167). -/
inductive Decision where
  | drop | recordOnly | recordAndSample
deriving DecidableEq, Repr

/-- `Decision.is_recording` (sampling.py:163–164). -/
def Decision.isRecording : Decision → Bool
  | .drop => false
  | _ => true

/-- `Decision.is_sampled` (sampling.py:166–167). -/
def Decision.isSampled : Decision → Bool
  | .recordAndSample => true
  | _ => false

/-- `SamplingResult` (sampling.py:170–195); `None` attributes become the empty mapping. -/
structure Result where
  decision : Decision
  attributes : Span.RawAttrs
  traceState : Option TraceState.TS
deriving DecidableEq

/-- Links as given by the caller (`None` elements allowed). -/
abbrev RawLinks := List (Option (Option SpanContext × Span.RawAttrs))

/-- The arguments of `should_sample` (sampling.py:199–210); `kind` by its number. -/
structure Query where
  ctx : Ctx
  traceId : Int
  name : Str
  kind : Nat
  attributes : Span.RawAttrs
  links : RawLinks

abbrev Sampler := Query → Result

/-- `_get_parent_trace_state` (sampling.py:447–453). -/
def parentTraceState (c : Ctx) : Option TraceState.TS :=
  if c.currentSpan.isValid then some c.currentSpan.traceState else none

/-- `StaticSampler.should_sample` (sampling.py:217–239). -/
def static (d : Decision) : Sampler := fun q =>
  ⟨d, if d = .drop then [] else q.attributes, parentTraceState q.ctx⟩

/-- `ALWAYS_OFF`, `ALWAYS_ON` (sampling.py:247–250). -/
def alwaysOff : Sampler := static .drop
def alwaysOn : Sampler := static .recordAndSample

/-- Python `round(q)` for a rational: nearest integer, ties to even. -/
def roundHalfEven (q : ℚ) : ℤ :=
  let f := ⌊q⌋
  if q - f < 1 / 2 then f
  else if 1 / 2 < q - f then f + 1
  else if f % 2 = 0 then f else f + 1

/-- `TraceIdRatioBased.get_bound_for_rate` (sampling.py:272–274). `rate * 2^64` is exact for a double in [0, 1]
(scaling by a power of two), so a finite rate is modelled as a rational. -/
def boundForRate (rate : ℚ) : ℤ := roundHalfEven (rate * 2 ^ 64)

/-- `TraceIdRatioBased.should_sample` (sampling.py:284–303) of a sampler with this bound; Python's
`trace_id & (2^64 - 1)` is `trace_id mod 2^64`. -/
def ratioWithBound (bound : ℤ) : Sampler := fun q =>
  let d := if q.traceId % 2 ^ 64 < bound then Decision.recordAndSample else .drop
  ⟨d, if d = .drop then [] else q.attributes, parentTraceState q.ctx⟩

/-- A Python float. -/
inductive PyFloat where
  | nan
  | inf (neg : Bool)
  | fin (q : ℚ)

/-- `TraceIdRatioBased(rate)` (sampling.py:262–267): `none` is `ValueError` (out of range, or `round(nan)`). -/
def ratio : PyFloat → Option Sampler
  | .nan => none
  | .inf _ => none
  | .fin q => if q < 0 ∨ 1 < q then none else some (ratioWithBound (boundForRate q))

/-- `ParentBased.should_sample` (sampling.py:339–374). -/
def parentBased (root remoteSampled remoteNot localSampled localNot : Sampler) : Sampler := fun q =>
  let p := q.ctx.currentSpan
  if p.isValid then
    if p.isRemote then
      if p.sampled then remoteSampled q else remoteNot q
    else
      if p.sampled then localSampled q else localNot q
  else root q

/-- `ParentBased(root)` with the default delegates (sampling.py:325–337). -/
def parentBasedDefault (root : Sampler) : Sampler := parentBased root alwaysOn alwaysOff alwaysOn alwaysOff

/-- `_get_from_env_or_default` (sampling.py:428–444): `none` is an exception. `floatOf` is Python's `float(str)`
(`none` is `ValueError`); lower-casing is exact here because no non-ASCII character lower-cases into these names. -/
def fromEnv (floatOf : Str → Option PyFloat) (name arg : Option Str) : Option Sampler :=
  let n := EnvHeaders.lowerAscii (name.getD "parentbased_always_on".toList)
  let rate := (arg.bind floatOf).getD (.fin 1)
  if n = "always_on".toList then some alwaysOn
  else if n = "always_off".toList then some alwaysOff
  else if n = "parentbased_always_off".toList then some (parentBasedDefault alwaysOff)
  else if n = "traceidratio".toList then ratio rate
  else if n = "parentbased_traceidratio".toList then (ratio rate).map parentBasedDefault
  else some (parentBasedDefault alwaysOn)

/-- `RandomIdGenerator.generate_*_id` (id_generator.py:50–60): draws from `random.getrandbits` until the draw is
not zero; `none` while all draws given are zero. -/
def genId : List Nat → Option (Nat × List Nat)
  | [] => none
  | 0 :: r => genId r
  | (n + 1) :: r => some (n + 1, r)

/-- What `start_span` returns. -/
inductive Started where
  | recording (s : Span.State)
  | nonRecording (sc : SpanContext)

/-- The span's context. -/
def Started.ctx : Started → SpanContext
  | .recording s => s.data.ctx
  | .nonRecording sc => sc

/-- `Tracer.start_span` (trace/__init__.py:1107–1181), given the random draws for the trace id and the span id.
`time` is the start time (given or read from the clock). The `on_start` notification belongs to the call. -/
def startSpan (sampler : Sampler) (lim : SpanLimits) (traceDraws spanDraws : List Nat) (ctx : Ctx) (name : Str)
    (kind : Nat) (attributes : Span.RawAttrs) (links : RawLinks) (time : Int) : Option Started :=
  let p := ctx.currentSpan
  let parent := if p.isValid then some p else none
  (match parent with
    | some p => some p.traceId
    | none => (genId traceDraws).map fun x : Nat × List Nat => (x.1 : Int)).bind fun traceId =>
  (genId spanDraws).bind fun sid =>
  let r := sampler ⟨ctx, traceId, name, kind, attributes, links⟩
  let sc : SpanContext := ⟨traceId, (sid.1 : Int), false, if r.decision.isSampled then 1 else 0, r.traceState.getD []⟩
  if r.decision.isRecording then
    some (.recording ([Span.Step.start time, .notifyStart].foldl Span.step
      (Span.init lim name sc parent r.attributes [] links)))
  else some (.nonRecording sc)

end Sampling
end Otel
