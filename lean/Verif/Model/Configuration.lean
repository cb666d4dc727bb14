import Verif.Model.OtlpConfig
import Verif.Model.Sampling
import Verif.Model.Resource
import Verif.Model.ExemplarFilters
/-!
# Auto-configuration of the SDK from the environment
Models `opentelemetry-sdk/src/opentelemetry/sdk/_configuration/__init__.py` 95–418 (`_initialize_components` and everything it calls).
Entry points (`importlib.metadata`) are two lookup functions; a component is a class with the base classes it derives from and whether
calling it (and wrapping the exporter in its processor or reader) returns or raises. What the program observably does is the list of
`Effect`s, in order; warnings are not modelled. Which exception is raised is not modelled.
-/
namespace Otel
namespace Config
open EnvHeaders (lowerAscii)
open OtlpConfig (Environ Signal orElse generic specific)

/-- The base classes asked for with `issubclass`. -/
inductive Kind where
  | spanExporter | metricExporter | metricReader | logExporter | idGenerator
deriving DecidableEq

/-- A loaded class. -/
structure Component where
  id : Nat
  kinds : List Kind
  /-- does `cls()` (and the processor or reader made of it) return? -/
  ok : Bool
deriving DecidableEq

/-- The argument a sampler factory is called with. -/
inductive SArg where
  | rate (f : Sampling.PyFloat)
  | text (s : Option Str)

/-- A sampler factory; `none`: it raises or returns something that is not a sampler. -/
abbrev Factory := SArg → Option Sampling.Sampler

/-- Everything outside: the environment, the installed entry points, `float(str)`, SDK version, resource detectors, and whether
`TracerProvider(...)` accepts the rest of the environment (span limits). -/
structure World where
  env : Environ
  comps : Str → Str → Option Component
  samplers : Str → Option Factory
  floatOf : Str → Option Sampling.PyFloat
  version : Str
  detected : List Otel.Resource.Detected
  tracerOk : Bool

/-- `_EXPORTER_ENV_BY_SIGNAL_TYPE` (75–79). -/
def exporterVar (s : Signal) : Str := "OTEL_".toList ++ s.upper ++ "_EXPORTER".toList

/-- The entry point groups (_configuration/__init__.py:275–308). -/
def Signal.group : Signal → Str
  | .traces => "opentelemetry_traces_exporter".toList
  | .metrics => "opentelemetry_metrics_exporter".toList
  | .logs => "opentelemetry_logs_exporter".toList

def otlp : Str := "otlp".toList
def otlpGrpc : Str := "otlp_proto_grpc".toList
def otlpHttp : Str := "otlp_proto_http".toList

/-- `_EXPORTER_BY_OTLP_PROTOCOL` (70–73). -/
def byProtocol (p : Str) : Option Str :=
  if p = "grpc".toList then some otlpGrpc
  else if p = "http/protobuf".toList then some otlpHttp
  else none

/-- The protocol variables (147–149). -/
def protocolOf (env : Environ) (s : Signal) : Option Str := OtlpConfig.truthy (orElse (env (specific s "PROTOCOL")) (env (generic "PROTOCOL")))

/-- `_get_exporter_entry_point` (136–177): `none` is an exception. -/
def entryPoint (env : Environ) (s : Signal) (name : Str) : Option Str :=
  if name = otlp then
    match protocolOf env s with
    | none => some otlpGrpc
    | some p => byProtocol (pyStrip p)
  else some name

/-- `_get_exporter_names` (180–191). -/
def exporterNames (env : Environ) (s : Signal) : Option (List Str) :=
  match OtlpConfig.truthy (env (exporterVar s)) with
  | none => some []
  | some v =>
    if pyStrip (lowerAscii v) = "none".toList then some []
    else (splitC ',' v).mapM fun e => entryPoint env s (pyStrip e)

/-- `_import_config_components` (95–125). -/
def importComponents (w : World) (group : Str) (names : List Str) : Option (List (Str × Component)) :=
  names.mapM fun n => (w.comps group n).map fun c => (n, c)

/-- The base classes accepted for a signal (281, 294, 305). -/
def accepted : Signal → List Kind
  | .traces => [.spanExporter]
  | .metrics => [.metricExporter, .metricReader]
  | .logs => [.logExporter]

/-- One loop of `_import_exporters` (275–284, 286–297, 299–308). -/
def collect (s : Signal) (d : Dict Str Component) : List (Str × Component) → Option (Dict Str Component)
  | [] => some d
  | (n, c) :: rest => if (accepted s).any (fun k => c.kinds.contains k) then collect s (Dict.set d n c) rest else none

/-- `_import_exporters` (262–310), one signal. -/
def importExporters (w : World) (s : Signal) (names : List Str) : Option (Dict Str Component) :=
  (importComponents w (Signal.group s) names).bind (collect s [])

def samplerVar : Str := "OTEL_TRACES_SAMPLER".toList
def samplerArgVar : Str := "OTEL_TRACES_SAMPLER_ARG".toList

/-- The two names whose argument is a number (326). -/
def isRatioName (n : Str) : Bool := n == "traceidratio".toList || n == "parentbased_traceidratio".toList

/-- The argument for the factory (325–336). -/
def samplerArg (w : World) (name : Str) : SArg :=
  if isRatioName name then .rate (((w.env samplerArgVar).bind w.floatOf).getD (.fin 1)) else .text (w.env samplerArgVar)

/-- `_import_sampler` (320–350): `none` is the result `None`. -/
def importSampler (w : World) (name : Option Str) : Option Sampling.Sampler :=
  match OtlpConfig.truthy name with
  | none => none
  | some n => (w.samplers (pyStrip n)).bind fun f => f (samplerArg w n)

/-- `_get_sampler`, `_import_sampler` (385–387), then `TracerProvider.__init__` (`sdk/trace/__init__.py` 1209–1211). `none`: raises. -/
def chooseSampler (w : World) (given : Option Sampling.Sampler) : Option Sampling.Sampler :=
  match given with
  | some s => some s
  | none =>
    match importSampler w (w.env samplerVar) with
    | some s => some s
    | none => Sampling.fromEnv w.floatOf (w.env samplerVar) (w.env samplerArgVar)

/-- The entry points of the SDK itself (`opentelemetry-sdk/pyproject.toml` 42–48; sampling.py 387–417). -/
def builtinSamplers (n : Str) : Option Factory :=
  if n = "always_on".toList then some fun _ => some Sampling.alwaysOn
  else if n = "always_off".toList then some fun _ => some Sampling.alwaysOff
  else if n = "parentbased_always_on".toList then some fun _ => some (Sampling.parentBasedDefault Sampling.alwaysOn)
  else if n = "parentbased_always_off".toList then some fun _ => some (Sampling.parentBasedDefault Sampling.alwaysOff)
  else if n = "traceidratio".toList then some fun a =>
    match a with
    | .rate f => Sampling.ratio f
    | .text _ => none
  else if n = "parentbased_traceidratio".toList then some fun a =>
    match a with
    | .rate f => (Sampling.ratio f).map Sampling.parentBasedDefault
    | .text _ => none
  else none

/-- `_get_id_generator`, `_import_id_generator` (132–133, 353–361, 388–390). -/
def chooseIdGenerator (w : World) (given : Option Nat) : Option Nat :=
  match given with
  | some i => some i
  | none =>
    (w.comps "opentelemetry_id_generator".toList (pyStrip ((w.env "OTEL_PYTHON_ID_GENERATOR".toList).getD "random".toList))).bind fun c =>
      if c.kinds.contains .idGenerator && c.ok then some c.id else none

/-- `_initialize_components`' arguments (364–384); `None` lists are empty lists. -/
structure Args where
  autoVersion : Option Str := none
  names : Signal → List Str := fun _ => []
  sampler : Option Sampling.Sampler := none
  attributes : Dict Str Val := []
  idGenerator : Option Nat := none
  handler : Option Bool := none

/-- The resource (391–400). -/
def makeResource (w : World) (a : Args) : Option Otel.Resource :=
  let attrs := match OtlpConfig.truthy a.autoVersion with
    | none => a.attributes
    | some v => Dict.set a.attributes "telemetry.auto.version".toList (Resource.strVal v)
  Resource.create w.version w.detected (Resource.items attrs) none

/-- What can be observed. -/
inductive Effect where
  | setTracerProvider (sampler : Sampling.Sampler) (idGenerator : Nat) (resource : Otel.Resource)
  | addSpanProcessor (cls : Nat)
  /-- the readers: the class and whether it is wrapped in a periodic reader -/
  | setMeterProvider (readers : List (Nat × Bool)) (resource : Otel.Resource)
  | setLoggerProvider (resource : Otel.Resource)
  | addLogProcessor (cls : Nat)
  | setEventLoggerProvider
  | addRootHandler

/-- Effects up to the end or to an exception. -/
structure Run where
  effects : List Effect
  ok : Bool

/-- Sequencing. -/
def Run.andThen (r s : Run) : Run := if r.ok then ⟨r.effects ++ s.effects, s.ok⟩ else r

/-- The loop over `exporters.items()` in `_init_tracing` and `_init_logging` (207–211, 246–250). -/
def addAll (e : Nat → Effect) : List Component → Run
  | [] => ⟨[], true⟩
  | c :: cs => if c.ok then Run.andThen ⟨[e c.id], true⟩ (addAll e cs) else ⟨[], false⟩

/-- `_init_tracing` (194–211). -/
def initTracing (w : World) (exporters : Dict Str Component) (sampler : Sampling.Sampler) (idGen : Nat) (r : Otel.Resource) : Run :=
  if w.tracerOk then Run.andThen ⟨[.setTracerProvider sampler idGen r], true⟩ (addAll .addSpanProcessor (exporters.map Prod.snd))
  else ⟨[], false⟩

/-- A metric reader of the class (222–232). -/
def readerOf (c : Component) : Option (Nat × Bool) := if c.ok then some (c.id, !c.kinds.contains .metricReader) else none

/-- Whether `MeterProvider(...)` accepts `OTEL_METRICS_EXEMPLAR_FILTER`
(`opentelemetry-sdk/src/opentelemetry/sdk/metrics/_internal/__init__.py` 366–374, 427–433). -/
def filterOk (env : Environ) : Bool :=
  (ExemplarFilters.byName ((env "OTEL_METRICS_EXEMPLAR_FILTER".toList).getD "trace_based".toList)).isSome

/-- `_init_metrics` (214–235). The readers, which are new, have been made, and the periodic ones have started their threads, before the
provider is. -/
def initMetrics (w : World) (exporters : Dict Str Component) (r : Otel.Resource) : Run :=
  match (exporters.map Prod.snd).mapM readerOf with
  | some readers => if filterOk w.env then ⟨[.setMeterProvider readers r], true⟩ else ⟨[], false⟩
  | none => ⟨[], false⟩

/-- The handler flag (409–417). -/
def handlerFlag (env : Environ) : Option Bool → Bool
  | some b => b
  | none => lowerAscii (pyStrip ((env "OTEL_PYTHON_LOGGING_AUTO_INSTRUMENTATION_ENABLED".toList).getD "false".toList)) == "true".toList

/-- `_init_logging` (238–259). -/
def initLogging (exporters : Dict Str Component) (r : Otel.Resource) (handler : Bool) : Run :=
  Run.andThen ⟨[.setLoggerProvider r], true⟩
    (Run.andThen (addAll .addLogProcessor (exporters.map Prod.snd))
      ⟨.setEventLoggerProvider :: (if handler then [.addRootHandler] else []), true⟩)

/-- What has been resolved before anything is set (380–400 and `TracerProvider`'s sampler). -/
structure Plan where
  exporters : Signal → Dict Str Component
  sampler : Sampling.Sampler
  idGenerator : Nat
  resource : Otel.Resource

/-- The exporters of one signal (380–384). -/
def exportersOf (w : World) (a : Args) (s : Signal) : Option (Dict Str Component) :=
  (exporterNames w.env s).bind fun ns => importExporters w s (a.names s ++ ns)

def plan (w : World) (a : Args) : Option Plan :=
  (exportersOf w a .traces).bind fun t =>
  (exportersOf w a .metrics).bind fun m =>
  (exportersOf w a .logs).bind fun l =>
  (chooseIdGenerator w a.idGenerator).bind fun i =>
  (makeResource w a).bind fun r =>
  (chooseSampler w a.sampler).bind fun s =>
  some ⟨fun | .traces => t | .metrics => m | .logs => l, s, i, r⟩

/-- `_initialize_components` (364–418). -/
def initComponents (w : World) (a : Args) : Run :=
  match plan w a with
  | none => ⟨[], false⟩
  | some p =>
    (initTracing w (p.exporters .traces) p.sampler p.idGenerator p.resource).andThen
      ((initMetrics w (p.exporters .metrics) p.resource).andThen
        (initLogging (p.exporters .logs) p.resource (handlerFlag w.env a.handler)))

end Config
end Otel
