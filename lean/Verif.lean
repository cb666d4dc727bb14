import Verif.Lemmas.Attributes
import Verif.Lemmas.B3Jaeger
import Verif.Lemmas.Baggage
import Verif.Lemmas.Batch
import Verif.Lemmas.BatchFlush
import Verif.Lemmas.BatchLive
import Verif.Lemmas.BatchProgress
import Verif.Lemmas.BatchShutdown
import Verif.Lemmas.Dict
import Verif.Lemmas.ExpAgg
import Verif.Lemmas.ExpBuckets
import Verif.Lemmas.ExpCollect
import Verif.Lemmas.ExpCumulative
import Verif.Lemmas.ExpDownscale
import Verif.Lemmas.ExpInsert
import Verif.Lemmas.ExpMapping
import Verif.Lemmas.ExpMerge
import Verif.Lemmas.Hex
import Verif.Lemmas.Jaeger
import Verif.Lemmas.Metrics
import Verif.Lemmas.Re
import Verif.Lemmas.Rounding
import Verif.Lemmas.Span
import Verif.Lemmas.Str
import Verif.Lemmas.TraceContext
import Verif.Lemmas.TraceState
import Verif.Lemmas.Url
import Verif.Lemmas.Views
import Verif.Model.Alias
import Verif.Model.Attributes
import Verif.Model.B3Jaeger
import Verif.Model.Baggage
import Verif.Model.Batch
import Verif.Model.Callbacks
import Verif.Model.Clock
import Verif.Model.Configuration
import Verif.Model.Conflicts
import Verif.Model.Context
import Verif.Model.Correlated
import Verif.Model.Decorated
import Verif.Model.Delivery
import Verif.Model.Detectors
import Verif.Model.ErrorHandler
import Verif.Model.Events
import Verif.Model.Exemplar
import Verif.Model.ExemplarFilters
import Verif.Model.ExemplarRace
import Verif.Model.Exit
import Verif.Model.ExpHist
import Verif.Model.ExpMapping
import Verif.Model.Feedback
import Verif.Model.Flushing
import Verif.Model.Fork
import Verif.Model.Generators
import Verif.Model.Glob
import Verif.Model.Globals
import Verif.Model.HttpWire
import Verif.Model.Identity
import Verif.Model.InMemory
import Verif.Model.Instrument
import Verif.Model.Intervals
import Verif.Model.Isolation
import Verif.Model.Json
import Verif.Model.Lifecycles
import Verif.Model.Limits
import Verif.Model.Links
import Verif.Model.Live
import Verif.Model.Locks
import Verif.Model.LogSharing
import Verif.Model.LoggingHandler
import Verif.Model.Measured
import Verif.Model.Meter
import Verif.Model.MetricWire
import Verif.Model.Metrics
import Verif.Model.Multi
import Verif.Model.NonFinite
import Verif.Model.Observables
import Verif.Model.OcExporter
import Verif.Model.Once
import Verif.Model.OpenCensus
import Verif.Model.OpenTracing
import Verif.Model.Otlp
import Verif.Model.OtlpConfig
import Verif.Model.OtlpExport
import Verif.Model.OtlpMetrics
import Verif.Model.OtlpShutdown
import Verif.Model.Periodic
import Verif.Model.Periods
import Verif.Model.Pool
import Verif.Model.Prometheus
import Verif.Model.Propagate
import Verif.Model.Provider
import Verif.Model.ProxyMetrics
import Verif.Model.ProxyTracer
import Verif.Model.Py
import Verif.Model.Recording
import Verif.Model.Resource
import Verif.Model.Rounding
import Verif.Model.Sampling
import Verif.Model.Scrapes
import Verif.Model.Settings
import Verif.Model.Severity
import Verif.Model.Simple
import Verif.Model.Span
import Verif.Model.SpanContext
import Verif.Model.Storage
import Verif.Model.Tasks
import Verif.Model.Timely
import Verif.Model.ToJson
import Verif.Model.TraceContext
import Verif.Model.TraceState
import Verif.Model.Traced
import Verif.Model.Tracer
import Verif.Model.Url
import Verif.Model.UseSpan
import Verif.Model.Views
import Verif.Model.Zipkin
import Verif.Props.Alias
import Verif.Props.Attributes
import Verif.Props.B3Jaeger
import Verif.Props.Baggage
import Verif.Props.Batch
import Verif.Props.Callbacks
import Verif.Props.Clock
import Verif.Props.Configuration
import Verif.Props.Conflicts
import Verif.Props.Context
import Verif.Props.Correlated
import Verif.Props.Decorated
import Verif.Props.Delivery
import Verif.Props.Detectors
import Verif.Props.ErrorHandler
import Verif.Props.Events
import Verif.Props.Exemplar
import Verif.Props.ExemplarFilters
import Verif.Props.ExemplarRace
import Verif.Props.Exit
import Verif.Props.ExpHist
import Verif.Props.ExpHistFail
import Verif.Props.ExpMapping
import Verif.Props.Feedback
import Verif.Props.Flushing
import Verif.Props.Footprint
import Verif.Props.Fork
import Verif.Props.Generators
import Verif.Props.Glob
import Verif.Props.Globals
import Verif.Props.Histogram
import Verif.Props.HttpWire
import Verif.Props.IdFormat
import Verif.Props.Identity
import Verif.Props.InMemory
import Verif.Props.Instrument
import Verif.Props.Intervals
import Verif.Props.Isolation
import Verif.Props.Json
import Verif.Props.Lifecycles
import Verif.Props.Limits
import Verif.Props.Links
import Verif.Props.Live
import Verif.Props.Locks
import Verif.Props.LogSharing
import Verif.Props.LoggingHandler
import Verif.Props.Measured
import Verif.Props.Meter
import Verif.Props.MetricWire
import Verif.Props.Metrics
import Verif.Props.Multi
import Verif.Props.NonFinite
import Verif.Props.Observables
import Verif.Props.OcExporter
import Verif.Props.Once
import Verif.Props.OpenCensus
import Verif.Props.OpenTracing
import Verif.Props.Otlp
import Verif.Props.OtlpConfig
import Verif.Props.OtlpExport
import Verif.Props.OtlpGroup
import Verif.Props.OtlpMetrics
import Verif.Props.OtlpShutdown
import Verif.Props.OtlpSplit
import Verif.Props.Periodic
import Verif.Props.Periods
import Verif.Props.Pipeline
import Verif.Props.Pool
import Verif.Props.Prometheus
import Verif.Props.PrometheusFamily
import Verif.Props.PrometheusUnits
import Verif.Props.Propagate
import Verif.Props.Provider
import Verif.Props.ProxyMetrics
import Verif.Props.ProxyTracer
import Verif.Props.Recording
import Verif.Props.Resource
import Verif.Props.Rounding
import Verif.Props.Sampling
import Verif.Props.Scrapes
import Verif.Props.Settings
import Verif.Props.Severity
import Verif.Props.Simple
import Verif.Props.Span
import Verif.Props.Storage
import Verif.Props.Tasks
import Verif.Props.Timely
import Verif.Props.ToJson
import Verif.Props.TraceContext
import Verif.Props.TraceState
import Verif.Props.Traced
import Verif.Props.Tracer
import Verif.Props.UseSpan
import Verif.Props.Views
import Verif.Props.Wire
import Verif.Props.Zipkin
import Verif.Spec.Attributes
import Verif.Spec.B3
import Verif.Spec.Baggage
import Verif.Spec.Callbacks
import Verif.Spec.Clock
import Verif.Spec.Conflicts
import Verif.Spec.Correlated
import Verif.Spec.Decorated
import Verif.Spec.Delivery
import Verif.Spec.Detectors
import Verif.Spec.ErrorHandler
import Verif.Spec.ExemplarFilters
import Verif.Spec.ExemplarRace
import Verif.Spec.Exit
import Verif.Spec.ExpHist
import Verif.Spec.Feedback
import Verif.Spec.Flushing
import Verif.Spec.Footprint
import Verif.Spec.Generators
import Verif.Spec.Globals
import Verif.Spec.HttpWire
import Verif.Spec.Identity
import Verif.Spec.InMemory
import Verif.Spec.Intervals
import Verif.Spec.Isolation
import Verif.Spec.Lifecycles
import Verif.Spec.Limits
import Verif.Spec.Links
import Verif.Spec.Live
import Verif.Spec.Locks
import Verif.Spec.LogSharing
import Verif.Spec.Measured
import Verif.Spec.MetricWire
import Verif.Spec.Metrics
import Verif.Spec.NonFinite
import Verif.Spec.Observables
import Verif.Spec.Periods
import Verif.Spec.Pipeline
import Verif.Spec.Pool
import Verif.Spec.Recording
import Verif.Spec.Rounding
import Verif.Spec.Scrapes
import Verif.Spec.Settings
import Verif.Spec.Shuffle
import Verif.Spec.Span
import Verif.Spec.Tasks
import Verif.Spec.Timely
import Verif.Spec.TraceContext
import Verif.Spec.TraceState
import Verif.Spec.Traced
import Verif.Spec.Tracer
import Verif.Spec.Views
