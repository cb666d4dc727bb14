import Verif.Model.Measured
import Verif.Model.OtlpMetrics
/-!
# From the measurement to the collector
Puts `Verif.Model.Measured` (threads that record, collect and export) in front of `Verif.Model.OtlpMetrics` (the encoding): what the server of an OTLP exporter gets of counters. Models the second half of
`MetricReaderStorage.collect` (`opentelemetry-sdk/src/opentelemetry/sdk/metrics/_internal/metric_reader_storage.py` 134–248, how points become metrics and metrics are grouped by scope) and
`encode_metrics` with `_encode_resource_metrics`
(`exporter/opentelemetry-exporter-otlp-proto-common/src/opentelemetry/exporter/otlp/proto/common/_internal/metrics_encoder/__init__.py` 190–244). Counters with `int` values only, without exemplars. A reader
has one resource, which is left out. Requests are not split (C47). Times are never negative here (`toNat`).
-/
namespace Otel
namespace MetricWire
open Recording (Slot)
open Measured (Pt XEv)
open Otlp (SdkMetric NumberPoint PBMetric PyVal)

/-- What configures a reader's metrics: the scope of the instrument, the name, description and unit of the `j`-th view's metric of an instrument, the attributes of a stream, the temporality and whether the
instrument is monotonic. -/
structure Desc (σ K : Type) where
  scope : Slot → σ
  name : Slot → Str
  description : Slot → Str
  unit : Slot → Str
  attrs : K → List (Str × PyVal)
  temporality : Nat
  monotonic : Slot → Bool

variable {σ K : Type} [DecidableEq σ] [DecidableEq K]

/-- A data point of a counter (aggregation.py builds it; `start_time_unix_nano` of a cumulative or delta point is set). -/
def point (d : Desc σ K) (q : Pt K (Metrics.NumPoint Int)) : NumberPoint :=
  ⟨⟨d.attrs q.2.1, (q.2.2.start.getD 0).toNat, q.2.2.time.toNat, []⟩, .int q.2.2.value⟩

/-- The metric of a stream set: its points of this collection (metric_reader_storage.py:164–217). -/
def metric (d : Desc σ K) (b : List (Pt K (Metrics.NumPoint Int))) (s : Slot) : SdkMetric :=
  ⟨d.name s, d.description s, d.unit s, .sum d.temporality (d.monotonic s) ((b.filter fun q => q.1 = s).map (point d))⟩

/-- The stream sets that gave points, in order (a stream set without points gives `None` and no metric, 161–162). -/
def slots (b : List (Pt K (Metrics.NumPoint Int))) : List Slot := (b.map (·.1)).eraseDups

/-- `instrumentation_scope_scope_metrics` (219–235). The code adds the metrics of an instrument together; here one at a time, which comes to the same. -/
def scopeMetrics (d : Desc σ K) (b : List (Pt K (Metrics.NumPoint Int))) : Dict σ (List SdkMetric) :=
  (slots b).foldl (fun D s => Dict.set D (d.scope s) ((Dict.get? D (d.scope s)).getD [] ++ [metric d b s])) []

/-- `encode_metrics` of a collection (metrics_encoder/__init__.py:190–244): `none` is `EncodingException`, raised by the first metric that cannot be encoded. -/
def request (d : Desc σ K) (b : List (Pt K (Metrics.NumPoint Int))) : Option (List (σ × List PBMetric)) :=
  (scopeMetrics d b).mapM fun g => (g.2.mapM Otlp.encodeMetric).map fun ms => (g.1, ms)

/-- What the server of reader `r`'s exporter accepts: a request that cannot be encoded is never sent (`_receive_metrics`, `opentelemetry-sdk/src/opentelemetry/sdk/metrics/_internal/export/__init__.py` 547–554,
logs the exception). The `ok` of an export is the server's answer, for a request that is sent. -/
def received (d : Desc σ K) (r : Nat) (l : List (XEv K (Metrics.NumPoint Int))) : List (List (σ × List PBMetric)) :=
  l.filterMap fun
    | .done _ r' b ok => if r' = r ∧ ok = true then request d b else none
    | _ => none

end MetricWire
end Otel
