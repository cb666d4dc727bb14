import Verif.Model.Exemplar
/-!
# Which measurements can become exemplars
Models the choice of the exemplar filter (`MeterProvider.__init__` and `_get_exemplar_filter`,
`opentelemetry-sdk/src/opentelemetry/sdk/metrics/_internal/__init__.py` 366–374, 415–440) and its use by
`SynchronousMeasurementConsumer` for all readers (`opentelemetry-sdk/src/opentelemetry/sdk/metrics/_internal/measurement_consumer.py`
80–92, 103–145), on top of the reservoirs of `Exemplar`. The filter given by the application is a function that does not raise. Calls
do not overlap (`ExemplarRace` has threads). The streams exist from the beginning and do not change; which stream a measurement belongs
to is the subject of `Storage`: here every stream is one the measurements belong to.
-/
namespace Otel
namespace ExemplarFilters
open Metrics Exemplar
variable {α : Type}

/-- `ExemplarFilter.should_sample` as the consumer sees it: the measurement, with the current span of its context, and that span's
`sampled` flag. -/
abbrev Decide (α : Type) := Offer α → Bool → Bool

/-- A filter of the SDK as such a function (exemplar_filter.py:63–134). -/
def ofFilter (f : Filter) : Decide α := fun o sampled => f.sample o.span sampled

/-- `_get_exemplar_filter` (metrics/_internal/__init__.py:366–374); `none`: `ValueError`. -/
def byName (s : Str) : Option Filter :=
  if s = "trace_based".toList then some .traceBased
  else if s = "always_on".toList then some .alwaysOn
  else if s = "always_off".toList then some .alwaysOff
  else none

/-- `exemplar_filter or _get_exemplar_filter(environ.get(OTEL_METRICS_EXEMPLAR_FILTER, "trace_based"))`
(metrics/_internal/__init__.py:427–433); `none`: the constructor raises. Filters have neither `__bool__` nor `__len__`. -/
def construct (arg : Option (Decide α)) (env : Option Str) : Option (Decide α) :=
  match arg with
  | some f => some f
  | none => (byName (env.getD "trace_based".toList)).map ofFilter

/-- The reservoir of a stream (`_default_reservoir_factory`, view.py:37–45; or the view's factory). -/
inductive Shape (α : Type) where
  | simple (size : Nat)
  | aligned (bounds : List α)

/-- A call on it. -/
def Shape.step [Zero α] [LinearOrder α] : Shape α → Res α → Exemplar.Op α → Res α
  | .simple size => stepSimple size
  | .aligned bounds => stepAligned bounds

/-- A metric stream of a reader, whose points have the attributes `point`. -/
structure Stream (α : Type) where
  reader : Nat
  shape : Shape α
  point : MAttrs

/-- What happens to a provider. The draws are the random numbers of the streams. -/
inductive Event (α : Type) where
  /-- A measurement of a synchronous instrument. -/
  | record (o : Offer α) (sampled : Bool) (draws : List Nat)
  /-- A measurement from the callback of an asynchronous instrument, during a collection of the reader. -/
  | observe (reader : Nat) (o : Offer α) (sampled : Bool) (draws : List Nat)
  /-- The reader's collection reads the streams. -/
  | collect (reader : Nat)

/-- The reservoirs, and what the collections returned: by number of the stream. -/
structure State (α : Type) where
  res : List (Res α)
  out : List (Nat × List (Ex α))

/-- `MeterProvider(...)`. -/
def init [Zero α] (streams : List (Stream α)) : State α := ⟨streams.map (fun _ => .new), []⟩

/-- `reader_storage.consume_measurement(measurement, should_sample_exemplar)` for the storages of the readers in question, and
`_sample_exemplar` (aggregation.py:131–148) in each stream. -/
def offerAll [Zero α] [LinearOrder α] (streams : List (Stream α)) (takes : Nat → Bool) (o : Offer α) (draws : List Nat) (res : List (Res α)) :
    List (Res α) :=
  res.mapIdx (fun i s =>
    match streams[i]? with
    | some st => if takes st.reader then st.shape.step s (.offer o (draws.getD i 0)) else s
    | none => s)

/-- One event (measurement_consumer.py:80–92; 130–141; 143). -/
def step [Zero α] [LinearOrder α] (streams : List (Stream α)) (keep : Decide α) (s : State α) : Event α → State α
  | .record o sampled draws =>
    if keep o sampled then { s with res := offerAll streams (fun _ => true) o draws s.res } else s
  | .observe r o sampled draws =>
    if keep o sampled then { s with res := offerAll streams (fun k => k == r) o draws s.res } else s
  | .collect r =>
    { res := s.res.mapIdx (fun i x =>
        match streams[i]? with
        | some st => if st.reader = r then st.shape.step x (.collect st.point) else x
        | none => x),
      out := s.out ++ (s.res.zipIdx.filterMap (fun (x, i) =>
        match streams[i]? with
        | some st => if st.reader = r then some (i, (x.collect st.point).1) else none
        | none => none)) }

/-- A program. -/
def run [Zero α] [LinearOrder α] (streams : List (Stream α)) (keep : Decide α) (es : List (Event α)) : State α :=
  es.foldl (step streams keep) (init streams)

end ExemplarFilters
end Otel
