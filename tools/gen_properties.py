#!/usr/bin/env python3
"""Generates /verif/properties.jsonl (one JSON object per line)."""
import json
A="opentelemetry-api/src/opentelemetry/"
S="opentelemetry-sdk/src/opentelemetry/sdk/"
P="propagator/"
X="exporter/"
props=[]
def p(i,title,statement,quant,why,*anchors):
    props.append(dict(id=i,title=title,statement=statement,quantifier=quant,why_tests_cant=why,anchors=list(anchors)))

p("C01","TraceState stays well-formed under every history of edits",
  "A TraceState obtained from the constructor or from a header and then edited by any sequence of add/update/delete has at most 32 entries, has no key twice, and every key and value satisfies the W3C tracestate grammar.",
  "every constructor argument, every list of header strings, every finite sequence of add/update/delete with arbitrary string arguments",
  "the histories and the strings are unbounded; a test samples a few",
  A+"trace/span.py: TraceState.__init__, add, update, delete, from_header, _is_valid_pair")
p("C02","TraceState header round trip",
  "For every reachable TraceState ts, TraceState.from_header([ts.to_header()]) has the same entries in the same order.",
  "every reachable TraceState","round trip over all key/value strings, including '=' and spaces near the separators",
  A+"trace/span.py: TraceState.to_header, TraceState.from_header")
p("C03","TraceState edits are functional and behave like an ordered map",
  "add of a new valid pair puts it first and leaves every other entry in order; add of an existing key, of an invalid pair or on a full list changes nothing; update of a valid pair makes it first with the new value and keeps all other entries; delete removes exactly that key. No edit loses an unrelated entry.",
  "every reachable TraceState and all string arguments","all sizes up to the capacity boundary and all arguments; the violation at the boundary needs exactly 32 entries",
  A+"trace/span.py: TraceState.add, TraceState.update, TraceState.delete")
p("C04","traceparent/tracestate inject-extract round trip",
  "Injecting a span context with valid ids (and one byte of flags) into an empty carrier and extracting from it yields a remote span context with the same trace id, span id, trace flags and trace state.",
  "all 128-bit non-zero trace ids, 64-bit non-zero span ids, flags 0..255, all reachable trace states","2^200 inputs",
  A+"trace/propagation/tracecontext.py: TraceContextTextMapPropagator.inject, extract", A+"trace/span.py: format_trace_id, format_span_id")
p("C05","traceparent extraction accepts exactly the W3C format and is otherwise the identity",
  "extract returns the given context unchanged unless the first traceparent header matches version-traceid-spanid-flags with lower-case hex fields of 2/32/16/2 digits, version not ff, ids not all zero, and (for version 00) nothing after the flags; when it does install a span its context is valid and remote. It never raises.",
  "every header string list and every context","arbitrary attacker-controlled strings",
  A+"trace/propagation/tracecontext.py: TraceContextTextMapPropagator.extract")
p("C06","Contexts are immutable and attach/detach nests",
  "set_value returns a context that maps the key to the value, agrees with the old one on every other key and leaves the old one unchanged; after any well-nested sequence of attach/detach the current context is the one before the sequence; threads do not see each other's attachments.",
  "all contexts, keys, values, all well-nested attach/detach sequences, all interleavings of threads","unbounded nesting and interleavings",
  A+"context/__init__.py: set_value, get_value, attach, detach", A+"context/context.py: Context", A+"context/contextvars_context.py: ContextVarsRuntimeContext")
p("C07","Baggage is a persistent map",
  "After any sequence of set_baggage/remove_baggage/clear, get_baggage(k) is the value of the last set of k not followed by a remove of k or a clear, get_all lists exactly those entries, and contexts obtained earlier still answer as before.",
  "all sequences of operations, keys and values","unbounded histories",
  A+"baggage/__init__.py: set_baggage, get_baggage, get_all, remove_baggage, clear")
p("C08","Baggage header round trip",
  "Injecting baggage whose keys and values are strings and extracting the header into an empty context yields the same baggage, when the header is within the W3C limits.",
  "every baggage map of strings (full Unicode)","all strings; percent-encoding corner cases",
  A+"baggage/propagation/__init__.py: W3CBaggagePropagator.inject, extract, _format_baggage")
p("C09","Baggage extraction is total, bounded and additive",
  "Extracting any header never raises, never adds more than 180 entries, ignores headers over 8192 characters and entries over 4096 characters, ignores malformed entries without affecting the other entries, and keeps every entry of the given context whose key is not in the header.",
  "every header string and every context","attacker-controlled strings of any length",
  A+"baggage/propagation/__init__.py: W3CBaggagePropagator.extract", A+"baggage/__init__.py: _is_valid_pair, _is_valid_key, _is_valid_value")
p("C10","B3 inject-extract round trip",
  "For both the single-header and the multi-header B3 format, extracting what was injected for a valid span context yields the same trace id and span id, the same sampled decision, and is_remote.",
  "all valid span contexts","2^192 ids",
  P+"opentelemetry-propagator-b3/src/opentelemetry/propagators/b3/__init__.py: B3MultiFormat, B3SingleFormat")
p("C11","B3 extraction never installs an invalid remote span over an existing one",
  "Whatever the B3 headers contain, extraction either returns the context with the current span unchanged or installs a valid remote span whose ids are the ones in the headers.",
  "every header string","arbitrary strings; the violation needs specific ones",
  P+"opentelemetry-propagator-b3/src/opentelemetry/propagators/b3/__init__.py: B3MultiFormat.extract")
p("C12","Jaeger inject-extract round trip",
  "Extracting what the Jaeger propagator injected for a valid span context and string baggage yields the same ids, sampled decision and baggage.",
  "all valid span contexts, all baggage maps of strings","2^192 ids, all strings",
  P+"opentelemetry-propagator-jaeger/src/opentelemetry/propagators/jaeger/__init__.py: JaegerPropagator")
p("C13","Composite propagator is the in-order composition",
  "Extract applies each propagator in order to the context returned by the previous one; inject writes what each would write, a later one overriding an equal key; fields is the union of the fields; a propagator that finds nothing does not disturb the others.",
  "all lists of propagators, carriers and contexts","any number of propagators",
  A+"propagators/composite.py: CompositePropagator")
p("C14","Attribute collections respect their limit and account for every drop",
  "After any sequence of sets and deletes on a bounded attribute collection, it holds at most maxlen entries, the entries are the most recently set valid ones with their last values, and dropped counts exactly the evictions (or refused sets for maxlen 0).",
  "every operation history, every limit","unbounded histories; eviction order",
  A+"attributes/__init__.py: BoundedAttributes")
p("C15","Stored attribute values are always valid and never longer than the value limit",
  "Every key in an attribute collection is a non-empty string; every value is bool/int/float/str/bytes or an immutable sequence of homogeneous ones (None allowed inside sequences); no stored string (nor element) is longer than the limit; cleaning an already clean value changes nothing.",
  "all keys, values and limits","all nested value shapes",
  A+"attributes/__init__.py: _clean_attribute, _clean_attribute_value, BoundedAttributes.__setitem__")
p("C16","Bounded event/link lists keep the newest and count the rest",
  "After any sequence of append/extend a BoundedList holds the last maxlen items in order and dropped equals the number of items it no longer holds.",
  "every history and limit","unbounded histories",
  S+"util/__init__.py: BoundedList")
p("C17","A span ends once and is immutable afterwards",
  "end() notifies the processor exactly once however often it is called; the end time is that of the first call; after end no call to set_attribute(s), add_event, add_link, set_status, update_name or record_exception changes anything observable, and is_recording is False.",
  "every sequence of span operations (serialised by the span's lock)","all interleavings and histories",
  S+"trace/__init__.py: Span.start, end, set_attributes, add_event, add_link, set_status, update_name, record_exception, __exit__")
p("C18","Span status precedence",
  "Once a recording span's status is OK it never changes; setting UNSET never changes it; otherwise the last OK/ERROR set before end wins; a description is only ever present with ERROR.",
  "every sequence of set_status calls, with Status or StatusCode arguments","all sequences",
  S+"trace/__init__.py: Span.set_status", A+"trace/status.py: Status")
p("C19","Span limits hold at every moment and drops are reported",
  "At any time a span has at most max_span_attributes attributes, max_events events, max_links links, every event/link at most its own attribute limit; the dropped_* counts equal the number of items added but not present.",
  "every sequence of span operations and constructor arguments, all limits","all histories",
  S+"trace/__init__.py: Span.__init__, SpanLimits, _new_events, _new_links, add_event, add_link, ReadableSpan.dropped_*")
p("C20","Limit configuration resolution",
  "An explicit (integer) limit beats the environment, which beats the default; a span-specific limit falls back to the general one; UNSET (or a blank environment value) means unlimited; negative values and unparsable environment values raise at construction, and nothing else does; no SpanLimits object holds a negative limit.",
  "all argument/environment combinations","cross product of settings",
  S+"trace/__init__.py: SpanLimits.__init__, _from_env_if_absent")
p("C21","Trace-id ratio sampling is a deterministic, monotone threshold on the trace id",
  "Two ratio samplers with the same rate decide equally for the same trace id whatever else differs; a trace sampled at a rate is sampled at every higher rate; rate 0 samples nothing, rate 1 everything; the number of low-64-bit ids sampled is exactly the bound.",
  "all trace ids and rates","2^128 ids",
  S+"trace/sampling.py: TraceIdRatioBased")
p("C22","ParentBased delegates by the parent's state only",
  "With no valid parent the root sampler decides; otherwise exactly the sampler chosen by (remote, sampled) decides, and by default the decision equals the parent's sampled flag, so a trace is sampled consistently along any chain of descendants.",
  "all parents, samplers, chains of descendants","unbounded chains",
  S+"trace/sampling.py: ParentBased, StaticSampler")
p("C23","start_span identity and flags",
  "A child of a valid parent has the parent's trace id and records the parent; a root (or child of an invalid parent) has a fresh non-zero trace id; the span id is fresh and non-zero; the sampled flag is set iff the sampler said RECORD_AND_SAMPLE; the span records iff the sampler said other than DROP; attributes of a recorded span are the sampler's; the new context's is_remote is False.",
  "all contexts, samplers and id streams","all combinations of parent and sampler results",
  S+"trace/__init__.py: Tracer.start_span", S+"trace/id_generator.py: RandomIdGenerator")
p("C24","Batch processor: order, batch bound, no duplication, only sampled",
  "Under every interleaving of producers, flushers, shutdown and the worker, each exported batch has 1..max_export_batch_size spans, no span is exported twice, exported spans are sampled ended spans, and the exported sequence follows queue order.",
  "every interleaving of any number of threads, every queue/batch size","schedules",
  S+"trace/export/__init__.py: BatchSpanProcessor", S+"_logs/_internal/export/__init__.py: BatchLogRecordProcessor")
p("C25","Batch processor: a successful force_flush means earlier spans were handed over",
  "If force_flush returns True, every sampled span whose on_end completed before the call has been passed to the exporter (or was dropped because the queue overflowed).",
  "every interleaving","schedules; crash points between lock acquisitions",
  S+"trace/export/__init__.py: BatchSpanProcessor.force_flush, _get_or_create_flush_request, _export, _notify_flush_request_finished")
p("C26","Batch processor: shutdown loses nothing that was accepted",
  "Every sampled span accepted by on_end is exported by the time shutdown returns, unless dropped because the queue overflowed; the exporter is shut down exactly after the last export and no export follows it.",
  "every interleaving","a race between the shut-down check and the append needs a specific schedule",
  S+"trace/export/__init__.py: BatchSpanProcessor.on_end, shutdown, worker, _drain_queue")
p("C27","Multi span processor fans out in order",
  "on_start/on_end/shutdown reach every registered processor exactly once, in registration order; force_flush returns True iff every processor flushed successfully within the deadline and stops at the first failure.",
  "any number of processors, any results and timings","all lists",
  S+"trace/__init__.py: SynchronousMultiSpanProcessor, ConcurrentMultiSpanProcessor")
p("C28","Once executes its function at most once successfully and do_once reports it exactly once",
  "Under every interleaving of any number of threads calling do_once, the function body completes exactly once overall and exactly one call returns True; consequently a global provider set once is never replaced.",
  "any number of threads, every interleaving","schedules",
  A+"util/_once.py: Once.do_once", A+"trace/__init__.py: set_tracer_provider")
p("C29","Sum aggregation conserves measurements",
  "For a synchronous sum the total of all delta collections plus what is not yet collected equals the sum of all measurements, each cumulative collection equals the sum of all measurements so far, and consecutive delta intervals are contiguous.",
  "all interleavings of measurements and collections","unbounded histories",
  S+"metrics/_internal/aggregation.py: _SumAggregation")
p("C30","Explicit-bucket histogram points are consistent",
  "In every collected histogram point the bucket counts sum to count, there is one more bucket than boundaries, each measurement is counted in the bucket (b[i-1], b[i]] that contains it, and sum/min/max are those of the interval's measurements.",
  "all boundaries and measurement histories","boundary values and unbounded histories",
  S+"metrics/_internal/aggregation.py: _ExplicitBucketHistogramAggregation")
p("C31","Delta and cumulative views of the same measurements agree",
  "For every history of measurements and collections the running sum of the delta points equals the cumulative point, for sums and explicit-bucket histograms, synchronous and (for sums) asynchronous.",
  "all histories","unbounded histories",
  S+"metrics/_internal/aggregation.py: _SumAggregation.collect, _ExplicitBucketHistogramAggregation.collect")
p("C32","Every measurement lands in exactly the stream of its filtered attributes",
  "With a view keeping attribute keys K, a measurement with attributes a contributes to exactly one data point, the one whose attributes are a restricted to K; measurements with different restricted attributes never share a data point.",
  "all measurement sequences, attribute maps and key sets","all attribute values, including values equal across types",
  S+"metrics/_internal/_view_instrument_match.py: _ViewInstrumentMatch.consume_measurement, collect")
p("C33","Instrument-to-view routing",
  "An instrument feeds exactly one stream per matching view, or exactly one default stream if none matches; drop-aggregation streams emit nothing; an asynchronous instrument never feeds an explicit-bucket histogram stream through a view.",
  "all instruments, views","cross product of selection criteria",
  S+"metrics/_internal/metric_reader_storage.py: MetricReaderStorage", S+"metrics/_internal/view.py: View")
p("C34","Metric readers are independent",
  "Collecting from one reader never changes what another reader will report; each reader's points depend only on the measurements and its own collections.",
  "all interleavings of measurements and collections of any number of readers","unbounded histories",
  S+"metrics/_internal/measurement_consumer.py: SynchronousMeasurementConsumer")
p("C35","Exponential histogram buckets conserve counts",
  "Growing, downscaling and merging never lose or invent counts: the total over buckets is preserved by grow and downscale, and each count at index i moves to index i>>k when downscaling by k.",
  "all reachable bucket states, all indices and downscale amounts","circular-array arithmetic over all offsets",
  S+"metrics/_internal/exponential_histogram/buckets.py: Buckets")
p("C36","Exponential histogram points are consistent and bounded",
  "After any history of measurements, count = zero count + positive bucket total + negative bucket total, neither range has more than max_size buckets, the scale is between -10 and max_scale and never increases, and each bucket counts exactly the measurements mapping to it at the current scale.",
  "all measurement histories","unbounded histories of doubles",
  S+"metrics/_internal/aggregation.py: _ExponentialBucketHistogramAggregation.aggregate")
p("C37","Exponential histogram collection never fails",
  "Collecting (delta or cumulative) never raises and loses no measurement, whatever was recorded.",
  "all histories of measurements and collections","the failure needs a specific history",
  S+"metrics/_internal/aggregation.py: _ExponentialBucketHistogramAggregation.collect, _merge, _get_low_high_previous_current")
p("C38","Exponent mapping: every value falls inside its bucket's bounds",
  "For scales <= 0 and every positive finite double, the index i satisfies base^i < value <= base^(i+1) (base = 2^(2^-scale)), except that subnormals go to the bucket of the smallest normal; lowering the scale by k maps index i to i>>k.",
  "all positive finite doubles, scales -10..0","2^63 doubles",
  S+"metrics/_internal/exponential_histogram/mapping/exponent_mapping.py: ExponentMapping.map_to_index, get_lower_boundary", S+"metrics/_internal/exponential_histogram/mapping/ieee_754.py")
p("C39","Exemplars are measurements that were offered",
  "Every collected exemplar carries the value, timestamp, filtered attributes and the span/trace id of one and the same offered measurement of the current interval; at most the reservoir size is returned; the aligned-histogram reservoir returns for each bucket the last one offered in that bucket.",
  "all offer/collect histories and random choices","the mixing of ids needs a specific history",
  S+"metrics/_internal/exemplar/exemplar_reservoir.py: ExemplarBucket, FixedSizeExemplarReservoirABC, SimpleFixedSizeExemplarReservoir, AlignedHistogramBucketExemplarReservoir")
p("C40","A fixed-size reservoir fills before it discards",
  "After n offers in an interval the simple reservoir returns exactly min(n, size) exemplars.",
  "all sequences of offers and random choices","probabilistic; needs a specific random outcome",
  S+"metrics/_internal/exemplar/exemplar_reservoir.py: SimpleFixedSizeExemplarReservoir._find_bucket_index")
p("C41","Resource merge is an override with identity and schema rules",
  "merge takes the other's value on a common key and keeps every other attribute; the empty resource is a two-sided identity; merge is idempotent and, for compatible schema urls, associative; on conflicting schema urls it returns the receiver.",
  "all resources","all maps",
  S+"resources/__init__.py: Resource.merge")
p("C42","A created resource always identifies a service",
  "Resource.create always yields a non-empty service.name; explicit attributes beat OTEL_SERVICE_NAME, which beats OTEL_RESOURCE_ATTRIBUTES, which beats defaults.",
  "all attribute maps, environment strings","all strings",
  S+"resources/__init__.py: Resource.create, OTELResourceDetector.detect")
p("C43","OTLP attribute encoding is faithful",
  "Encoding a valid attribute map yields one key-value per attribute, in order, and decoding by protobuf type yields the original value (bool is not turned into int; bytes, nested lists and maps are preserved); an unencodable value removes only itself.",
  "all valid attribute values, nested arbitrarily","unbounded nesting",
  X+"opentelemetry-exporter-otlp-proto-common/src/opentelemetry/exporter/otlp/proto/common/_internal/__init__.py: _encode_value, _encode_key_value, _encode_attributes")
p("C44","OTLP grouping loses, duplicates and misattributes nothing",
  "The spans (or logs) of an OTLP request are a permutation of the batch, each under its own resource and instrumentation scope, every resource and every (resource, scope) pair appears once, and the order within a scope is the batch order.",
  "all batches","all sizes and equality patterns",
  X+"opentelemetry-exporter-otlp-proto-common/src/opentelemetry/exporter/otlp/proto/common/_internal/trace_encoder/__init__.py: _encode_resource_spans", X+"opentelemetry-exporter-otlp-proto-common/src/opentelemetry/exporter/otlp/proto/common/_internal/_log_encoder/__init__.py")
p("C45","Id and flag encoding",
  "Trace and span ids are encoded as 16/8 big-endian bytes that decode to the id for every id in range; span flags carry has_is_remote always and is_remote iff the parent is remote.",
  "all ids","2^128 ids",
  X+"opentelemetry-exporter-otlp-proto-common/src/opentelemetry/exporter/otlp/proto/common/_internal/__init__.py: _encode_span_id, _encode_trace_id", X+"opentelemetry-exporter-otlp-proto-common/src/opentelemetry/exporter/otlp/proto/common/_internal/trace_encoder/__init__.py: _span_flags")
p("C46","OTLP export retries are bounded and stop at success",
  "An export makes at most six attempts with strictly bounded total waiting, retries only on retryable codes, returns SUCCESS iff the last attempt succeeded, and after shutdown makes no attempt and returns FAILURE.",
  "all sequences of server answers","all answer sequences",
  X+"opentelemetry-exporter-otlp-proto-grpc/src/opentelemetry/exporter/otlp/proto/grpc/exporter.py: OTLPExporterMixin._export", X+"opentelemetry-exporter-otlp-proto-common/src/opentelemetry/exporter/otlp/proto/common/_internal/__init__.py: _create_exp_backoff_generator", X+"opentelemetry-exporter-otlp-proto-http/src/opentelemetry/exporter/otlp/proto/http/trace_exporter/__init__.py")
p("C47","Splitting a metrics batch preserves it",
  "With max_export_batch_size n every split has between 1 and n data points (the last possibly fewer than n, all others exactly n), and concatenating the splits gives back the data points in order, each under the same resource, scope and metric.",
  "all metrics data, all n >= 1","all shapes",
  X+"opentelemetry-exporter-otlp-proto-grpc/src/opentelemetry/exporter/otlp/proto/grpc/metric_exporter/__init__.py: OTLPMetricExporter._split_metrics_data, export")
p("C48","Prometheus histogram buckets are cumulative",
  "The exposed buckets have non-decreasing counts, one per boundary plus +Inf, the +Inf bucket equals the number of measurements, and bucket le=b counts the measurements <= b.",
  "all histogram points","all points",
  X+"opentelemetry-exporter-prometheus/src/opentelemetry/exporter/prometheus/__init__.py: _convert_buckets")
p("C49","Prometheus names are legal and stable",
  "Every exposed metric and label name matches the Prometheus grammar, sanitising is idempotent, and legal names are unchanged.",
  "all strings","all strings",
  X+"opentelemetry-exporter-prometheus/src/opentelemetry/exporter/prometheus/_mapping.py: sanitize_full_name, sanitize_attribute")
p("C50","Instruments ignore negative increments",
  "Counter and Histogram never report a negative measurement; the value reported by a monotonic synchronous sum never decreases between cumulative collections.",
  "all histories of add/record calls","unbounded histories",
  S+"metrics/_internal/instrument.py: Counter.add, Histogram.record, Gauge.set, UpDownCounter.add")
p("C51","Provider shutdown and flush reach every reader once",
  "MeterProvider.shutdown calls shutdown on every reader even if some fail, reports failure iff some failed, and a second shutdown reaches none; force_flush likewise reaches every reader.",
  "all readers and failure patterns","all lists",
  S+"metrics/_internal/__init__.py: MeterProvider.shutdown, force_flush")
p("C52","Periodic reader survives a failed export and flushes on shutdown",
  "After any export outcome the next interval is still collected, and measurements recorded before shutdown are exported by it.",
  "all outcome sequences","outcome sequences",
  S+"metrics/_internal/export/__init__.py: PeriodicExportingMetricReader")
p("C53","use_span makes the span current exactly for the body and closes it as configured",
  "Inside use_span the current span is the given one, after it the previous one, also when the body raises; with end_on_exit the span is ended exactly once; an escaping exception is recorded and re-raised when asked.",
  "all nestings and exceptional exits","unbounded nesting",
  A+"trace/__init__.py: use_span")
p("C54","Log severity mapping is monotone and total",
  "Every standard logging level maps to a defined severity number, the map is monotone, levels below 10 map to UNSPECIFIED and levels of 53 and above to FATAL4.",
  "all integers","all integers",
  A+"_logs/severity/__init__.py", S+"_logs/_internal/__init__.py: std_to_otel")
p("C55","Multi log processor mirrors the span one",
  "on_emit and shutdown reach every registered log processor once and in order; force_flush is true iff all succeed within the deadline.",
  "any list of processors","all lists",
  S+"_logs/_internal/__init__.py: SynchronousMultiLogRecordProcessor")
p("C56","The header-list environment parser keeps exactly the well-formed pairs",
  "parse_env_headers never raises, yields exactly the pairs of comma-separated well-formed name=value members, lower-casing names, with later members overriding, and ignores the rest.",
  "all strings","arbitrary strings",
  A+"util/re.py: parse_env_headers")
p("C57","Leaving a with-block ends the span and reports the exception",
  "Leaving `with span:` ends a recording span exactly once; an escaping exception is recorded as one event (type, message, stack trace, escaped) and sets ERROR with 'Type: message' unless the status is already OK, each only if configured; on an ended span nothing happens.",
  "every span state, configuration and exception","all states and exceptions",
  S+"trace/__init__.py: Span.__exit__, record_exception", A+"trace/span.py: Span.__exit__")
p("C58","Sampler selection from the environment never breaks start-up",
  "OTEL_TRACES_SAMPLER (any case) selects the named sampler, an unknown name the default; an unusable OTEL_TRACES_SAMPLER_ARG is ignored (rate 1).",
  "all environment strings","all strings",
  S+"trace/sampling.py: _get_from_env_or_default")
p("C59","Instrument identity",
  "Whatever threads create instruments on one meter and however they interleave, two create_* calls that return an instrument return the same object exactly when name (case-insensitively), kind, unit and description agree as joined by the SDK; at most one object exists per identity; valid calls made one after the other always return.",
  "all schedules of any number of create calls, all names/units/descriptions","interleavings and string collisions",
  A+"metrics/_internal/__init__.py: Meter._register_instrument",S+"metrics/_internal/__init__.py: Meter.create_*")
p("C60","Later changes to the caller's attribute dictionary do not change what was recorded",
  "A data point carries the attributes the dictionary had when the measurement was made, whatever the program does to the dictionary afterwards.",
  "all histories of creating, changing and using dictionaries, and of collections","aliasing over unbounded histories",
  S+"metrics/_internal/_view_instrument_match.py: _ViewInstrumentMatch.consume_measurement", S+"metrics/_internal/aggregation.py: _Aggregation.__init__")
p("C61","A collection that is aborted leaves no trace",
  "If a collection fails (a callback takes too long), the next successful one reports for every asynchronous instrument what its callbacks observed then.",
  "all histories of collections, aborted at any point","crash points in unbounded histories",
  S+"metrics/_internal/measurement_consumer.py: SynchronousMeasurementConsumer.collect", S+"metrics/_internal/aggregation.py: _SumAggregation")
p("C62","Each histogram uses the boundaries it was asked for",
  "A histogram's buckets are those of the view, else those advised at its creation, else the default, independently of other instruments of the same reader.",
  "all sequences of instrument creations","cross-instrument histories",
  S+"metrics/_internal/aggregation.py: DefaultAggregation, ExplicitBucketHistogramAggregation._create_aggregation")
p("C63","A view's name pattern selects instruments by name regardless of case",
  "A view with instrument_name p (with * and ? wildcards) selects exactly the instruments whose name, ignoring case as instrument names do, is matched by p.",
  "all patterns and names","all strings",
  S+"metrics/_internal/view.py: View._match", S+"metrics/_internal/instrument.py: _Synchronous.__init__, _Asynchronous.__init__")
p("C64","Exponential histogram mappings are consistent across scales",
  "The bucket of a value at a lower scale is the bucket containing its bucket at a higher scale, so that downscaling a histogram never moves a measurement.",
  "all finite positive doubles, all scales -10..20","all doubles",
  S+"metrics/_internal/exponential_histogram/mapping/logarithm_mapping.py: LogarithmMapping.map_to_index", S+"metrics/_internal/exponential_histogram/mapping/exponent_mapping.py: ExponentMapping.map_to_index")
p("C65","A failing callback does not affect the other callbacks",
  "Observations of every callback that does not raise are recorded, in order, whatever other callbacks do; a collection that takes longer than its timeout raises.",
  "all callback lists, outcomes and durations","all outcome patterns",
  S+"metrics/_internal/instrument.py: _Asynchronous.callback", S+"metrics/_internal/measurement_consumer.py: SynchronousMeasurementConsumer.collect")
p("C66","A metric reader serves one provider",
  "Whatever providers are constructed, with success or not, a reader collects from at most one provider, and construction succeeds exactly if its readers are distinct and unused.",
  "all sequences of provider constructions","construction histories",
  S+"metrics/_internal/__init__.py: MeterProvider.__init__, _all_metric_readers")
p("C67","One meter per instrumentation scope",
  "Two get_meter calls that return real meters return the same object exactly if name, version, schema URL and attributes agree, whatever happens between them.",
  "all call histories","unbounded histories",
  S+"metrics/_internal/__init__.py: MeterProvider.get_meter", S+"util/instrumentation.py: InstrumentationScope")
p("C68","OTLP log encoding is faithful",
  "An encoded log record says what the record said (ids, flags, severity, times, body, attributes); it can be encoded exactly if its trace id, span id, flags and severity number are set and in range and its body is expressible; one that cannot loses the whole batch.",
  "all log records and batches","all values and batches",
  X+"opentelemetry-exporter-otlp-proto-common/src/opentelemetry/exporter/otlp/proto/common/_internal/_log_encoder/__init__.py: _encode_log, _encode_resource_logs", S+"_logs/_internal/__init__.py: LogRecord")
p("C69","Shutting down a gRPC exporter lets the request in progress finish",
  "Whatever the interleaving, shutdown never closes the channel under a request, at most one request is in progress, shutdown does not raise, and an export begun after shutdown makes no request and returns FAILURE.",
  "all interleavings of any number of export and shutdown calls","thread schedules",
  X+"opentelemetry-exporter-otlp-proto-grpc/src/opentelemetry/exporter/otlp/proto/grpc/exporter.py: OTLPExporterMixin._export, shutdown")
p("C70","OTLP metric encoding is faithful",
  "An encoded metric has the metric's name, unit, kind, temporality, monotonicity and, in order, its data points with attributes, times, numbers, buckets and exemplars; a point can be encoded exactly if its integers have 64 bits and its exemplars' ids are in range.",
  "all metrics","all values",
  X+"opentelemetry-exporter-otlp-proto-common/src/opentelemetry/exporter/otlp/proto/common/_internal/metrics_encoder/__init__.py: _encode_metric, _encode_exemplars")
p("C71","Temporality preferences",
  "Each instrument class is collected with the temporality explicitly preferred for it, else (OTLP) the one the environment variable implies, else cumulative; a reader cannot be made with an invalid preference.",
  "all preference tables and environment values","all strings and tables",
  X+"opentelemetry-exporter-otlp-proto-common/src/opentelemetry/exporter/otlp/proto/common/_internal/metrics_encoder/__init__.py: OTLPMetricExporterMixin._get_temporality", S+"metrics/_internal/export/__init__.py: MetricReader.__init__")
p("C72","A Prometheus scrape exposes every data point once, in its own family",
  "After one collection each data point appears exactly once, in the family with its class (counter, gauge, histogram), sanitised name, description, unit and label names; points with equal attributes get equal labels whatever the order they were given in; families are never mixed or repeated.",
  "all collected metrics, all names, descriptions, units and attributes","unbounded metrics and strings",
  X+"opentelemetry-exporter-prometheus/src/opentelemetry/exporter/prometheus/__init__.py: _CustomCollector")
p("C73","The span tree mirrors the program's nesting, across services","For every program built from nested start_as_current_span blocks, start_span calls, exceptions raised and caught, span method calls, and requests to other services carrying the W3C headers: each span's parent is the span of the innermost block around it (flagged remote exactly if a request lies between), shares its trace id with that parent, and a span outside all blocks or started with an empty context begins a new trace; get_current_span() is at every moment the innermost block's span; afterwards the context is as before; with parent-based samplers everywhere a trace is sampled everywhere or nowhere.","all programs, identifiers drawn, samplers (of each service), nesting depths, exceptions","Unit tests exercise a few nestings of two or three spans.",S+"trace/__init__.py::Tracer.start_as_current_span",S+"trace/__init__.py::Tracer.start_span",A+"trace/__init__.py::use_span",A+"trace/propagation/tracecontext.py")
p("C74","Span processors are told about every recording span, in program order, exactly once","For every program as in C73 that ends spans by leaving their blocks, the processors' on_start/on_end calls are, in order, exactly the starts and block exits of the recording spans (children end before parents, however a block is left); what on_end is given is the span's final state, whatever the program does to the span afterwards.","all programs, exceptions, samplers","Orderings under arbitrary nesting and exceptions are unboundedly many.",S+"trace/__init__.py::Span.end",S+"trace/__init__.py::Span.start",A+"trace/__init__.py::use_span")
p("C75","The simple processors hand over each item once, in the caller's thread, and leave the caller's context alone","For any number of threads calling on_end / emit of a simple processor in any interleaving: when the call returns, the exporter has been called with that item alone, exactly once, if the span is sampled (log records: if the processor was not shut down), and never otherwise; while the exporter runs, the thread's context is the caller's plus the suppression key; afterwards it is the caller's again (unless the exporter raised a BaseException); with the in-memory exporter every item whose call returned is held exactly once, in the order of non-overlapping calls.","all numbers of threads, interleavings, exporters (returning, raising), shutdowns","thread schedules and exporter failures",S+"trace/export/__init__.py: SimpleSpanProcessor",S+"_logs/_internal/export/__init__.py: SimpleLogRecordProcessor",S+"trace/export/in_memory_span_exporter.py: InMemorySpanExporter")
p("C76","Instruments created before the meter provider is set start working when it is set","Whatever threads create meters and instruments while set_meter_provider runs: once it has returned, every instrument ever obtained is backed by exactly one real instrument with the arguments it was created with, made by a meter with the name, version, schema URL and attributes its meter was asked for; every measurement from then on reaches it; set_meter_provider always comes to an end.","all interleavings of any number of get_meter, create_*, record calls with set_meter_provider","thread schedules; tests set the provider in one thread",A+"metrics/_internal/__init__.py: _ProxyMeterProvider, _ProxyMeter, _set_meter_provider",A+"metrics/_internal/instrument.py: _ProxyInstrument")
p("C77","Tracers and loggers work whenever they were obtained; without an SDK instrumentation is transparent","A tracer or logger obtained before the provider is set uses, from the moment it is set, a tracer of that first provider for exactly the arguments asked for, and is a no-op before; OTEL_SDK_DISABLED=true (any case, white space around) gives no-op tracers and loggers only; equal scopes without attributes give the same logger; with no SDK every program runs unchanged and the incoming trace context reaches every service it calls.","all interleavings of set, get and use; all environment values; all call histories; all programs","thread schedules, unbounded histories and programs",A+"trace/__init__.py: ProxyTracer, ProxyTracerProvider, NoOpTracer",A+"_logs/_internal/__init__.py: ProxyLogger",S+"_logs/_internal/__init__.py: LoggerProvider.get_logger",S+"trace/__init__.py: TracerProvider.get_tracer")
p("C78","The logging handler passes on every record faithfully and does not disturb the application","Each logging call with the handler attached emits exactly one log record under the logger's name, with the record's time, the current span's ids and flags, severity and text, the formatted message (or the message object), the source location, the exception and the application's extra attributes within the limit; logging calls never raise because of the handler.","all log records, formatters, current spans, numbers of attributes, provider states","all values of every field and every combination",S+"_logs/_internal/__init__.py: LoggingHandler",S+"_logs/_internal/__init__.py: LogRecord")
p("C79","OTLP exporters are configured by argument, then the signal's variable, then the common variable","For every environment and every choice of arguments: the gRPC exporters use the endpoint, TLS mode, credentials, headers, time-out and compression given by the argument, else the signal's variable, else the common variable, else the default; https is never downgraded; the channel goes to the host and port of the URL; the HTTP exporters post to the argument, the signal's variable as it is, or the common variable with the signal's path after exactly one slash, with the exporter's content type, user agent and content encoding and every other header as given; the constructors raise exactly for malformed values; variables of one signal do not affect another.","every environment (any set of variables and values), signal, argument combination, endpoint string","tests set one variable at a time; the interplay of argument, signal variable, common variable and URL scheme has unboundedly many cases",X+"opentelemetry-exporter-otlp-proto-grpc/src/opentelemetry/exporter/otlp/proto/grpc/exporter.py: OTLPExporterMixin.__init__, environ_to_compression, _get_credentials",X+"opentelemetry-exporter-otlp-proto-grpc/src/opentelemetry/exporter/otlp/proto/grpc/trace_exporter/__init__.py: OTLPSpanExporter.__init__",X+"opentelemetry-exporter-otlp-proto-http/src/opentelemetry/exporter/otlp/proto/http/trace_exporter/__init__.py: OTLPSpanExporter.__init__, _compression_from_env, _append_trace_path")
p("C80","Zipkin export is faithful and respects the tag limit","For every span, in each of the three formats: ids, parent, name, kind, times (to the microsecond) and events are those of the span; every tag is the SDK's own, the resource's or the span's attribute of that name; no attribute's tag is longer than the limit, and a sequence is cut at the boundary of elements so that it stays JSON; a batch is posted once, in order, with the result the server's answer deserves; nothing is posted after shutdown.","every span (attributes, resource, status, events, counts), every limit, every string content, every batch and server answer","the cut of a sequence depends on the interplay of all element lengths and characters; tests use a few short ASCII strings",X+"opentelemetry-exporter-zipkin-json/src/opentelemetry/exporter/zipkin/encoder/__init__.py: Encoder",X+"opentelemetry-exporter-zipkin-json/src/opentelemetry/exporter/zipkin/json/__init__.py: ZipkinExporter.export",X+"opentelemetry-exporter-zipkin-json/src/opentelemetry/exporter/zipkin/json/v1/__init__.py: JsonV1Encoder",X+"opentelemetry-exporter-zipkin-json/src/opentelemetry/exporter/zipkin/json/v2/__init__.py: JsonV2Encoder",X+"opentelemetry-exporter-zipkin-proto-http/src/opentelemetry/exporter/zipkin/proto/http/v2/__init__.py: ProtobufEncoder")
p("C81","SDK auto-configuration does what the environment says, or nothing","For every environment and set of installed entry points: each signal's exporter list (comma-separated, white space ignored, `none`/empty/unset = none) selects exactly the named classes, once each and in order, `otlp` standing for the exporter of the configured protocol; on success a tracer provider (with the selected sampler, id generator and resource), a meter provider and a logger provider with one processor or reader per selected class are set, with the same resource; a configuration naming something unknown or of the wrong kind raises and changes nothing.","all environments, entry point tables, argument combinations","unboundedly many environments; tests set one variable at a time with one exporter",S+"_configuration/__init__.py: _initialize_components, _import_exporters, _get_exporter_names, _get_exporter_entry_point, _import_sampler, _init_tracing, _init_metrics, _init_logging")
p("C82","Configured propagators interoperate",
 "OTEL_PROPAGATORS is a comma-separated list of propagator names, spaces around names ignored, default tracecontext,baggage; the global propagator applies them in that order and an unknown name is an error at import (not a silently absent propagator). For every client list and every server list of this repository's propagators (W3C trace context, baggage, B3 single, B3 multi, Jaeger) and every valid span: if the lists share a format, the server continues the client's trace with the same trace id, span id and sampling decision, marked remote; if they share none, the server's context is unchanged; W3C last preserves flags and trace state too; baggage arrives unchanged if both configure it. Every header written is among the propagator's fields.",
 "every list of configured names with any spacing; every pair of client/server propagator lists; every valid span context and baggage",
 "the pairs of lists are infinitely many (with repetitions, in every order), and the propagators interact through shared headers and a shared context",
 A+"propagate/__init__.py: extract, inject, module body",A+"propagators/composite.py: CompositePropagator","propagator/opentelemetry-propagator-b3/src/opentelemetry/propagators/b3/__init__.py","propagator/opentelemetry-propagator-jaeger/src/opentelemetry/propagators/jaeger/__init__.py")
p("C83","OpenTracing programs produce the same traces",
 "Code instrumented with OpenTracing, run on the shim, produces the traces the same code written with the OpenTelemetry API would: the same spans with the same ids, parents, names, attributes, events, status and times, the same processor calls in the same order, and the same exceptions, also when mixed with OpenTelemetry blocks. An explicit child_of is the parent, otherwise the active span (unless ignored), otherwise the first valid reference; valid references become links. Scopes opened with `with` restore the context exactly, whatever happens inside; activating makes the span current for both APIs; closing a scope twice changes nothing.",
 "every program of nested scopes, blocks, spans, method calls and exceptions; every sampler that looks only at the current span; every state",
 "programs are unbounded and scopes interact with exceptions, tokens and the other API's blocks; tests try a few nestings",
 "shim/opentelemetry-opentracing-shim/src/opentelemetry/shim/opentracing_shim/__init__.py: SpanShim, ScopeShim, ScopeManagerShim, TracerShim","shim/opentelemetry-opentracing-shim/src/opentelemetry/shim/opentracing_shim/util.py: event_name_from_kv",A+"trace/__init__.py: use_span")
p("C84","OpenTracing baggage and carriers",
 "A context injected with the OpenTracing API by one process and extracted by another — with any propagator lists that share a format, and whatever is current on either side — has the same trace id, span id and sampling decision; injecting no context writes no trace headers; extracting from a carrier without headers yields no valid context. A baggage item set on a span is what get_baggage_item answers for that key, reaches child spans and travels with the injected context.",
 "every valid span context, every pair of propagator lists, every current context, every sequence of baggage assignments",
 "the combinations of propagator lists, contexts and what is current are unbounded",
 "shim/opentelemetry-opentracing-shim/src/opentelemetry/shim/opentracing_shim/__init__.py: TracerShim.inject, TracerShim.extract, SpanShim.set_baggage_item, SpanShim.get_baggage_item",A+"propagators/composite.py",A+"baggage/propagation/__init__.py: extract")
p("C85","OpenCensus programs produce the same traces",
 "A program written with the OpenCensus API (with tracer.span blocks, start_span/end_span pairs, methods of spans, exceptions raised and caught), mixed with OpenTelemetry blocks, produces the spans its text says: each span's parent is the span of the innermost block around it, of either API, and outside all blocks the span context given to the OpenCensus tracer; current_span and OpenCensus's execution context answer the innermost OpenCensus span; every block restores both libraries' contexts however it ends; a start_span/end_span pair does what a with block does; attributes, annotations, message events (with their times) and status arrive on the span.",
 "every program of nested blocks of both APIs, every sampler that looks at the current span only, every exception, every time zone",
 "programs are unbounded trees and the contexts of two libraries must stay in step at every point of them",
 "shim/opentelemetry-opencensus-shim/src/opentelemetry/shim/opencensus/_shim_tracer.py: ShimTracer, set_oc_span_in_context","shim/opentelemetry-opencensus-shim/src/opentelemetry/shim/opencensus/_shim_span.py: ShimSpan")
p("C86","The OpenCensus exporter loses nothing",
 "Every span exported with the OpenCensus exporter arrives with its ids, parent (none for a root), name, kind, times to the nanosecond, status, trace state, attributes, events and links; a batch is sent in one request, in order, under the service name of its spans, and export reports success exactly if the call succeeded; one attribute that cannot be expressed does not lose the others.",
 "every batch of spans with arbitrary attributes, events and links, every outcome of the call",
 "the fidelity of a translation is a statement about all spans",
 "exporter/opentelemetry-exporter-opencensus/src/opentelemetry/exporter/opencensus/util.py","exporter/opentelemetry-exporter-opencensus/src/opentelemetry/exporter/opencensus/trace_exporter/__init__.py: OpenCensusSpanExporter, translate_to_collector")
p("C87","Ids are formatted faithfully",
 "format_trace_id and format_span_id give every integer its base-16 text: lower-case digits worth its absolute value, a minus sign exactly if it is negative, padded with zeros to 32 or 16 characters and never longer than needed; valid ids get exactly the full width without a sign; different ids have different texts.",
 "all integers","2^128 ids and the integers outside the valid range",
 A+"trace/span.py: format_trace_id, format_span_id")
p("C88","Prometheus units are spelled out",
 "The unit of a metric is exposed spelled out: an abbreviation in the documented table becomes its name, a/b becomes name_per_singular, an annotation in braces does not matter, other units of letters and digits are kept.",
 "every unit text","the texts are unbounded and annotations may be anywhere",
 X+"opentelemetry-exporter-prometheus/src/opentelemetry/exporter/prometheus/_mapping.py: map_unit")
p("C89","JSON output says what the telemetry is",
 "The JSON text of a span, a log record, a metrics batch, a resource or a scope (to_json, with any indentation, and what the console exporters write) is JSON, and reading it shows the object: names, ids, kinds, parents, status, times, attributes, events, links, points, exemplars and resource, in order; two spans with the same text are the same in all of these. to_json raises exactly when a value is not representable, which no attribute stored by the SDK is; a console exporter writes one document per item, in order.",
 "every span, log record, metrics batch, resource and scope with arbitrary strings and values, every indentation",
 "escaping and nesting must be right for every string and every shape of data; metrics are written and read again at every level",
 S+"trace/__init__.py: ReadableSpan.to_json, _format_context, _format_attributes, _format_events, _format_links",S+"_logs/_internal/__init__.py: LogRecord.to_json",S+"resources/__init__.py: Resource.to_json",S+"util/instrumentation.py: InstrumentationScope.to_json",S+"metrics/_internal/point.py: to_json",S+"trace/export/__init__.py: ConsoleSpanExporter.export",S+"_logs/_internal/export/__init__.py: ConsoleLogExporter.export",S+"metrics/_internal/export/__init__.py: ConsoleMetricExporter.export")
p("C90","Events become faithful log records",
 "An event emitted through an event logger reaches the log record processors exactly once, under the event logger's name, version, schema URL and attributes and with the provider's resource: with the time, trace id, span id, flags, severity and body given, and the current time, the current span's ids and flags and severity INFO where none is given; its attributes are those given plus event.name, which is always the event's name. Event loggers made before the provider is set work once it is; a disabled SDK gets nothing; force_flush reports whether everything was flushed.",
 "every event with arbitrary fields and attributes, every current context, every kind of provider",
 "the fields interact (given or not, zero or not, current span or not, more attributes than fit)",
 "opentelemetry-api/src/opentelemetry/_events/__init__.py: Event, ProxyEventLogger",S+"_events/__init__.py: EventLogger.emit, EventLoggerProvider.force_flush",S+"_logs/_internal/__init__.py: LogRecord.__init__")
p("C91","A collection reports exactly what the instruments measured",
"After any sequence of calls on a provider's instruments and readers, a completed collection of a reader contains every instrument that has measured, once, with one metric for each view that applies to it; the metric's points are exactly those of the streams of that instrument and view: one for each distinct set of kept attributes whose aggregation, created at the first such measurement and run over all such measurements and all completed collections of this reader, has something to report. In particular a cumulative counter's point is the total of all increments with these attributes, a delta counter's the total since this reader's last completed collection, a gauge's the last value recorded since then.",
"all sequences of measurements, observations and collections (completed or given up) by any number of readers, all views, attribute sets, temporalities and default aggregations; measurements with unhashable attribute values excluded",
"the state passes through the consumer, a storage per reader, a dictionary of instruments, one of stream sets and one of attribute sets, all created lazily; only induction over the history relates a reported number to the calls that caused it",
S+"metrics/_internal/measurement_consumer.py: SynchronousMeasurementConsumer", S+"metrics/_internal/metric_reader_storage.py: MetricReaderStorage.consume_measurement, collect", S+"metrics/_internal/_view_instrument_match.py: _ViewInstrumentMatch")
p("C92","Traces of concurrent programs are those of their text",
 "Whatever the interleaving of threads and asyncio tasks: every span started is a child of the span of the block around it in the text (a task inherits the block around the place where it is created, a thread begins without one), in the same trace, and never of what another thread or task is doing; the current span seen anywhere is that of the block around; when everything has finished, the span of every block has been ended and given to the processors exactly once, in its final state; a thread or task outside its blocks has the context it began with. A function or coroutine decorated with start_as_current_span behaves as its body in such a block.",
 "every program of nested blocks, exceptions, span method calls, threads and tasks, every sampler, every schedule (any task may make any next step)",
 "the schedules are unbounded in number and length; a test sees one",
 A+"trace/__init__.py: use_span",A+"util/_decorator.py: _AgnosticContextManager.__call__",A+"context/contextvars_context.py",S+"trace/__init__.py: Tracer.start_as_current_span, Tracer.start_span")
p("C93","Forking neither loses nor duplicates telemetry","After os.fork the parent goes on as if nothing had happened, and in the child the batch processors, the periodic metric reader and the OTLP gRPC exporter work as in a new process: the child exports the spans, log records and measurements made in the child, all of them, and none of those made in the parent before the fork. So nothing is exported by both processes, the child's worker threads run, and shutdown in the child ends.","every history of the parent up to the fork, every moment of the fork relative to the other threads, every later interleaving in parent and child","a test forks at one quiet moment; the claim ranges over every position of the other threads (holding a lock, inside an export, shut down) when the process forks",S+"trace/export/__init__.py:BatchSpanProcessor._at_fork_reinit",S+"_logs/_internal/export/__init__.py:BatchLogRecordProcessor._at_fork_reinit",S+"metrics/_internal/export/__init__.py:PeriodicExportingMetricReader._at_fork_reinit",X+"opentelemetry-exporter-otlp-proto-grpc/src/opentelemetry/exporter/otlp/proto/grpc/exporter.py:OTLPExporterMixin")
p("C94","What reaches the wire is what the program's text says","Take any program of threads and asyncio tasks that opens spans with start_as_current_span, with every span sampled, a BatchSpanProcessor and the OTLP exporter. Whatever the scheduling of the program's threads and of the processor's worker, once all threads and tasks have finished and the processor has then been shut down, the export requests contain exactly one span for each with-block that ends its span (if there are no more of them than max_queue_size), and each carries the block's own span id, the trace id of its outermost enclosing block, the span id of the block around it as parent (none for a root), the name and the start and end time given, and the ERROR status with the exception's text iff an exception left the block. No request is empty or larger than max_export_batch_size. With any sampler, each sampled span that was ended is handed to the exporter exactly once in its final state, unless it was lost to queue overflow.","every program, every schedule of its threads and tasks and of the batch worker, every sampler (second part), every limit configuration, queue and batch size","It ranges over all programs and all interleavings of the program with the export worker, and composes context propagation, the tracer, the batch processor and the encoder; unit tests check each part on single-threaded examples with a mocked neighbour.",
 S+"trace/__init__.py: Tracer.start_as_current_span, Span.end, ReadableSpan", S+"trace/export/__init__.py: BatchSpanProcessor", X+"opentelemetry-exporter-otlp-proto-common/src/opentelemetry/exporter/otlp/proto/common/_internal/trace_encoder/__init__.py: encode_spans", A+"trace/__init__.py: use_span")
p("C95","Metrics may be recorded and collected from any number of threads","Threads that record measurements, create observable instruments and collect readers at the same time never raise because of each other. Each measurement is aggregated exactly once by each stream set of each reader, a thread's measurements in its order; every stream is created once and behaves as an aggregation used by one thread; a collection takes every stream that exists when it begins exactly once and any other at most once, at one collection time, and two collections of one reader do not overlap. If callbacks only make measurements, some thread can always go on until all calls have returned. So a counter's reports add up to what was recorded, whatever the schedule.","every number of threads and calls, every schedule (any thread may make any next atomic step), every reader and view configuration, every answer of every callback","the schedules are unbounded in number; a test with threads sees few of them",S+"metrics/_internal/measurement_consumer.py: SynchronousMeasurementConsumer.consume_measurement, register_asynchronous_instrument, collect",S+"metrics/_internal/metric_reader_storage.py: MetricReaderStorage._get_or_init_view_instrument_match, consume_measurement, collect",S+"metrics/_internal/_view_instrument_match.py: _ViewInstrumentMatch.consume_measurement, collect")
p("C96","NaN and infinite measurements",
  "Measurements may be any float. Counters and histograms refuse exactly the negative numbers, minus infinity included. A delta sum or explicit-bucket histogram point is the IEEE account of the measurements of its own interval (every one counted once, the sum their IEEE total, minimum and maximum those of the values that are numbers), so an interval of finite values is reported correctly whatever came before; a cumulative point is the IEEE account of all measurements. An exponential histogram takes infinities without error. Refuted in part: NaN is refused by no instrument; it makes every later cumulative point NaN, falls into the lowest explicit bucket, and makes an exponential histogram raise into the application with the count already changed.",
  "all instruments, all sequences of measurements over finite numbers, the infinities and NaN, all collection patterns and boundaries",
  "tests feed finite numbers; what one NaN does to all later points needs an invariant over histories",
  S+"metrics/_internal/instrument.py: Counter.add, Histogram.record", S+"metrics/_internal/aggregation.py: _SumAggregation, _ExplicitBucketHistogramAggregation, _ExponentialBucketHistogramAggregation.aggregate", S+"metrics/_internal/exponential_histogram/mapping/")
p("C97","Logs and exemplars lead to their spans, on the wire","In a program with any number of threads and asyncio tasks whose logging goes through LoggingHandler and a BatchLogRecordProcessor to the OTLP exporter: once the program has finished and the log processor has been shut down, the requests sent hold exactly one record per logging call of the text (if there is room in the queue), saying what was logged, and carrying the trace and span identifiers of the span of the innermost block around the call, or none if there is no block; when all spans are sampled and the span processor was shut down too, these are byte for byte the identifiers of exactly one span in the span requests. Exemplars collected under the trace-based filter have the identifiers of the block in which the measurement was made; a measurement made with an explicit context belongs to that context's span.","all programs, schedules of the tasks and of both processors' threads, queue and batch sizes, samplers, records; all orders of measurements and collections","tests log inside one span in one thread and look at the in-memory record; they do not interleave tasks, both processors and both encoders, and do not compare the bytes of the two signals",S+"_logs/_internal/__init__.py: LoggingHandler._translate, emit",S+"_logs/_internal/export/__init__.py: BatchLogRecordProcessor",S+"metrics/_internal/instrument.py: _Counter.add",S+"metrics/_internal/exemplar/exemplar_reservoir.py: ExemplarBucket.offer",X+"opentelemetry-exporter-otlp-proto-common/src/opentelemetry/exporter/otlp/proto/common/_internal/_log_encoder/__init__.py: _encode_log")
p("C98","Equality, hashing and ordering of resources and scopes",
"Two `Resource`s are equal exactly when their schema urls and their attributes are, in whatever order these were given; equality is an equivalence, hashing never fails, and resources of the same contents are one key of a dictionary. The same holds of `InstrumentationScope`s (name, version, schema url, attributes). Merging resources that do not contradict each other gives one key in either order. An OTLP request groups the items of a batch by these keys: nothing is lost or repeated, no two groups have one key, every group holds, in their order, exactly the items of its resource and scope. Two requests for a meter get the same one exactly when the scopes they name are equal. Scopes are strictly and totally ordered by name, version and schema url.",
"all resources and scopes that can be constructed, all hash functions, all batches, all sequences of requests for meters",
"Equality, hash and order must be consistent for every pair and triple of values, including numbers of different types that Python takes to be equal; tests compare a few chosen objects.",
S+"resources/__init__.py: Resource.__eq__, Resource.__hash__, Resource.merge",S+"util/instrumentation.py: InstrumentationScope.__eq__, __hash__, __lt__",S+"metrics/_internal/__init__.py: MeterProvider.get_meter",X+"opentelemetry-exporter-otlp-proto-common/src/opentelemetry/exporter/otlp/proto/common/_internal/trace_encoder/__init__.py: _encode_resource_spans")
p("C99","Exemplars recorded and collected by several threads",
"Recording a measurement never raises because of exemplars, however recordings of other threads and collections interleave with it, and a collection never fails. Every exemplar that is collected is made of fields of measurements that were offered, there is at most one per place of the reservoir, and for a histogram its value lies in the bucket it stands for. If no two calls overlap, the exemplars are exactly those of a reservoir used by one thread.",
"all schedules of any number of recording threads and a collecting one at the grain of single reads and writes, all measurements, all random choices, both reservoirs and all sizes and boundaries",
"The reservoirs have no lock and are filled after the aggregation's lock was released, so the outcome depends on where each thread is interrupted; a test runs a few schedules the scheduler happens to pick.",
S+"metrics/_internal/exemplar/exemplar_reservoir.py: FixedSizeExemplarReservoirABC.collect, FixedSizeExemplarReservoirABC.offer, SimpleFixedSizeExemplarReservoir, AlignedHistogramBucketExemplarReservoir, ExemplarBucket",S+"metrics/_internal/aggregation.py: _Aggregation._sample_exemplar")
p("C100","Log records about exporting log records",
"With a `LoggingHandler` on the root logger, what the SDK and the exporters log comes back as records to be exported. Even so, a call of an application's logger returns and leaves the context as it was; a flush of n records makes exactly as many calls of `export` as these make batches, and returns; shutting down the processor does not export what is logged about the last exports; and a failing exporter is not called for ever because of its own failures.",
"all patterns of failures of the exporter and of records logged about them, all interleavings of worker, other threads, flushes and shutdown, all queue and batch sizes, any depth of the stack",
"The loop closes through the logging configuration of the application, so unit tests of the parts do not contain it; whether it ends depends on every possible sequence of failures.",
S+"_logs/_internal/export/__init__.py: SimpleLogRecordProcessor.emit, BatchLogRecordProcessor.worker, BatchLogRecordProcessor._export, BatchLogRecordProcessor._export_batch, BatchLogRecordProcessor.force_flush",S+"_logs/_internal/__init__.py: LoggingHandler.emit, LoggingHandler.flush")
p("C101","Measurements reach the metric exporter",
"Threads record measurements; the periodic reader's ticker and callers of force_flush collect and export. Each thread hands the results of its collections to the exporter, whole, once each and in order; the exporter is called by one thread at a time; nobody deadlocks. When all is done, what was exported with success, what was exported without and what was not collected add up to everything recorded (delta temporality); a collection after the last measurement hands over the total whatever happened to earlier exports (cumulative). A flush that nobody else collects beside hands over everything recorded before it. Expected and refuted: force_flush returns after everything recorded before it was exported (the ticker may hold a delta it has taken and not exported); the exporter gets collections in the order they were made (a cumulative total can fall); what a failed export carried is exported again (with delta temporality it is lost).",
"all programs of all threads, schedules at the grain of single dictionary looks and lock operations, callbacks, numbers of readers, views and streams, attribute values, measurements, failures of exports",
"the interleavings of recorders, ticker, flushes and exports are unbounded, and totals must be right for all of them",
S+"metrics/_internal/export/__init__.py: PeriodicExportingMetricReader, MetricReader.collect", S+"metrics/_internal/measurement_consumer.py", S+"metrics/_internal/metric_reader_storage.py", S+"metrics/_internal/_view_instrument_match.py")
p("C102","Concurrent Prometheus scrapes: every collection is exposed once, on one page",
  "A PrometheusMetricReader may be scraped by several threads at once and flushed by others. Every collection is handed to scrapes in the order in which the collections were queued, each to exactly one scrape and none lost or copied; a scrape exposes exactly what it took (with the target info, the sanitised attributes of the resource), so that a scrape that runs by itself on an idle reader never fails and exposes its own collection once; no scrape waits for another thread or runs for ever. Counters never go back from one page to the next, no page shows a family twice, and a scrape fails only because of the data.",
  "every number of threads, every program of scrapes and flushes, every interleaving of their accesses to the shared queue, every result of the collections, with and without target info",
  "the client library serves each scrape in a thread of its own and the collector has no lock: which thread finds which collection depends on the schedule",
  X+"opentelemetry-exporter-prometheus/src/opentelemetry/exporter/prometheus/__init__.py: _CustomCollector.collect, add_metrics_data, _create_info_metric, PrometheusMetricReader",
  S+"metrics/_internal/export/__init__.py: MetricReader.collect, force_flush")
p("C103","The global error handler handles every error of a guarded block, once",
"No error leaves a block `with GlobalErrorHandler():`, and what follows the block is executed. The registered handlers whose class is a subclass of the error's class are each called once, in order, with the error; a handler that raises is logged and does not keep the others from being called; the default handler logs the error exactly if no registered handler returned. A block without an error is left alone, and of nested blocks the innermost handles the error. Interrupts are not errors and end the program, a broken plugin does not replace the error it should handle, and a handler of a class of errors is asked about all errors of that class.",
"all programs with nested guarded blocks, all class hierarchies, all lists of plugins and whatever they do at each call",
"Which handlers run depends on the hierarchy of classes and on which of the other handlers fail; tests register one or two.",
S+"error_handler/__init__.py: GlobalErrorHandler.__exit__, _DefaultErrorHandler")
p("C104","Totals of floats are accurate, and float counters never go down",
  "Every addition or subtraction of two float measurements gives the double nearest to the exact result. Hence every reported total is within (1+2^-53)^k - 1 of the true total of the measurements, relative to the sum of their sizes, where k is at most twice the number of measurements and collections (for a delta point, twice the measurements since the last collection; for a histogram of floats, the number of measurements and collections), and everything else in a histogram point is exact. Totals of integers of any size, and totals of mixed ints and floats that together take at most 53 bits, are exact. The cumulative total of a counter whose measurements are all ints or all floats never goes down from one collection to the next; the delta of an observable counter whose one value per cycle does not go down is never negative, and for floats is the double nearest to the true difference.",
  "all histories of measurements and collections, all Python ints and finite floats, all boundaries, both temporalities, synchronous and observable instruments",
  "tests add a handful of small numbers, for which every order and every rounding gives the same total; the bound, the monotonicity and where they stop holding depend on the whole history and on the sizes and types of all values",
  S+"metrics/_internal/aggregation.py: _SumAggregation.aggregate, _SumAggregation.collect, _ExplicitBucketHistogramAggregation.aggregate, _ExplicitBucketHistogramAggregation.collect")
p("C105","Processor and reader settings: argument, else environment, else default; accepted exactly if sound",
  "A batching span or log processor takes each of its settings from the constructor argument, else from the environment variable if it is set and can be parsed, else it is the documented default (2048, 5000 ms, 512, 30000 ms). It is constructed, with these settings, exactly if the queue size is positive, the delay is not zero or less and the batch size is between one and the queue size; without settings, or with variables none of which can be parsed, it is always constructed. The worker then waits for the delay. A periodic metric reader exports periodically exactly if its interval is a positive number, and is refused exactly if it is zero or less.",
  "all arguments, all values of the environment variables",
  "there are sixteen combinations of sources and unboundedly many values of each setting; tests check some invalid values one at a time",
  S+"trace/export/__init__.py: BatchSpanProcessor.__init__, BatchSpanProcessor._default_max_queue_size, BatchSpanProcessor._validate_arguments, BatchSpanProcessor.worker",
  S+"_logs/_internal/export/__init__.py: BatchLogRecordProcessor.__init__, BatchLogRecordProcessor._validate_arguments",
  S+"metrics/_internal/export/__init__.py: PeriodicExportingMetricReader.__init__, PeriodicExportingMetricReader._ticker")
p("C106","At the end of the process every provider that was not shut down is, once, last one first",
  "When the process ends, exactly the tracer, logger and meter providers that were made with shutdown_on_exit and have not been shut down successfully by the program (for meter providers: on which shutdown has not been called) are shut down, in the reverse of the order in which they were made, and an exception in one does not keep another from being shut down. Shutting a provider down shuts down each of its processors or readers once, in order. A meter provider never shuts its readers down twice, and no reader is shut down by two meter providers, if their constructors have not failed.",
  "all programs that make providers of any kind, add processors and call shutdown any number of times in any order, and every assignment of which shutdowns of processors raise at which time",
  "whether a provider is shut down at exit depends on the whole history of the program and on failures of other providers; tests end one process with one provider",
  S+"trace/__init__.py: TracerProvider.__init__, TracerProvider.shutdown, SynchronousMultiSpanProcessor.shutdown, ConcurrentMultiSpanProcessor._submit_and_await",
  S+"_logs/_internal/__init__.py: LoggerProvider.__init__, LoggerProvider.shutdown, SynchronousMultiLogRecordProcessor.shutdown, ConcurrentMultiLogRecordProcessor._submit_and_wait",
  S+"metrics/_internal/__init__.py: MeterProvider.__init__, MeterProvider.shutdown")
p("C107","A concurrent multi-processor hands every event to every processor once, in order, and returns when they are done",
  "With a ConcurrentMultiSpanProcessor or ConcurrentMultiLogRecordProcessor, in every interleaving of application threads and pool workers: each processor is given each event (span start, span end, log record) of a thread once, in the thread's order and one at a time, and the call that reports an event returns when every processor is done with it; no event is given twice whatever processors raise; the calls of all threads return after a bounded number of steps, for any number of workers.",
  "any number of threads, events, processors and workers, all interleavings, every assignment of which calls of processors raise and which report events themselves",
  "order and progress depend on the schedule of threads and workers; tests count calls after the fact with one thread",
  S+"trace/__init__.py: ConcurrentMultiSpanProcessor.__init__, ConcurrentMultiSpanProcessor._submit_and_await, ConcurrentMultiSpanProcessor.on_start, ConcurrentMultiSpanProcessor.on_end",
  S+"_logs/_internal/__init__.py: ConcurrentMultiLogRecordProcessor.__init__, ConcurrentMultiLogRecordProcessor._submit_and_wait, ConcurrentMultiLogRecordProcessor.emit")
p("C108","The locks of the metrics API do not deadlock",
  "However many threads record measurements, create instruments of every kind on SDK meters and on proxy meters, get meters, set the global provider, collect, flush, read an in-memory reader or export periodically, and however they are interleaved, no set of threads ever waits for each other, and every call returns, as long as callbacks of observable instruments only record, create instruments that are not observable on SDK meters and get SDK meters, and exporters do not collect. Nothing in the API forbids more: a callback that creates an observable instrument, or collects or flushes its own provider, waits for itself for ever; a callback that creates a counter on a proxy meter deadlocks with a thread that creates an observable instrument on the same proxy meter; a callback that asks the API for a meter deadlocks with the thread that sets the provider; an exporter that flushes its own reader waits for itself. Whatever is called, a lock is never held by two threads and a thread out of its call holds none.",
  "every number of threads, providers, readers, meters, views and attribute sets, every sequence of calls by each thread, every content of callbacks and exporters, every interleaving of acquiring and releasing locks",
  "a deadlock needs one particular interleaving of two threads; that none exists is a statement about all of them",
  S+"metrics/_internal/measurement_consumer.py:SynchronousMeasurementConsumer.collect", S+"metrics/_internal/metric_reader_storage.py:MetricReaderStorage", S+"metrics/_internal/_view_instrument_match.py:_ViewInstrumentMatch", S+"metrics/_internal/export/__init__.py:InMemoryMetricReader.get_metrics_data", S+"metrics/_internal/export/__init__.py:PeriodicExportingMetricReader._receive_metrics", S+"metrics/_internal/__init__.py:Meter.create_observable_counter", A+"metrics/_internal/__init__.py:_ProxyMeter", A+"metrics/_internal/__init__.py:_ProxyMeterProvider.on_set_meter_provider")
p("C109","The SDK's warnings do not hang the application's log handlers",
  "A handler of Python's logging that uses the API - adds the message to the current span as an event, counts messages with a counter - can be used together with the SDK, which itself logs warnings: no thread ever waits for ever. This holds if nothing is logged inside calls of the API, whatever handlers do, and if handlers do not call the API, whatever is logged. It fails otherwise, because the SDK logs while it holds locks: a handler that adds an event to the current span and set_attribute with a value of a wrong type on that span (or any attribute after its end, or a second end) wait for each other in one thread; two threads that share a span, or a handler that counts messages while the SDK warns about conflicting views, deadlock across threads.",
  "every number of threads, spans, handlers and instruments, every sequence of calls by each thread and handler, every interleaving of acquiring and releasing locks",
  "which locks are held when a handler runs depends on what is logged about, and the deadlocks across threads need particular interleavings",
  S+"trace/__init__.py:Span.set_attributes", S+"trace/__init__.py:Span.end", S+"trace/__init__.py:Span.set_status", S+"trace/__init__.py:_check_span_ended", A+"attributes/__init__.py:BoundedAttributes.__setitem__", A+"attributes/__init__.py:_clean_attribute", S+"metrics/_internal/metric_reader_storage.py:MetricReaderStorage._handle_view_instrument_match")
p("C110","Detectors run in parallel, are merged in order, and are skipped when slow",
  "get_aggregated_resources runs the detectors in a pool of four threads and waits for each in order for at most the timeout. A detector that is finished within the timeout of the call is never skipped, whatever the others do (with at most four detectors: one that takes no longer than the timeout); one finished later than (position + 1) timeouts always is. The results are merged in the order of the detectors, whichever is finished first. The call raises exactly if a detector fails, or is too slow, that has raise_on_error set. Refuted: the timeout does not bound the call, which returns when the last detector has returned and hangs if one hangs; a fifth detector that takes no time is skipped if four slow ones precede it; a detector that takes twice the timeout is not skipped if an earlier one was awaited meanwhile; the initial resource does not have the highest priority its documentation promises.",
  "every list of detectors, their durations (including never returning), answers and failures, every timeout and initial resource",
  "Schedules: tests use a detector or two that answer at once, or one that sleeps; which detector is skipped depends on the durations of all.",
  S+"resources/__init__.py: get_aggregated_resources")
p("C111","The in-memory reader returns every measurement once",
  "With delta temporality and without force_flush, what the calls of InMemoryMetricReader.get_metrics_data return one after the other is exactly what was recorded, in order, each measurement once, however many threads call it and record, and also if some of the calls raise; whatever is missing is in the next collection. With flushes, nothing is returned twice, and every measurement is returned, overwritten, waiting or pending. With cumulative temporality a call returns everything that was recorded before it, whatever flushes run beside it, and None only if nothing had been recorded. Refuted: with delta temporality force_flush makes what was recorded before it disappear as soon as something is recorded after it.",
  "every schedule of recordings, get_metrics_data and force_flush by any number of threads, including failing collections",
  "Schedules: tests call get_metrics_data from one thread; loss shows only when collections interleave.",
  S+"metrics/_internal/export/__init__.py: InMemoryMetricReader.get_metrics_data, InMemoryMetricReader._receive_metrics, MetricReader.collect, MetricReader.force_flush")
p("C112","What the links of a span show does not change",
  "A span started with distinct Link objects shows the contexts and bounded copies of the attributes they had at that moment. What it shows does not change, whatever the program does afterwards to its dictionaries and to other objects, as long as it gives none of these Link objects to another span; if it gives them to spans of the same provider, contexts and attributes still do not change. Refuted: the number of dropped attributes becomes 0 when the object is used again; a span of a provider with other limits removes attributes from what the first shows, and may make later spans refuse the link; a Link is not immutable.",
  "every program that creates dictionaries, changes them, creates links, starts spans with any of them and adds links; all limits",
  "Aliasing over unbounded histories: tests create a fresh Link for every span.",
  A+"trace/__init__.py: Link", S+"trace/__init__.py: Span._new_links, Span.add_link, _is_valid_link")
p("C113","The time intervals of metric points are in order and contain what they count",
  "Whatever the clock does, delta points of a stream tile the time (each starts where the last collection of the stream, for observables its last point, ended; the first when the stream was created) and cumulative points all start when the stream was created. If the clock is never set back, then, for any number of recording and collecting threads: the times of a stream's points never go down and delta intervals do not overlap; an interval runs backwards only if its stream was created in the middle of that very collection, and never for observables; every measurement counted was aggregated after the interval's start and, unless the collection had already begun, before its end; a measurement begun after the stream's last collection carries a time after the interval's start. Refuted: a stream opened while a collection goes on gets an interval with start after end; the measurement that opens a stream always carries a time before the start of the stream; an observable counter's stream starts at its first collection, so its first value covers an interval of no length; if the clock is set back, intervals run backwards.",
  "every number of threads, every schedule of recordings, observations and collections, every sequence of clock changes",
  "Schedules and clocks: tests mock the clock or use one thread; the end of an interval is read by one thread and the start by another.",
  S+"metrics/_internal/metric_reader_storage.py: MetricReaderStorage.collect", S+"metrics/_internal/_view_instrument_match.py: _ViewInstrumentMatch.consume_measurement, _ViewInstrumentMatch.collect", S+"metrics/_internal/aggregation.py: _SumAggregation.collect, _ExplicitBucketHistogramAggregation.collect", S+"metrics/_internal/instrument.py: Counter.add")
p("C114","Spans around parts of generators","However generators are resumed, interleaved, closed or collected, in whichever thread or task: each span of a start_as_current_span block belongs to one open block or was ended exactly once, when the block was left. Leaving a block makes current what was current when it was entered. If blocks are left in the opposite order in which they were entered, in particular if no generator yields inside a block, the innermost open block is current at every moment and nothing stays behind. Generators that yield inside blocks and are consumed together, or closed elsewhere, should leave nothing behind either.",
"all programs of threads, tasks and generators: all sequences of entering and leaving blocks, resuming and suspending generators, all interleavings",
"Whether a stale span stays current depends on the order in which the consumer resumes and closes the generators; each test is one order.",
A+"trace/__init__.py: use_span", S+"trace/__init__.py: Tracer.start_as_current_span", A+"context/contextvars_context.py: ContextVarsRuntimeContext", A+"context/__init__.py: detach")
p("C115","OTLP/HTTP requests declare what they contain and go where they should","Every request an HTTP exporter makes carries data it was given; a server that decodes the body as the Content-Encoding header says gets that data; the request goes to the exporter's own URL with every configured header, and with no other exporter's. A call of export repeats its one request at most six times; after shutdown the exporter sends nothing. This holds for every program of exporters, sessions, exports and shutdowns, also when exporters are given a common requests session.",
"all histories of sessions, exporters (any configuration), assignments to session headers, exports with any answers, and shutdowns; all data",
"The headers live in a session object that constructors change; whether a request is right depends on every constructor call and assignment before it.",
X+"opentelemetry-exporter-otlp-proto-http/src/opentelemetry/exporter/otlp/proto/http/trace_exporter/__init__.py: OTLPSpanExporter.__init__, _export, export, shutdown", X+"opentelemetry-exporter-otlp-proto-http/src/opentelemetry/exporter/otlp/proto/http/metric_exporter/__init__.py: OTLPMetricExporter", X+"opentelemetry-exporter-otlp-proto-http/src/opentelemetry/exporter/otlp/proto/http/_log_exporter/__init__.py: OTLPLogExporter")
p("C116","The global providers are the same for everyone","Every call of get_tracer_provider, get_meter_provider or get_logger_provider, in any thread, returns the proxy or the one global provider, never None; all calls that return a provider return the same one; once a provider has been returned or set every later call returns it. Without the environment variable nothing is loaded and nothing raises; with it, the provider it names is loaded once.",
"all interleavings of any number of calls of set_..._provider and get_..._provider, any values and changes of the environment variable, any failures of loading",
"The check and the assignment are separate steps in different threads; which provider wins depends on the schedule.",
A+"trace/__init__.py: get_tracer_provider, set_tracer_provider", A+"metrics/_internal/__init__.py: get_meter_provider, set_meter_provider", A+"_logs/_internal/__init__.py: get_logger_provider, set_logger_provider", A+"util/_providers.py: _load_provider")
p("C117","How long the batch processors take","If the exporter returns within a time E, every span (or log record) that a batch processor passes on is passed on within the schedule delay or one export, whichever is longer, plus one export per full batch before it in the queue; force_flush is answered and shutdown ends the worker within twice the time of a full queue; with an OTLP exporter E is six times the request timeout plus 63 seconds. Shutdown takes no longer than the export timeout.",
"all settings the constructor accepts, all histories of ended spans, flushes, shutdowns and durations of exports",
"Deadlines depend on when each span arrives relative to the worker's wait, to exports in progress and to flushes, in all histories.",
S+"trace/export/__init__.py: BatchSpanProcessor.worker, _export, _export_batch, _drain_queue, force_flush, shutdown", S+"_logs/_internal/export/__init__.py: BatchLogRecordProcessor", X+"opentelemetry-exporter-otlp-proto-http/src/opentelemetry/exporter/otlp/proto/http/trace_exporter/__init__.py: OTLPSpanExporter._export_serialized_spans")
p("C118","What the collector reads is what was measured",
 "For counters sent by OTLP: what a collector reads for a metric (scope, name) and an attribute set, over all requests its server accepted, plus what was lost with requests that failed, plus what is not collected yet, is the sum of all threads' measurements (delta); with cumulative temporality the last accepted request carries the total. A request can be encoded if and only if every value in the collection fits 64 bits; a metric whose value does not fit must not take others with it, and streams with different attributes must stay different.",
 "all programs of all threads, all schedules, all outcomes of exports, all values, names, scopes and attribute sets",
 "what arrives depends on how collections, failed exports and the encoding of every other metric in the same request interleave",
 S+"metrics/_internal/metric_reader_storage.py: MetricReaderStorage.collect", X+"opentelemetry-exporter-otlp-proto-common/src/opentelemetry/exporter/otlp/proto/common/_internal/metrics_encoder/__init__.py: encode_metrics, _encode_resource_metrics, _encode_metric", S+"metrics/_internal/export/__init__.py: PeriodicExportingMetricReader._receive_metrics")
p("C119","A decorated function runs in a span of its own",
 "Every call of a function decorated with start_as_current_span, and every await of a decorated coroutine function, runs in its own span: parent is the span current when it runs (not when it was decorated), the span is current in the body and nowhere else, an Exception that escapes is recorded and goes on, the span is ended exactly once, and the caller's context is what it was. This holds for recursion, nesting, and tasks that interleave. It should hold for generator functions and for context manager objects that are used in other ways too.",
 "all programs of nested, recursive and failing calls in any number of tasks or threads, all schedules",
 "the nesting of calls, exceptions and task switches is unbounded",
 A+"util/_decorator.py: _AgnosticContextManager, _agnosticcontextmanager", S+"trace/__init__.py: Tracer.start_as_current_span", A+"trace/__init__.py: use_span")
p("C120","Metrics are exported on time",
"A PeriodicExportingMetricReader begins its first collection one export interval after it was made and each next one at least one interval and at most one interval plus the duration of a collection and an export after the one before; every measurement is handed to the exporter exactly once, in order, and no later than that bound after it was made; shutdown(timeout) returns within its timeout, and when it returns every measurement made before the call has been handed to an exporter that was not yet shut down; MeterProvider.shutdown takes no longer than its timeout plus what one exporter overruns and tells every reader.",
"Every interval, timeout, duration of the callbacks, of the exports and of the exporter's shutdown, every sequence of measurements, passing time and shutdown, and any number of readers.",
"The bounds range over all timings; a test waits for one.",
S+"metrics/_internal/export/__init__.py PeriodicExportingMetricReader", S+"metrics/_internal/measurement_consumer.py SynchronousMeasurementConsumer.collect", S+"metrics/_internal/__init__.py MeterProvider.shutdown", X+"opentelemetry-exporter-otlp-proto-grpc/src/opentelemetry/exporter/otlp/proto/grpc/exporter.py OTLPExporterMixin.shutdown")
p("C121","Warnings about metric streams that cannot be told apart",
"When a metric stream would be reported that cannot be told apart from another one of the same reader (same name, unit and kind of data), a warning is logged; when there is none, no two streams of a scope have the same identity. The check never makes a measurement fail, does not depend on the order of the measurements, and does not report streams of different scopes.",
"Every set of views, every reader configuration, every set of instruments and every order of their first measurements.",
"All configurations and orders; a test has one pair of views.",
S+"metrics/_internal/_view_instrument_match.py _ViewInstrumentMatch.conflicts", S+"metrics/_internal/metric_reader_storage.py MetricReaderStorage._handle_view_instrument_match", S+"metrics/_internal/metric_reader_storage.py MetricReaderStorage._get_or_init_view_instrument_match")
p("C122","Times survive conversions through floats",
"Times that are converted between seconds (floats) and nanoseconds keep their order and their value: the time of a log record made by the logging handler and times given to the OpenTracing shim are within 129 ns of what was given and exact for whole seconds; nanoseconds converted to seconds and back give the same nanoseconds; the text shown for a time by the console exporters and to_json is the microsecond of the time, and later times are never shown as earlier ones; times of the OpenCensus shim are the microseconds of their text.",
"Every time from the epoch to 2038 (round trips: from 2008 to 2038), every pair of times, all microseconds.",
"The rounding errors differ for each of the 2^61 times; a test checks a few.",
S+"_logs/_internal/__init__.py LoggingHandler._translate", S+"util/__init__.py ns_to_iso_str","shim/opentelemetry-opentracing-shim/src/opentelemetry/shim/opentracing_shim/util.py time_seconds_to_ns","shim/opentelemetry-opentracing-shim/src/opentelemetry/shim/opentracing_shim/util.py time_seconds_from_ns","shim/opentelemetry-opencensus-shim/src/opentelemetry/shim/opencensus/_shim_span.py _opencensus_time_to_nanos")
p("C123","A failing metric stream does not affect the others",
"Whatever is measured with one instrument, the metrics of the other instruments are reported: every measurement accepted for a counter is exported exactly once (delta) or is part of every later total (cumulative), no collection is lost because another stream cannot be collected, and the periodic reader goes on collecting, and collects a last time at shutdown.",
"All numbers of streams with sum, last-value, explicit and exponential histogram aggregations, all temporalities, all programs of measurements (hashable attributes or not), observations, collections by the reader's thread, force_flush and shutdown.",
"The failure needs a history of one stream and shows in the others; histories and numbers of streams are unbounded.",
S+"metrics/_internal/metric_reader_storage.py MetricReaderStorage.collect", S+"metrics/_internal/measurement_consumer.py SynchronousMeasurementConsumer.collect", S+"metrics/_internal/_view_instrument_match.py _ViewInstrumentMatch.consume_measurement", S+"metrics/_internal/export/__init__.py PeriodicExportingMetricReader._ticker", S+"metrics/_internal/aggregation.py _ExponentialBucketHistogramAggregation.collect")
p("C124","What the collector receives",
"With a batch processor in front of an OTLP span or log exporter: every call of export sends the whole batch at most six times, repeating only after a transient error; batches arrive in the order in which they were handed over, all copies of one before the next, and the fate of one does not depend on the others; nothing arrives that was not recorded; SUCCESS means that the acknowledged copy arrived; after a shutdown with no on_end in flight every span was dropped on overflow, is at the collector, or was in a batch whose export did not succeed, and if all succeeded a collector that recognises repeated batches has exactly the recorded spans that were not dropped, in order; without transient answers to requests that arrived, nothing arrives twice. (Exactly once in general, FAILURE meaning absence, and SUCCESS meaning storage do not hold.)",
"every run of the processor, every network (lost requests, lost answers, partial storage, any statuses), both transports",
"The schedules, the sequence of answers and the losses are unbounded; a test has one scripted server.",
S+"trace/export/__init__.py: BatchSpanProcessor._export_batch, shutdown",X+"opentelemetry-exporter-otlp-proto-grpc/src/opentelemetry/exporter/otlp/proto/grpc/exporter.py: OTLPExporterMixin._export",X+"opentelemetry-exporter-otlp-proto-http/src/opentelemetry/exporter/otlp/proto/http/trace_exporter/__init__.py: OTLPSpanExporter.export")
p("C125","Reading a span's attributes while they are being set",
"With any number of threads setting and reading the attributes of one span: assignments take effect one after the other, those of one call of set_attributes together and completely; a value read for a key is the current one; a KeyError for a key means that it was absent before or after the assignment in progress or is the one being assigned; reading all attributes returns the keys of one moment, in order, with values they had then or later; KeyError only for a key assigned or dropped meanwhile; after end() every reader, such as an exporter, gets exactly the final attributes in a bounded number of its own steps, whatever others do. (That an attribute which is always set can always be read, and that a reading corresponds to one moment, do not hold.)",
"every schedule of writers, readers and end(), suspended between any two operations on the dictionary; every limit and initial content",
"The failures need a switch between two bytecodes of __setitem__; tests of live spans are single-threaded.",
A+"attributes/__init__.py: BoundedAttributes.__setitem__, __getitem__, __iter__",S+"trace/__init__.py: Span.set_attributes, ReadableSpan.attributes, Span.end")
p("C126","Callbacks of asynchronous instruments","In each collection every callback of an asynchronous instrument is run once: a function is called, a generator resumed with the collection's options. The reader observes what the callbacks yield, in their order, whichever of them raise (what a callback yielded before it raised is kept, and each failure is logged). A generator that has returned or raised contributes nothing from then on, and later collections report no failure. Creating the instrument succeeds exactly if every generator reaches a first yield, whose value is not used. No callback is started at or after the collection's deadline; it is told the smaller of the default and the time left, which is positive; the collection fails exactly if an instrument's turn comes at or after the deadline. (Findings: readers of one provider share the generators, so each sees only a part of what they yield; a generator that raises once is silent for ever; a generator that returns at once makes the creation of the instrument raise.)","every set of callbacks (functions whose behaviour depends on the call, generators whose behaviour depends on everything sent to them), every sequence of collections by several readers, and every sequence of clock readings","What a callback does may depend on all earlier calls, and the collections of several readers interleave in unboundedly many ways.",S+"metrics/_internal/instrument.py: _Asynchronous.__init__, callback",S+"metrics/_internal/measurement_consumer.py: SynchronousMeasurementConsumer.collect")
p("C127","What the metrics SDK keeps","After any history of measurements and collections each reader holds exactly one stream for every instrument that measured something, every view applied to it and every set of attributes (as far as the view keeps them) that was ever measured, in the order in which they came; collections do not change that, and no stream is ever released. A collection gives at most one data point per stream. A view with attribute_keys bounds the number of streams by the product, over the keys it keeps, of the number of values the program uses for that key plus one, whatever other attributes there are. (Finding: without such a view there is no limit: a program that counts with a fresh attribute value each time makes every reader, also a delta reader that collects after each measurement, hold a stream per value for ever.)","every configuration of views and readers, every history of accepted measurements (synchronous and observed) and of collections, successful or timed out","What is held depends on the whole history; a leak shows only after unboundedly many measurements.",S+"metrics/_internal/_view_instrument_match.py: _ViewInstrumentMatch.consume_measurement, collect",S+"metrics/_internal/metric_reader_storage.py: MetricReaderStorage",S+"metrics/_internal/measurement_consumer.py: SynchronousMeasurementConsumer")
p("C128","Callbacks of asynchronous instruments that are created while collections are made","Whatever threads create asynchronous instruments on any meters of a provider and however collections interleave: in each collection the callbacks given to any one create call are run at most once, those of two calls with the same identity (name, kind, unit, description) never both, and nothing else is run; each collection runs what the ones before it ran, in the same order, and then that of new instruments; once a create call has returned, every later collection runs the callbacks of one call with that identity, always the same one: its own if no other call has the identity. (Findings: callbacks given for an identity that exists already are ignored without a warning; if a constructor raises because of its callbacks, no later call with the identity ever returns.)","every number of threads and calls, every identity and list of callbacks, every schedule of the calls' steps and of collections","A race between two creations or between a creation and a collection happens at one schedule in many.",S+"metrics/_internal/__init__.py: Meter.create_observable_counter, create_observable_gauge, create_observable_up_down_counter",A+"metrics/_internal/__init__.py: Meter._register_instrument",S+"metrics/_internal/measurement_consumer.py: SynchronousMeasurementConsumer.register_asynchronous_instrument, collect")
p("C129","Spans that start and end while span processors are added","Whatever threads start spans, end them (possibly several threads the same span) and call add_span_processor: what the registered processors are told about any span is, in this order: on_start, each registration once, in the order of registration; then on_end, each once, in this order, after start_span returned. Who was registered before start_span was called is told of the start before it returns; who was registered before the first end was called is told of the end before that call returns; and when all calls of end on a span have returned, everyone that was told of its start was told of its end. (Findings: a processor that was added meanwhile is told of the end of spans it has not seen start; an end() that is not the first may return before any processor was told; if on_start of a processor raises, so does start_span, and those told before are never told of an end; if on_end raises, the processors after it are never told.)","any number of threads, spans, processors and calls, every interleaving of their steps, any processor raising at any call","The order of registrations, starts and ends of different threads can be anything.",S+"trace/__init__.py: Span.start, end",S+"trace/__init__.py: SynchronousMultiSpanProcessor.add_span_processor, on_start, on_end",S+"trace/__init__.py: TracerProvider.add_span_processor")
p("C130","What log exporters see of a record that processors or the application change","Whatever other threads and the exporting workers do: if the application leaves a record alone after emitting it, every simple processor exports it, once and before emit returns, with exactly the changes that the processors registered before it made, in their order; every batch processor exports it once, or still has it, with the changes of all processors registered before it and possibly of later ones (of all, if it is exported after emit returned); so that all exporters registered after the last processor that changes records see the same. (Findings: a batch processor exports changes made by processors registered after it, and changes that the application makes to the record, or to the object that is its body, after emit returned.)","every list of processors and changes, every record, every interleaving of emits, workers and other changes","The content exported depends on when the worker runs.",S+"_logs/_internal/__init__.py: Logger.emit, SynchronousMultiLogRecordProcessor.emit, LogRecord, LogData",S+"_logs/_internal/export/__init__.py: SimpleLogRecordProcessor.emit, BatchLogRecordProcessor.emit, _export_batch")
p("C131","A successful flush of the provider covers every span that had ended","For every list of batch processors and everything other threads, the workers and other users of the processors do: if a call of end returned (having ended the span) before TracerProvider.force_flush was called, and this call returned True, then every processor that takes the span (it is sampled) has handed it to its exporter, has dropped it because its queue was full, or had been shut down when it was asked. The same holds for log records. (Findings: True is also returned when the span was dropped; and when processors are being shut down, with the span neither handed over nor dropped; if one processor is not flushed in time, the later ones are not asked at all.)","any number of batch processors with any queue and batch sizes, any number of threads ending spans, flushing and shutting down, every interleaving","It combines several processors, each with a worker, and any number of threads.",S+"trace/__init__.py: TracerProvider.force_flush, SynchronousMultiSpanProcessor.on_end, force_flush, Span.end",S+"trace/export/__init__.py: BatchSpanProcessor.on_end, force_flush, worker",S+"_logs/_internal/__init__.py: SynchronousMultiLogRecordProcessor.force_flush")
p("C132","Which measurements become exemplars","The exemplar filter of a MeterProvider is its argument, else the one named by OTEL_METRICS_EXEMPLAR_FILTER, else trace_based; the constructor raises exactly if there is no argument and the variable is set to anything but trace_based, always_on and always_off. For every sequence of measurements and collections by any number of readers: the exemplars a collection shows in a stream are measurements its reader was given since its own last collection and that the filter accepts, each at most once, with their values, times and attributes; all of them while fewer are accepted than the reservoir has places; none with always_off; with the default filter each was made in a sampled span and leads to it. (Findings: an empty variable, another spelling or a trailing space stop the application, after auto-configuration has set up traces but neither metrics nor logs; with always_on an exemplar can lead to another measurement's span.)","every filter given as a function, every value of the variable, any number of readers, streams and reservoirs of any size, every sequence of events and every random draw","The decision is made once for all readers while their collections interleave in unboundedly many ways.",S+"metrics/_internal/__init__.py: MeterProvider.__init__, _get_exemplar_filter",S+"metrics/_internal/measurement_consumer.py: SynchronousMeasurementConsumer",S+"metrics/_internal/exemplar/exemplar_filter.py: AlwaysOnExemplarFilter, AlwaysOffExemplarFilter, TraceBasedExemplarFilter")
json_lines="\n".join(json.dumps(x) for x in props)+"\n"
open("/verif/properties.jsonl","w").write(json_lines)
print(len(props))
