# A Lean 4 model of opentelemetry-python

## Layout

* `lean/Verif/Model/*.lean`  – the model: total, computable functions mirroring the Python code branch
  by branch. Every definition cites the file and lines it models. Python exceptions are values
  (`Option`/`Except`), mutation is a returned new value, loops are recursion or folds, external calls
  and schedulers are parameters.
* `lean/Verif/Spec/*.lean`  – small independent specifications used to state properties (where the
  statement needs something not already in core Lean).
* `lean/Verif/Lemmas/*.lean` – helper lemmas.
* `lean/Verif/Props/*.lean` – the property theorems (named `Cnn_...`), each with a non-vacuity example.
* `seeded/LOG.jsonl` – log of the mutation experiments. `MANIFEST.json` – claim table.

## Trusted base

* Lean 4.33.0's kernel. Axioms: at most `propext`, `Classical.choice`, `Quot.sound` (checked with
  `#print axioms` for every claimed theorem). No axioms of our own, no `native_decide`, no `bv_decide`.
* The reading of the Python source: nothing was executed. The model's link with the code is the
  citations in the comments.
* Python semantics assumed: dict keeps insertion order and assignment to an existing key keeps its
  position; `deque(maxlen)` drops at the opposite end; `re` semantics for the regexes concerned, which
  are modelled as hand-written matchers; big integers; `str` is a list of Unicode code points (lone
  surrogates are not modelled, since Lean's `Char` excludes them).
* Each section below says what is abstracted (floats, clocks, threads, network, protobuf runtime).

## Plan per property

| id | modelled | how proved |
|----|----------|-----------|
| C01 | TraceState ctor/add/update/delete/from_header over `List (String as List Char)`; regexes as matchers | invariant by induction over operation lists |
| C02 | to_header/from_header incl. the delimiter regex split | round trip by list induction |
| C03 | same | get/order laws; negation with witness at the capacity boundary |
| C04 | format_trace_id/hex, traceparent regex, inject/extract | round trip |
| C05 | extract | soundness+completeness against an independent grammar |
| C06 | Context as finite map; per-thread ContextVar with tokens | invariant over nested sequences / interleavings |
| C07 | baggage API over Context | refinement to a function `key -> Option value` |
| C08 | quote_plus/unquote_plus/strip/regexes | round trip; negation for whitespace-padded values |
| C09 | extract | bounds by induction over entries; additive law |
| C10,C11 | B3 inject/extract | round trip; decision logic; negation with witness for zero ids |
| C12 | Jaeger inject/extract | round trip |
| C13 | composite as fold over abstract propagators | algebraic laws |
| C14,C15 | BoundedAttributes, cleaning | refinement to "last n distinct keys", accounting invariant |
| C16 | BoundedList | closed form: suffix of the history |
| C17–C19 | Span state machine with its lock as atomic steps | invariants over operation lists |
| C20 | SpanLimits resolution | decision logic |
| C21–C23 | samplers, start_span; float `round(rate*2^64)` is the integer bound | decision logic, induction over descendant chains |
| C24–C26 | BatchSpanProcessor as a transition system: producers, flushers, shutdown, worker with atomic steps between lock operations | inductive invariants over all reachable states; negation by explicit schedule for the shutdown race |
| C27,C55 | multi processors with a clock parameter | list induction |
| C28 | Once as a transition system | inductive invariant |
| C29–C31 | sum / explicit histogram aggregation; numbers are integers (floats are not modelled, addition assumed exact) | invariants over histories |
| C32–C34 | view match, storage, consumer | refinement to a map keyed by filtered attributes; independence by projection |
| C35–C37 | Buckets circular array, exponential aggregation with an abstract mapping family satisfying the shift law | refinement to a multiset of indices; negation with witness for the merge failure |
| C38 | bit-level ExponentMapping | arithmetic |
| C39,C40 | exemplar reservoirs with random choices as oracle | invariants; negations with witnesses |
| C41,C42 | Resource merge/create | algebra |
| C43–C45 | OTLP encoding into an inductive AnyValue | round trips, permutation/grouping |
| C46 | retry loop over an answer list | induction |
| C47 | _split_metrics_data | list induction |
| C48,C49 | Prometheus conversion | list induction |
| C50–C52 | instruments, MeterProvider, periodic reader | decision logic/invariants |
| C53 | use_span | structural induction over nested programs |
| C54 | severity table | finite table lifted |
| C56 | parse_env_headers | list induction |
| C57 | Span.__exit__ | case analysis over the state machine |
| C58 | sampler selection from the environment | decision logic; refutation |
| C59 | Meter._register_instrument, create_* by any number of threads | inductive invariant |
| C60–C63 | heap of attribute dictionaries; aborted collection; boundaries; fnmatch | induction over histories; refutations with witnesses |
| C64 | both mappings on doubles as rationals | arithmetic; refutation for the rounded logarithm |
| C65–C67 | callbacks, readers, meter cache | list induction, invariants |
| C68, C70 | OTLP log and metric encoding | decode∘encode against an independent decoder |
| C69 | gRPC export/shutdown as a transition system | inductive invariant; refutations by schedule |
| C71 | temporality preference tables | decision logic |
| C72 | Prometheus family grouping | list induction |
| C73, C74 | `Tracer`: programs in a small language (nested blocks, exceptions, requests to other services) against a specification read off the program text | structural induction over programs; draws of identifiers are inputs |
| C75 | `Simple`: simple processors called by any number of threads, any exporter, the in-memory exporter | inductive invariants over all interleavings |
| C76 | `ProxyMetrics`: proxy meters and instruments while `set_meter_provider` runs, any number of threads | inductive invariant; termination of the setter; refutations by schedule |
| C77 | `ProxyTracer`: proxy tracers/loggers, `OTEL_SDK_DISABLED`, logger cache, programs run by the no-op tracer | inductive invariant over interleavings; list induction; structural induction over programs |
| C78 | `LoggingHandler`: translation of `logging` records | decision logic, dictionary lemmas of C14; refutations |
| C79 | constructors of the OTLP exporters, gRPC and HTTP: arguments and environment | parsing lemmas for `urlparse`, case analysis, raises-iff, isolation of signals; refutations |
| C80 | the Zipkin encoders (JSON v1, v2, protobuf), `ZipkinExporter.export` | JSON text modelled to the character with a reader as specification; loop invariant for the length limit; dictionary lemmas; refutations |
| C81 | `_initialize_components` and what it calls, as effects × exception | decision logic, list/dictionary induction; refutations |
| C82 | `propagate/__init__.py` with the five propagators of the repository | which headers each writes and reads (ownership of keys); induction over the server's list; refutations |
| C83 | the OpenTracing shim on the SDK tracer, as programs mixing both APIs | simulation of shim programs by OpenTelemetry programs (`Tracer.run`), frame lemma for scopes (push/pop of tokens), C23 for parents; refutations |
| C84 | `TracerShim.inject`/`extract`, baggage items | C82 with an arbitrary start context; dictionary lemmas; refutations |
| C85 | `ShimTracer`, `ShimSpan` under programs of blocks of both APIs | simulation against a lexical semantics without context variables; equality of worlds for `start_span`/`end_span`; refutations |
| C86 | `translate_to_collector`, `export` | structural induction over attributes, events, links; byte lemmas of C45; refutations |
| C87 | `format_trace_id`, `format_span_id` | `HexOf` is a specification by digits, value and width; from the hex lemmas |
| C88 | `map_unit` | a table of its own beside the code's; string lemmas; refutation for two annotations |
| C89 | `json.dumps`/`json.loads`; `to_json` of spans, log records, metrics, resources, scopes; console exporters | a writer and an independent reader of JSON with a round trip for all documents; a relation `Shows…` between each object and the document read; injectivity of it; refutations for time 0 and dropped counts |
| C90 | `Event`, SDK `EventLogger.emit`, `EventLoggerProvider`; proxies as in C77 | a record per event over the bounded attributes of C14 and the context of C06; case analysis; refutations for zeros, mixed ids, evicted name, resource and flush result |
| C91 | `consumerRun` (C33/C34 model) end to end | specification on the calls alone (`Spec/Pipeline`): arrivals at a reader, history of an instrument, streams by Python-equal attributes, documented aggregation machines (C29–C31); the reader's storage is shown to be the dictionary of instruments run on the arrivals, each instrument the run of its stream sets on its own history |
| C92 | `Tracer` and `use_span` step by step, `contextvars` inheritance of threads and tasks, `_decorator.py` | specification on the text (`Spec/Tasks`: the events of the text, with the line of the block around, and the exception that leaves each block); one invariant over all schedules: per task a chain of tokens and contexts matching the blocks around, tokens unused and pairwise different, events done plus events still to come a permutation of the events of the text, the history of every span split into calls and what its block did |
| C93 | a fork as a function on the states of `Batch`, `Periodic`, `GrpcShutdown` (`Model/Fork`) | the invariants of C24–C26 hold of the forked state, hence the same accounting, progress and shutdown in the child; the forked reader equals a fresh one in which the parent's measurements were made; the held lock is an invariant of the child |
| C94 | the concurrent programs of `Tasks` with the `Batch` processor and the `Otlp` encoder (`Model/Traced`) | a run of both is a run of each, the `on_end` calls being the offers; then C92, C24/C26, C17–C19, C44 and C45 compose; `Spec/Traced` reads the expected spans off the program text |
| C95 | the three `consume_measurement` and `collect` methods as atomic steps of any number of threads, with their locks (`Model/Recording`) | an invariant per lock (who holds it, how many entries iterations under it expect) gives no crash and progress; the history of feedings and collections is the specification's, split by thread; each stream replays its own events; totals by C31's accounting |
| C96 | `Fl` (rationals, ±inf, NaN with Python's `+`, `<`, `min`, `max`), instruments, sums (generic model at `Fl`), the explicit histogram over `Fl`, the exponential histogram's `aggregate` with magnitudes finite/inf/NaN | `Fl` is a commutative monoid whose list sum is the IEEE total; the run invariants of C29/C30; `insert_spec` with infinity added to the coherent magnitudes |
| C97 | `Traced` programs whose `look`s are logging calls (or measurements), a second batch processor for log records, `LoggingHandler.emit`, `_encode_log` and the grouping by resource and logger | the joint run splits into runs of the program and of each processor; C92 (what a look sees), C78 (what the handler passes on), C68 (what is encoded) and the generic delivery lemma behind C94 are composed; the join of the two signals follows from the two descriptions, because in a numbered text a block's trace is determined and bytes are determined by the number they spell |
| C98 | `Resource.__eq__`/`__hash__`, `InstrumentationScope.__eq__`/`__hash__`/`__lt__`, dictionaries keyed by them (OTLP grouping, meters) over any hash function | equality characterised by look-ups; the hashed text is injective up to order because JSON reads back; grouping by an invariant of the fold; order by embedding in a lexicographic order |
| C99 | both exemplar reservoirs at the grain of single reads and writes: any number of calls of `offer` and a collecting thread, arbitrary schedules | invariant over schedules (which measurements may be in which bucket); refinement of the sequential reservoir for calls that do not overlap; concrete schedules for the refutations |
| C100 | simple and batch log processors behind a `LoggingHandler` that also gets the SDK's own records: recursion for the simple one, small steps of worker, flushes and handler lock for the batch one | induction on the depth of the stack; invariant counting calls of `export`; a well-founded rank for liveness; an absorbing set of states for the deadlock |
| C101 | the threads of C95 (recording and collecting at the grain of single dictionary looks and lock operations), with what each collection took handed to the exporter under the reader's export lock | invariant on the shape of each thread's code; the SDK underneath is a run of C95's model; a balance of points taken, held, being sent, sent; C95's totals carried over by permutation |
| C102 | the collector of the Prometheus exporter with its queue, as threads that scrape and flush; a step is one access to the queue or a collection (`Scrapes`) | invariants over all schedules (queue, what is held, what each scrape took), a measure for termination; the undisturbed scrape by induction over the queue; races by runs |
| C103 | `GlobalErrorHandler.__exit__` over an arbitrary class hierarchy and plugins, and programs with nested guarded blocks (`ErrorHandler`) | induction over the plugins; equations of programs |
| C104 | `_SumAggregation` and `_ExplicitBucketHistogramAggregation` over Python numbers: unbounded `int`s and binary64 `float`s as rationals with IEEE round-to-nearest-even, mixed arithmetic converting the int first | `rn` is monotone, odd, fixes doubles, is a nearest double and has relative error 2^-53 on sums of doubles (no bound on exponents above); then an error-propagation invariant over every history, exactness and monotonicity invariants; histogram counts by a simulation showing that they do not depend on the addition; two refutations |
| C105 | constructors of `BatchSpanProcessor`, `BatchLogRecordProcessor`, `PeriodicExportingMetricReader`; the first wait of their threads | equivalence with a specification of where a setting comes from and which are sound, by cases; refutations quantify over all offending values |
| C106 | `shutdown` of all providers, `add_*_processor`, constructors, `atexit` handlers | a program is a list of calls; the state after it is determined by the calls and whether they raised (induction from the right); the handlers by induction over the pending providers |
| C107 | `_submit_and_await` of several threads, step by step, with a pool of `n` workers | invariants tying what each processor has seen of a thread to the state of the thread's tasks; progress from the invariant, termination by a measure; the deadlock is constructed for every `n` by induction |
| C108 | which locks each function of the metrics API and SDK takes, in which order, and what is held while callbacks and exporters run; threads interleaved at every acquire and release | the locks have levels, and what is left of a call keeps to them (induction over the code of the application, then over the run); along waits the level of the wanted lock goes up, so there is no cycle; refutations are explicit runs, for every system |
| C109 | the same model, with the locks of spans and of `logging` handlers, and what is logged inside each lock | the handlers' locks come last in the order, or first; refutations are explicit runs, for every system |
| C110 | `get_aggregated_resources` in time: four workers, durations in `WithTop Nat`, the loop of `future.result(timeout)`, leaving the pool | induction over the list of detectors with the loop's clock; scheduling lemma for at most four; the refutations for every timeout |
| C111 | `InMemoryMetricReader` with any number of calls of `get_metrics_data` and `force_flush` and recordings interleaved | an accounting invariant (permutation) for delta, an ordering invariant without flushes, a freshness invariant for cumulative; all by induction over the schedule |
| C112 | `Link` objects, dictionaries and spans as a heap; programs that create and share them | frame lemmas and invariants over all programs; bounded copies are idempotent up to the dropped count; refutations for every heap |
| C113 | clock readings of `add`/`record`, of stream creation and of collections, by any number of threads, with a clock that the environment moves | inductive invariant over schedules, plus one for schedules that never set the clock back; refutations with witnesses and two that hold in every run |
| C114 | strands (threads, tasks) with their context variable, generators resumed by any strand, blocks with tokens; any interleaving of entering, leaving, resuming, suspending | invariants: every span in one stack or ended; tokens of open blocks form a chain when blocks are left in order; yielding outside blocks implies order; induction over `zip` of n generators for the refutation |
| C115 | sessions as lists of headers set, exporters on them with configurations from `OtlpConfig`, requests logged with headers, URL and body; any history | invariant per session: declared encoding is none or the common compression; induction over histories from the end |
| C116 | `get_…_provider`/`set_…_provider` as interleaved steps on top of `Once`, with the environment variable and `_load_provider` | invariants on top of `Once.Inv`: a getter past `do_once` finds `_done`; without raising functions the global is assigned once |
| C117 | the batch worker as a timed automaton (time passes only in `wait` and in `export`; the latter at most `slow`), with the queue, flush requests and shutdown; durations of `Export.loop` | invariant: a worst-case hand-over time for each queue position and worker state never exceeds the span's deadline; the same for requests; time divergence by induction on the queue |
| C118 | `Measured` (threads, collections, exports) in front of `OtlpMetrics`: points grouped into metrics and scopes, `encode_metrics`, requests that fail | lookup in an encoded request by induction; every export is a collection of its reader (bracket structure of the log); totals from C101 |
| C119 | `_AgnosticContextManager` with `contextlib`'s generator context managers: calls of decorated functions, coroutine functions, generator functions in several tasks | small steps reach what a structural description of the program says (induction on the program); tasks do not disturb each other |
| C120 | `PeriodicExportingMetricReader` in time: the ticker, collections with timeouts, `shutdown` with `join` and the exporter's own wait; `MeterProvider.shutdown` over readers | invariants of the timed transition system; `_violated` by concrete runs and, for starvation, by induction on the number of periods |
| C121 | `_ViewInstrumentMatch.conflicts` and where the storage calls it, over any sequence of first measurements | the warnings characterised by induction on the measurements; silence from it |
| C122 | seconds ↔ nanoseconds ↔ microsecond texts with IEEE doubles (`rn` of `Model/Rounding`) | half-ulp error bounds at 2^31 s and 2^61 ns, monotonicity of rounding, and the spacing of doubles for the round trip |
| C123 | one reader with any number of streams of all aggregations, exceptions of attributes and of exponential histograms, the periodic reader's thread | each stream refines itself running alone on the log (induction on programs); accounts of counters by induction on the log; healthy programs by an invariant built on C36's |
| C124 | `Delivery`: `Batch.run` in front of `Export.grpcExport`/`httpExport` and a network that may lose requests, lose answers or store a part; entries at the collector numbered by batch | exact form of one call from C46; induction over the batches for order, independence and the list without repetitions; accounting from C24 and C26 |
| C125 | `Live`: `set_attributes`/`end` under the span's lock, `__setitem__` split into its operations on the dictionary, lock-free `__getitem__` and `__len__`, `items()` of the view | invariant relating the dictionary to a prefix of the assignments (and the entry that is out); invariants of readers; refutations by concrete schedules |
| C126 | callbacks (functions and generators) of asynchronous instruments over the collections of several readers, and the timeouts they are told | induction over the collections, with each callback's own history; induction over the instruments for the clock |
| C127 | the streams held by every reader after every history, on the existing model of consumer, storages and views (`Storage`, `Views`) | invariant over the history (the keys held are the first occurrences of what arrived); counting by an injection into a product of finite sets; an explicit unbounded history for the finding |
| C128 | `create_observable_*` by any number of threads, interleaved with collections | inductive invariant over the schedule (who made which object, what is enrolled and stored); prefix order on what collections run |
| C129 | `Span.start`, `Span.end` and `add_span_processor` by any number of threads, processors told one by one and possibly raising | inductive invariant over the schedule, relative to any moment at which a call begins (so that "registered before the call" can be said); refutations by concrete schedules, or, for what follows after a processor raised, by induction on the rest of the schedule |
| C130 | log records as mutable objects passed to editing, simple and batch processors; workers at any time | inductive invariant for one record relative to a moment (content = changes of the processors called so far; exports since then; exactly-once counting) |
| C131 | `TracerProvider.force_flush` over any number of batch processors, `Span.end` telling them one by one | composition: each processor is a run of the model of C24–C26, so that C25 applies to it; inductive invariant of the provider's calls, relative to the moment of the call |
| C132 | the choice of the exemplar filter and its use by the measurement consumer for any number of readers, on the reservoirs of C39/C40 | each stream's reservoir is a run of the model of C39 on the accepted events (induction over the program); subpermutation |

No property is set aside as inexpressible; what a model cannot carry (real floats, OS threads, wall-clock
timeouts) is named in the claim notes.

## What each model module covers, and what it leaves out

Paths are relative to the package named; `API` = opentelemetry-api, `SDK` = opentelemetry-sdk.

| model module | code | simplifications |
|---|---|---|
| `Py` | Python run time: `str`, `dict`, `split`, `strip`, slicing, `int` | lone surrogates excluded; dict = insertion-ordered association list |
| `TraceState`, `SpanContext`, `TraceContext` | API `trace/span.py`, `trace/propagation/tracecontext.py`, `propagators/textmap.py` | `str` keys/values only; log messages dropped; regexes are hand-written matchers with `\Z`/`$` semantics as in the code |
| `Context` | API `context/*`, `trace/propagation/__init__.py` | one ContextVar per thread (async tasks = threads with copied start value); keys from `create_key` are distinct |
| `Baggage`, `Url`, (env headers) | API `baggage/*`, `util/re.py`; `urllib.parse` quoting with UTF-8 incl. replacement decoding | lower-casing of header keys: ASCII |
| `B3Jaeger` | both propagators, `propagators/composite.py` | non-ASCII decimal digits are a parameter table (all theorems hold for every table) |
| `Attributes` | API `attributes/__init__.py`, SDK `util/__init__.py` `BoundedList`, `BoundedDict` | subclasses of the scalar types carry a flag; `bytes` decoding is a parameter |
| `Limits` | `SpanLimits`, `LogLimits` | CPython's digit-count limit of `int(str)` not modelled |
| `Span` | SDK `trace/__init__.py` `Span`, `Event`, links, `Status` | methods are atomic under the span's lock; notifications are separate steps; link objects are values |
| `Sampling` | SDK `trace/sampling.py`, `id_generator.py`, `Tracer.start_span` | random draws are inputs; rates are rationals (exact for doubles) |
| `Batch` | `BatchSpanProcessor`, `BatchLogRecordProcessor` | interleaving of single shared accesses; forking in `Fork`; time-outs may fire at any time |
| `Once`, `Multi` | API `util/_once.py`, provider setters; synchronous and concurrent multi processors (spans and logs) | thread pool = "each future has finished in time with a result, or not" |
| `Metrics`, `Views`, `Storage`, `Instrument`, `Alias`, `Glob` | SDK `metrics/_internal/{aggregation,_view_instrument_match,view,metric_reader_storage,measurement_consumer,instrument}.py` | values in an ordered commutative group (exact addition; no NaN); whole calls are atomic; `fnmatch` without brackets |
| `Meter`, `Provider` | API+SDK instrument creation under concurrency; `MeterProvider` | `weakref` and `atexit` not modelled |
| `ExpHist`, `ExpMapping` | `exponential_histogram/*`, exponential aggregation | `ExponentMapping` on the 64 bits of a double, exactly; `math.log` is a parameter (a monotone approximation), since libm is not specified |
| `Exemplar` | reservoirs, filters | random choices are inputs |
| `Periodic` | `PeriodicExportingMetricReader` | each stream is read at one moment; `Once` atomic |
| `Resource` | SDK `resources/__init__.py` | set iteration order of detector names is a parameter; OS / process facts are inputs |
| `Otlp`, `OtlpMetrics`, `OtlpExport`, `OtlpShutdown` | proto-common encoders, gRPC and HTTP exporters | protobuf messages are records of fields; no wire format; floats opaque |
| `Prometheus` | exporter and `_mapping.py` | the client library only keeps samples in order |
| `Tracer` | SDK `Tracer.start_span`, `start_as_current_span` in programs | one thread per process; identifiers drawn are inputs; W3C propagation between processes |
| `Simple` | simple span / log processors, in-memory exporters | a step is one access to the context variable, a flag or the exporter |
| `ProxyMetrics` | API `metrics/_internal/__init__.py` 145–174, 487–652, 852–864, `instrument.py` proxies | another thread's critical section is one step; the real provider accepts or refuses an instrument by its arguments |
| `ProxyTracer` | API `trace/__init__.py` 253–276, 413–492, `_logs/_internal` proxies, SDK `get_tracer`, `get_logger` | attributes opaque; a step is one access to a global or a field |
| `LoggingHandler` | SDK `_logs/_internal/__init__.py` `LoggingHandler`, `LogRecord.__init__` | formatting and `str()` are inputs (a text or an exception); times are inputs |
| `OtlpConfig` | exporter-otlp-proto-grpc `exporter.py` 84–262 and the three signal constructors, exporter-otlp-proto-http constructors | `urlparse` gives scheme and netloc only (no IPv6/NFKC checks); credentials are named by their source, files are not read |
| `Zipkin` | exporter-zipkin-json `encoder/`, `json/v1`, `json/v2`, `json/__init__.py` 125–180; exporter-zipkin-proto-http `v2/__init__.py` | numbers are given by their `str()`; JSON text is modelled for tag values, structure only for bodies and annotations; `NodeEndpoint` addresses are not |
| `Configuration` | sdk `_configuration/__init__.py` 94–427 | entry points are lookup functions; constructors of exporters only return or raise; warnings and the kind of exception are not modelled; the singleton `_BaseConfigurator` is not |
| `Propagate` | api `propagate/__init__.py` 83–167 | entry points are a lookup function; the five propagators are the models of their modules; logging is not modelled |
| `OpenTracing` | opentracing shim `__init__.py` 130–752, `util.py` | times in nanoseconds; `event` values are strings; `is INVALID_SPAN_CONTEXT` is equality; deprecated `log`, `log_event` and directly built `ScopeShim`s are not modelled |
| `OpenCensus` | opencensus shim `_shim_tracer.py` 30–154, `_shim_span.py` 32–167 | `install_shim`'s patching, the wrapped `BlankSpan`/`NoopTracer` and floating point in timestamps are not modelled; `is INVALID_SPAN` is equality of contexts |
| `OcExporter` | opencensus exporter `util.py` 34–104, `trace_exporter/__init__.py` 39–192 | floats opaque, `str(value)` a parameter; an exception in the request generator is seen as `RpcError` (gRPC's behaviour); the node's pid, host and start time are not modelled |
| `Json` | CPython `json` (not in /repo): `dumps` with `indent`, default separators, `ensure_ascii`; `loads` | floats are opaque texts given with a table that reads them back; duplicate keys, depth limits and big-number limits left out |
| `ToJson` | sdk `trace/__init__.py` 486–561, `_logs/_internal/__init__.py` 221–257, `resources/__init__.py` 300–311, `util/instrumentation.py` 156–167, `metrics/_internal/point.py` 30–279; the three console exporters | `ns_to_iso_str` a parameter (it may raise); values with `__dict__`/custom `default` left out |
| `Events` | api `_events/__init__.py` 33–56 (proxies 82–115, 143–166 in `ProxyTracer`), sdk `_events/__init__.py` 29–89 | attribute keys are strings, bodies opaque; `Resource.create({})` opaque |
| `Tasks` | api `trace/__init__.py` 563–617, `util/_decorator.py` 55–74, sdk `trace/__init__.py` 1075–1181 | atomic steps are the calls `start_span`, `attach`, `detach`, `record_exception`/`set_status`, `end`, `on_end`; programs have no loops (unroll them); `contextvars` semantics of threads and tasks as documented; generators only as decorated functions |
| `Fork` | sdk `trace/export/__init__.py` 231–241, `_logs/_internal/export/__init__.py` 222–230, `metrics/_internal/export/__init__.py` 512–518 | the forking thread is outside the modelled methods; the child is a copy of the state with one thread, then `_at_fork_reinit`; locks other than those of the three classes are not considered |
| `Traced` | composition: `Tracer`/`use_span`/tasks → `BatchSpanProcessor` → `encode_spans` | kind given separately; times before 1970 read as 0; one resource and scope; timeouts free |
| `Recording` | sdk `metrics/_internal/measurement_consumer.py`, `metric_reader_storage.py`, `_view_instrument_match.py` | hashable attributes; no callback timeout; no exemplars; an `RLock` that is never re-entered is a `Lock`; what a stream does is a parameter |
| `NonFinite` | `instrument.py` value checks, `_ExplicitBucketHistogramAggregation` and the counting part of `_ExponentialBucketHistogramAggregation.aggregate` for NaN and infinities | finite floats exact, one zero; sum/min/max of the exponential histogram not carried |
| `Correlated` | `LoggingHandler` and `BatchLogRecordProcessor` in a concurrent traced program; the OTLP log request; contexts of measurements | an exception of `emit` is assumed away (C78 says when it happens); message objects that are not text are opaque; exemplars are offered one at a time (C39_torn shows what happens otherwise) |
| `Identity` | `resources/__init__.py` 287–298, `util/instrumentation.py` 86–137, `get_meter` 573–582, `_encode_resource_spans`/`_encode_resource_logs` | the hash of strings and tuples is a parameter; floats are opaque with a rational value or none; all NaNs are one object; encoding of the items is in `Otlp` |
| `ExemplarRace` | `exemplar_reservoir.py` 85–324 step by step, as called by `_sample_exemplar` (`aggregation.py` 131–148) outside the lock | `dict` operations are atomic; evaluating the current span is not split; collections of one aggregation do not overlap (they hold the lock of `_ViewInstrumentMatch`) |
| `Feedback` | `_logs/_internal/export/__init__.py` 124–133, 233–379 with `LoggingHandler` (`_logs/_internal/__init__.py` 465–576) on the root logger; locks of `logging.Handler` | how many records are logged about an export, and whether they reach the handler, is an input; critical sections of the processor's condition are atomic; forking left out |
| `Measured` | `metrics/_internal/export/__init__.py` 322–346, 540–555, 573–576, on top of `Recording` | `shutdown`, timeouts of callbacks and forks left out (C52, C61, C93); how an export ends is an input; the conversion of points to `MetricsData` and its encoding are in `Storage` and `OtlpMetrics` |
| `Scrapes` | exporter/prometheus/__init__.py 131–211, 366–385; sdk/metrics/_internal/export/__init__.py 323–370 | what a collection returns is arbitrary; the test, creation and reading of `_target_info` is one step; the generator is consumed to its end; `prometheus_client`'s registry only iterates |
| `ErrorHandler` | sdk/error_handler/__init__.py 78–143 | errors and classes abstract; loading a plugin always has the same result, its handler may do something else every time |
| `Rounding` | Python `int`/`float` addition and subtraction as used by `aggregation.py` (the aggregations themselves are those of `Metrics`, which are generic in the type of numbers) | no overflow at 2^1024 (neither `inf` nor `OverflowError`); `-0.0` is `0.0`; histograms over floats only |
| `Settings` | `trace/export/__init__.py` 155–204, 410–487; `_logs/_internal/export/__init__.py` 172–220, 381–462; `metrics/_internal/export/__init__.py` 446–510, 520–522 | sizes are ints; `float(str)` is a parameter; the log messages are not modelled; waiting is the documented behaviour of the standard library on 64-bit Linux |
| `Exit` | `trace/__init__.py` 1187–1218, 1270–1285, 177–180, 235–246, 260–262; `_logs/_internal/__init__.py` 604–625, 683–699, 327–330, 384–401; `metrics/_internal/__init__.py` 412–464, 501–548 | one thread; deadlines do not pass; processors are numbers, an oracle says whether a shutdown raises; the tasks of a pool run in order of submission; CPython's order at exit (thread pools closed, then `atexit` handlers in reverse, exceptions printed) is assumed |
| `Pool` | `trace/__init__.py` 223–258; `_logs/_internal/__init__.py` 366–401 | the pool is a FIFO queue and a number of workers (workers are interchangeable; starting them is not modelled); the set of processors does not change during the run; processors are oracles for what they raise and report |
| `Locks` | every lock of `opentelemetry.metrics` and `opentelemetry.sdk.metrics`: readers, consumer, storage, view matches, aggregations, meters, provider, proxies, `Once` of `set_meter_provider`; locks of spans, their attributes, events and links; locks of `logging` handlers | the data is left out: a lock behind a double check is taken or not, nondeterministically; application code is a sequence of API calls; what a call logs, and what handlers do with it, is part of the call; `shutdown` (which waits for the thread with a timeout), custom readers, exemplar reservoirs and batch processors are not in this model |
| `Detectors` | `sdk/resources/__init__.py` 497–541 (`get_aggregated_resources`) in time | starting tasks and merging take no time; a free worker takes the next task at once; a future finished exactly at the deadline counts as in time |
| `InMemory` | `sdk/metrics/_internal/export/__init__.py` 321–346, 366–368, 380–436 (`InMemoryMetricReader`, `collect`, `force_flush`) | one stream, read at one moment of a collection; its aggregation is the list of measurements; calls are anonymous |
| `Links` | API `trace/__init__.py` 118–161 (`Link`); SDK `trace/__init__.py` 363–366, 822–840, 883–904 | objects are positions in a heap; a `None` in the list of links is a position that does not exist; ending a span makes no difference to its links |
| `Intervals` | readings of `time_ns` in `metrics/_internal/instrument.py`, `_view_instrument_match.py` 108–153, `metric_reader_storage.py` 139, `aggregation.py` 156–403, 549–611, 852–1071 | one reader and one set of streams; values are lists of measurements; the storage lock, gauges and timeouts left out |
| `Generators` | `use_span`, `start_as_current_span`, `ContextVarsRuntimeContext.attach/detach`, `context.detach` under generators | of a context only the span, of a span its parent and whether it is ended; a running generator may be resumed (more histories) |
| `HttpWire` | HTTP exporters: session handling of `__init__`, `_export`, `export`, `shutdown` | compression abstract; `requests` as a mapping of headers (no connections, proxies, netrc); `export` is one step |
| `Globals` | `get_/set_tracer_provider`, `…meter…`, `…logger…`, `_load_provider` | a provider's constructor does not ask for the global provider; `NoOp`/proxy classes are one value `proxy` (their behaviour: `ProxyTracer`, `ProxyMetrics`) |
| `Timely` | `BatchSpanProcessor.worker`, `_export`, `_export_batch`, `_drain_queue`, `on_end`, `force_flush`, `shutdown` in time; `took` for OTLP exports | statements take no time and are not interrupted (interleavings: `Batch`); ideal scheduler; the exporter's maximal time is a parameter; no forks |
| `MetricWire` | `MetricReaderStorage.collect` (second half), `encode_metrics`, `_encode_resource_metrics`, `_receive_metrics` | `int` counters, no exemplars, one resource, no splitting; encoded scopes are compared as SDK scopes |
| `Decorated` | `util/_decorator.py`, `start_as_current_span`, `use_span` | spans recording; ids are task and number; bodies are trees of actions, placed where they run |
| `Periods` | `metrics/_internal/export/__init__.py` 436–576, `measurement_consumer.py` 103–145, `MeterProvider.shutdown` in time | time passes only in waits, callbacks, exports; no `force_flush`; a collection reads the measurements made since the last one; a reader in `MeterProvider.shutdown` is the time it takes |
| `Conflicts` | `_view_instrument_match.py` 37–88, `metric_reader_storage.py` 78–114, 250–287 (warnings) | no exponential histograms; measurements one at a time |
| `Clock` | `opentracing_shim/util.py` 20–43, `opencensus/_shim_span.py` 48–59, `sdk/util/__init__.py` 24–29, `_logs/_internal/__init__.py` 506 | no calendar: a date is its microseconds after the epoch |
| `Isolation` | `measurement_consumer.py` 77–144, `metric_reader_storage.py` 116–248, `_view_instrument_match.py` 91–159, `export/__init__.py` 322–348, 520–586 | streams numbered in visiting order; integers; no threads (C95), no timeouts (C120), no exemplars |
| `Delivery` | `BatchSpanProcessor._export_batch`, `OTLPExporterMixin._export`, HTTP `OTLPSpanExporter.export` as one pipeline to the collector | encoding and compression (C44, C115), metrics exporters (C46, C47), redirects followed by `requests` |
| `Live` | `BoundedAttributes.__setitem__`, `__getitem__`, `__iter__`, `__len__` and `Span.set_attributes`, `end`, `attributes` at the granularity of dictionary operations | events and links (read under their lock: C16), the swap of `dict` for `OrderedDict`, memory models weaker than interleaving |
| `Callbacks` | `_Asynchronous` (constructor, `callback`), deadline and options in `SynchronousMeasurementConsumer.collect` | a callback is given by what it does after each history of calls; the storage behind the observations is in `Measured`/`Storage` |
| `Observables` | `create_observable_*`, `_register_instrument`, `register_asynchronous_instrument`, the loop over the instruments in `collect` | a collection is one step (it holds the consumer's lock); what callbacks do is in `Callbacks` |
| `Lifecycles` | `Span.start`, `Span.end`, `SynchronousMultiSpanProcessor.add_span_processor`, `on_start`, `on_end` | spans that are not recording, other operations on spans (`Span`), processors that themselves end the span |
| `LogSharing` | `Logger.emit`, `SynchronousMultiLogRecordProcessor.emit`, `SimpleLogRecordProcessor.emit`, `BatchLogRecordProcessor.emit` and its export, by reference | contents are opaque and changes atomic; shutdown and full queues (`Batch`), processors that raise, one record emitted twice |
| `Flushing` | `Span.end`, `SynchronousMultiSpanProcessor.on_end` and `force_flush`, `TracerProvider.force_flush` on top of `Batch` | all processors are batch processors registered beforehand (`Lifecycles` has registration); the deadline is a choice of the scheduler (`Multi` has the arithmetic) |
| `ExemplarFilters` | `_get_exemplar_filter`, the filter argument, `SynchronousMeasurementConsumer`'s use of the filter, reservoirs of several streams and readers | calls do not overlap (`ExemplarRace`); the streams a measurement belongs to are given (`Storage`); custom filters are functions that do not raise |
| `UseSpan`, `Severity` | API `trace/__init__.py` `use_span`; `_logs/severity` | bodies are programs of a small language with nesting, exceptions and other threads |

**Not modelled at all:** `opentelemetry-proto` and semantic-convention tables, docs/examples/tests, auto-instrumentation,
garbage collection, wall-clock accuracy, the C libraries (grpc, requests, protobuf, prometheus_client).

## Findings: claims that are false of the code

Where the English claim is false of the pinned code, the theorem file contains a *refutation* on a concrete reachable state (the theorem
named here) and a positive theorem suffixed `_partial` under the weakest hypothesis found.

* **TraceState** `update()` with a new key on a full state drops *every* entry (`C03_update_loses_everything`).
* **Propagation**: stale `tracestate` header survives inject of an empty one (`C04_stale_tracestate_violation`); padding white space in baggage
  is lost (C08); B3 accepts all-zero ids over an existing span (C11); stale B3 headers (C10_stale_headers_violation); Jaeger baggage names
  containing `uberctx-` are mangled (C12).
* **Limits / samplers**: `UNSET` general attribute count means 128 (C20); sampler argument outside [0,1] makes start-up raise (C58).
* **Spans**: `Link` objects shared between spans are mutated by the constructor (C112);
  `use_span` records `escaped=False` for exceptions that do escape, and with an unstarted span raises `RuntimeError` over the body's exception
  (`C53_not_started`).
* **Batch processors**: `force_flush` returns True at once after shutdown was requested (`C25_after_shutdown_violated`); a span in flight during
  shutdown is lost (`C26_race_violated`); a second `shutdown` shuts the exporter down twice.
* **Once**: a setter that raises after assigning leaves the provider replaceable (`C28_raise_replaces`).
* **Metrics**: caller's dict aliased (`C60_relabelled`); aborted collection doubles asynchronous values (`C61_aborted_doubles`); histogram boundary
  advisory sticks to the first instrument (`C62_first_decides`); view names with upper-case letters never match (`C63_upper_never`); failed
  provider constructor keeps readers (`C66_failed_keeps`); instrument creation race / refused name end in `KeyError` (C59).
* **Exponential histograms**: collection raises when a sign first appears late and measurements are lost (`C37_*`), which also kills the periodic
  reader thread (`C52_killed`); rounding of `math.log` misplaces boundary values (`C64_misplaced`); `max_scale > 20` "warns" but the
  constructor raises.
* **Periodic reader**: late join exports after exporter shutdown (`C52_late_join`); infinite interval: shutdown exports nothing (`C52_no_thread`).
* **Exemplars**: stale span ids (`C39_stale_ids`), torn offers (`C39_torn`), off-by-one in the reservoir (`C40_not_filled`).
* **Resources**: conflicting schema url drops the service name (`C42_conflict_unnamed`); merge not associative (`C41_not_assoc`).
* **OTLP**: one unencodable item poisons its batch (`C44_poisoned`, `C68_default_record`); repeated resources in metrics data are lost
  (`C44_metrics_lost`); RetryInfo delay unbounded or negative (`C46_unbounded_wait`, `C46_negative_delay`); HTTP connection errors escape
  (`C46_http_raises`); gRPC export past the flag check raises after shutdown (`C69_late_export_raises`), shutdown time-out releases a lock it
  does not own (`C69_timeout_breaks`).
* **Simple processors**: exporter calls overlap (`C75_concurrent_exports`), spans are exported after shutdown (`C75_span_after_shutdown`), a
  `BaseException` leaves instrumentation suppressed (`C75_base_exception_leaks`).
* **Proxies**: a proxy meter loses the attributes it was asked for with (`C76_attributes_lost`); one refused name makes `set_meter_provider` raise and
  leaves other instruments dead (`C76_one_bad_name`); `use_span(start_span())` without an SDK hides the incoming span (`C77_use_span_hides`).
* **Prometheus units**: the annotation pattern `{.*}` is greedy, so a unit with two annotations loses what is between them
  (`By{sent}/s{wall}` becomes `bytes`, C88_two_annotations).
* **`to_json`**: a start or end time of 0 is written as null, like a missing one (`C89_epoch_violated`); the number of dropped attributes of a log record that kept none is lost (`C89_log_dropped_violated`); a log record without a timestamp, or with a `bytes` body, raises (`C89_log_raises_iff`), which stops the console exporter in the middle of a batch (`C89_console`).
* **Resource detectors**: the detectors named in `OTEL_EXPERIMENTAL_RESOURCE_DETECTORS` run in the order of a Python set of strings, so when two give the same key the result changes from process to process (`C42_overlap_violated`).
* **Events**: an explicit timestamp or trace flags of 0 are replaced by the current time and the current span's flags (`C90_zero_violated`); an explicit trace id without span id is combined with the span id of the current span of another trace (`C90_mixed_ids_violated`); `event.name` is evicted when the application gives it first among more than 128 attributes (`C90_name_lost_violated`); an `EventLoggerProvider` made before `set_logger_provider` gives every record `Resource.create({})` instead of the provider's resource (`C90_resource_violated`); `force_flush` returns `None` (`C90_flush_violated`).
* **Generators**: `@tracer.start_as_current_span` on a generator or async generator function ends the span before the body runs (`C92_generator_violated`); blocks around the `yield`s of two generators iterated alternately leave the thread in the context of an ended span (`C92_interleaved_generators_violated`).
* **Forking**: the child's metric reader collects and exports the parent's measurements too (`C93_metrics_twice_violated`, `C93_delta_double_violated`); a fork during an export leaves the reader's or the gRPC exporter's lock held for ever in the child (`C93_metrics_locked_violated`, `C93_grpc_locked_violated`); a reader that was shut down exports once more in the child (`C93_metrics_after_shutdown_violated`).
* **Callbacks**: the consumer's non-reentrant lock is held while callbacks run, so a callback that creates an observable instrument or collects a reader of the same provider blocks for ever (`C95_callback_deadlock_violated`).
* **NaN measurements** (C96): `if amount < 0` lets NaN through every instrument. Cumulative sums and histogram sums are NaN from then on; an explicit histogram counts it in the lowest bucket; an exponential histogram at a positive scale (the default) raises `ValueError` from `floor(log(nan) * …)` into the application's `record` call, after count and sum have been changed, so later points have more measurements than bucket counts. An observable counter stuck at infinity has delta NaN.
* **Empty context of a measurement** (C97): `context or get_current()` in every synchronous instrument (`metrics/_internal/instrument.py` 177, 201, 269, 293) and for callbacks (145): `counter.add(1, {}, Context())` is attributed to the current span.
* **Equality of attributes disregards types** (C98): `Resource({"a": 1}) == Resource({"a": True})` although their hashes differ, which breaks the contract of `__hash__`; for
  scopes, whose hash leaves the attributes out, the two are one dictionary key: spans of the second scope are exported under the attributes of the first, and `get_meter` returns
  the first scope's meter.
* **Scopes cannot be sorted** (C98): `InstrumentationScope.__lt__` raises `TypeError` when one of two scopes of one name has no version, and when they differ in attributes only.
* **Exemplar reservoirs have no lock** (C99): a collection that ends while a measurement is being recorded makes `randrange(0, 0)` raise `ValueError` out of `Counter.add` (`C99_add_raises_violated`), and the readers that come after do not get the measurement; the reservoir may exceed its size (`C99_size_violated`); an exemplar may show the value 0 (`C99_value_violated`); with a view that drops attributes a collection may raise `AttributeError` (`C99_collect_violated`), which ends the thread of a periodic reader, as it only catches `MetricsTimeoutError`.
* **Feedback through the root logger** (C100): with `SimpleLogRecordProcessor`, a failing exporter or any log call after shutdown makes the application's log call raise `RecursionError` (`C100_simple_recursion_violated`, `C100_simple_shutdown_violated`), and as `detach` is not in a `finally`, the thread's context suppresses instrumentation afterwards. With `BatchLogRecordProcessor` a failing exporter keeps being called because of its own reports (`C100_never_quiet_violated`), without any delay if the batch size is 1. `logging.shutdown()` and `logging.config.dictConfig()` flush the handler under its lock, so a failing export and the flush wait for each other until the flush times out (`C100_flush_deadlock_violated`).
* **Metrics between collection and export** (C101): the periodic reader takes `_export_lock` after the collection, so results can overtake each other: with cumulative temporality the exporter sees a counter's total fall and its time run backwards (`C101_order_violated`); with delta temporality `force_flush` can return while the ticker still holds what was recorded before (`C101_flush_violated`). The result of `export` is ignored and with delta temporality nothing is kept: what a failed export carried is lost (`C101_failed_violated`).
* **Prometheus: concurrent scrapes** (C102). `_CustomCollector.collect` tests the deque and pops from it without a lock: of two scrapes at once, one can raise `IndexError` (HTTP 500), or one page shows every family twice and the other is empty. A flush that collected before a scrape and queued after it makes counters go back on the next page; flushes without scrapes accumulate without bound and every one of them repeats all families on the next page.
* **Global error handler** (C103). `entry_point.load()` and `issubclass` are outside the `try`: a broken plugin's error leaves the guarded block in place of the one to be handled, unseen by the default handler. `__exit__` returns `True` for `KeyboardInterrupt` and `SystemExit` too. Handlers are asked about superclasses of what they inherit from, not about subclasses (as documented, but a handler of `ArithmeticError` never sees a division by zero).
* **Float totals**: `Counter.add(2**53 + 1)` and then `add(0.5)` makes the exported cumulative total go down by one (the integer total is converted to a float when the float is added), which backends take for a restart. A float counter at 2^53 that is collected after each `add(1.0)` stays at 2^53 for ever in a cumulative reader, while a delta reader reports every 1.0 (C104).
* **Settings**: `BatchSpanProcessor(exporter, max_queue_size=100)` or `OTEL_BSP_MAX_QUEUE_SIZE=100` alone raises `ValueError`, since the batch size stays 512; a schedule delay above `threading.TIMEOUT_MAX` (or infinite) is accepted and the worker thread dies of `OverflowError`, so that nothing is ever exported; a NaN delay makes it spin; a NaN metric interval gives a reader that silently never exports (C105).
* **Exit** (C106). With `TracerProvider(active_span_processor=ConcurrentMultiSpanProcessor())` (or the log counterpart) nothing is flushed at the end of the process: CPython closes all thread pools before it calls the `atexit` handlers, so `executor.submit` raises `RuntimeError: cannot schedule new futures after interpreter shutdown`, and what batch processors still hold is lost. `MeterProvider.__init__` registers its `atexit` handler before it checks the readers: a failed constructor leaves a handler that shuts down a reader owned by another provider.
* **Thread pool** (C107). A `ConcurrentMulti…Processor` with `n` workers deadlocks when `n` threads report events at the same time and a processor, while handling one, reports another (e.g. an exporter called by `SimpleLogRecordProcessor` that logs a warning which a `LoggingHandler` hands to the same provider): all workers wait for tasks in the queue. The synchronous variant does not. When a processor raises, the caller goes on without waiting for the others, which may then see a span's end before its start.
* **Deadlock through a proxy meter** (C108): `SynchronousMeasurementConsumer.collect` holds a plain `Lock` while callbacks run, and `_ProxyMeter` holds its own while it asks the real meter. A callback that creates a *counter* on a proxy meter (any meter obtained before `set_meter_provider`) and a thread that creates an observable instrument on the same proxy meter wait for each other for ever; so do a callback that calls `get_meter` of the API and the first `set_meter_provider`.
* **A callback that creates an observable instrument hangs the collection** (C108), as does one that flushes or collects its own provider, and an exporter that flushes its own periodic reader: each waits for a non-reentrant lock that it holds.
* **Warnings are logged with locks held** (C109): a log handler that adds messages to the current span as events hangs the thread on `span.set_attribute("k", None)` (the warning about the type is logged with the span's non-reentrant lock held); a handler that counts messages deadlocks with the warning about conflicting views.
* **Detectors in a pool** (C110): `timeout` of `get_aggregated_resources` bounds only the waiting for a future; the `with` block then waits for every detector, so a detector that hangs hangs `Resource.create` although it was "skipped". A fast fifth detector starves behind four slow ones. `initial_resource` has the lowest, not the highest priority.
* **In-memory reader** (C111): with delta temporality `force_flush` stores a collection that the next collection overwrites; what was recorded before the flush is never returned.
* **Shared links** (C112): `start_span(links=[link])` replaces the attributes of the caller's `Link`. A second span with the same object makes the first one's link report no dropped attributes (`C112_dropped_violated`); limits of another provider remove attributes from it (`C112_relimited_violated`), or make later spans refuse the link (`C112_vanishes_violated`).
* **Intervals**: a stream opened while a collection goes on is reported with start after end (`C113_inverted_violated`); the measurement that opens a stream is stamped before the stream starts (`C113_opening_violated`, in every run); an observable counter
  starts at its first collection (`C113_observable_first_violated`, in every run).
* **Generators**: `with start_as_current_span` around a `yield` leaks: the consumer's spans become children of the generator's; generators consumed together (`zip`) leave an ended span current for good; one closed in another task does so in the task that began it (C114).
* **Shared HTTP sessions**: exporters given one `requests.Session` overwrite each other's headers: `Content-Encoding` of one is declared over the plain bodies of another, and secrets given to one are sent to the other's endpoint (C115).
* **Global providers**: with `OTEL_PYTHON_TRACER_PROVIDER` set, `n` threads asking at once construct `n` providers, all but one thrown away without `shutdown` (`C116_loads_violated`); if it names a provider that cannot be loaded, every `get_tracer_provider()` raises (`C116_raises_violated`);
* **Shutdown time**: `export_timeout_millis` limits neither `export` nor `shutdown`: with the default settings and a collector that answers 503 slowly, `shutdown` may take over eight minutes (`C117_shutdown_violated`, `C117_otlp_attained`); over gRPC a server's `RetryInfo` makes it unbounded (`C117_grpc_violated`);
* **One metric that cannot be encoded stops all** (C118): `encode_metrics` raises `EncodingException` for the first metric that protobuf refuses (an `int` value of 2^63 or more), `_receive_metrics` logs it, and nothing of the collection is sent. A cumulative counter that has passed 2^63 does this at every later collection: the reader exports nothing any more, although the server is up. Streams that differ only in an attribute that cannot be encoded (an `int` of 2^63 or more, for example an unsigned 64-bit id) arrive with equal attributes.
* **Decorated generators** (C119): `@tracer.start_as_current_span(…)` on a generator function, an asynchronous generator function, or a function that returns an awaitable without being a coroutine function: the span is started and ended when the function is called, before any of its work. A context manager object that decorates a function and is then entered itself (`with cm:`) makes every later call of the function raise `AttributeError`.
* **Metric reader timing**: `PeriodicExportingMetricReader.shutdown` passes the remaining time to the exporter as `timeout=`, a keyword no exporter has, so the gRPC exporter waits its default of 30 s on top of the caller's timeout (`C120_overrun_violated`); the last collection is limited by the export interval instead of the export timeout, so with callbacks slower than the interval the last measurements are lost (`C120_last_violated`); observable callbacks as slow as the export timeout keep every stream from being exported, for ever (`C120_starved_violated`); readers after one that used up the time of `MeterProvider.shutdown` are never shut down (`C120_untold_violated`).
* **Stream conflicts**: the warning "will cause conflicting metrics identities" is not given for streams without a view (`C121_default_violated`), so it depends on which instrument is measured first (`C121_order_violated`), nor for two views of one instrument (`C121_own_violated`); it is given for streams of different scopes (`C121_scopes_violated`); one name with two units or kinds, the specification's conflict, is never reported (`C121_different_violated`).
* **Times through floats**: a time given back as seconds and converted again is changed by up to 128 ns unless it is a multiple of 256 ns (`C122_round_trip`, `_round_trip_violated`); texts show neither the nearest microsecond nor the one that has begun (`C122_nearest_violated`); OpenCensus times are not the microseconds of their text (`C122_opencensus_violated`).
* **One stream takes all metrics down**: the periodic reader's thread catches only timeouts, so a cumulative exponential histogram whose collection raises (C37) or an observation with a list as attribute value ends it; no metric of any instrument is exported after that, not even at shutdown (`C123_silenced`, `C123_silenced_violated`, `C123_observation_violated`), and delta counters visited before the failing stream lose the interval (`C123_lost_violated`).
* **Delivery** (C124): SUCCESS may leave two copies at the collector; FAILURE or an exception does not mean that the batch is absent; `partial_success` is never read, so SUCCESS does not mean stored; any status below 400 is SUCCESS; over HTTP a connection error ends the call without a retry, and the processor never exports a failed batch again (`C124_no_second_chance`).
* **Live attributes** (C125): `__setitem__` takes an existing entry out before it stores the new value and `__getitem__`/`__len__` take no lock: reading an attribute that is being updated raises `KeyError` (or `span.attributes` is empty), and iterating over `span.attributes.items()` of a live span at its limit raises `KeyError`. After `end()` reading is safe.
* **Generators as callbacks** (C126): the readers of a provider share the generator, so that each reader sees only what is yielded in its own collections; a generator that raises once is exhausted and silent for ever, with no further log; a generator that returns before its first `yield` makes `create_observable_*` raise `StopIteration`.
* **Metric streams are never released** (C127): there is no cardinality limit, and neither a collection nor delta temporality removes a stream; a program that records a fresh attribute value each time grows for ever, unless a view with `attribute_keys` drops it.
* **Second creation of an asynchronous instrument** (C128): `create_observable_*` with an identity that exists returns the existing instrument and drops the callbacks it was given, without a warning; after a constructor that raised because of a callback, every later call with the identity ends in `KeyError`.
* **Span processors added late, or raising** (C129): a processor added while spans are running gets `on_end` without `on_start`; an `end()` that finds the span ended returns at once, even if the first `end()` has not yet handed the span to any processor (so a `force_flush` after it may miss the span); a processor that raises in `on_start` makes `start_span` raise and leaves the processors before it with a span that never ends; one that raises in `on_end` keeps the span from all processors after it, for ever, as a second `end()` is ignored.
* **Log records are shared and can be changed** (C130): the batch processor queues a reference to the record, so that the exporter sees what processors registered *after* it (say, one that removes personal data for another destination) and the application (a `dict` as message body) do to the record before the worker runs; whether it does depends on timing (`C130_later_violated`, `C130_after_violated`). Registering the processors that change records first makes all exporters agree (`C130_agree`).
* **`TracerProvider.force_flush`** (C131) returns `True` although spans that ended before were dropped by a full queue (`C131_dropped_violated`), or are still in the queue of a processor whose `shutdown` has begun in another thread (`C131_shut_violated`); one slow processor keeps the ones after it from being flushed (`C131_rest_violated`).
* **`OTEL_METRICS_EXEMPLAR_FILTER`** (C132, C81) set to nothing, to `ALWAYS_ON` or to `always_on ` makes `MeterProvider()` raise (`C132_empty_violated`); under auto-configuration traces are then set up, with all processors and the metric readers' threads running, but neither metrics nor logs (`C81_exemplar_filter_violated`).
* **OpenCensus shim**: message event times are read as local time (`C85_message_time_violated`); `current_span()`, `add_attribute_to_current_span` and `end_span` inside an OpenTelemetry block act on the enclosing OpenCensus span (`C85_current_span_violated`, `C85_end_span_violated`);
* **OpenCensus exporter**: status OK is sent as gRPC code 1, CANCELLED (`C86_status_violated`); roots have an all-zero parent id (`C86_root_violated`); one integer beyond 64 bits loses the batch (`C86_one_attribute_violated`);
* **OpenTracing shim**: `start_active_span(ignore_active_span=True)` makes a child of the active span; `start_span` inside a span made current with the OpenTelemetry API begins a new trace or continues an outer OpenTracing span; baggage items are neither inherited nor injected; `extract` never answers `None` (`C83_*_violated`, `C84_*_violated`); with `OTEL_PROPAGATORS=baggage,tracecontext`, `extract(carrier)` without headers answers the current span (`C82_extract_root_violated`);
* **Global propagator**: `OTEL_PROPAGATORS=""` and `OTEL_PROPAGATORS=none` make `import opentelemetry.propagate` raise (`C82_empty_or_none_raises_violated`); Jaeger's `uberctx-` headers are not in its `fields` (`C82_jaeger_fields_violated`);
* **Auto-configuration**: an exporter whose constructor raises leaves the tracer provider set without it, metrics and logs unconfigured (`C81_half_configured_violated`);
  white space around `traceidratio` makes the ratio ignored and everything sampled (`C81_ratio_space_violated`); a trailing comma raises (`C81_empty_item_raises`).
* **Zipkin**: with default settings the v1 format raises for every span (`C80_v1_default_raises`); a sequence with characters that JSON escapes is cut
  inside an element (`C80_sequence_cut`); a span attribute is hidden by a resource attribute of the same name (`C80_attribute_hidden`); the limit does
  not apply to the status description (`C80_description_not_cut`); spans are reported for the first span's service (`C80_wrong_service`).
* **OTLP configuration**: the gRPC exporters raise for the compression values `deflate` and `none` (`C79_grpc_rejects_deflate_and_none`); an empty
  signal endpoint hides the common one over HTTP (`C79_http_blank_endpoint`); with `insecure` true and an `https` endpoint the signal's certificate
  is ignored (`C79_grpc_certificate_ignored`); a malformed, unneeded time-out raises (`C79_grpc_unused_timeout`).
* **Logging handler**: with no provider set every logging call raises (`C78_no_provider`); a format error escapes into the application
  (`C78_bad_arguments`); the environment's attribute limits are ignored (`C78_limit`).
* **Prometheus**: names with `__` change (`C49_underscores`), labels collide (`C49_label_collision`), queued collections repeat families
  (`C72_repeated`), an exponential histogram makes every scrape raise (`C72_exponential`).
