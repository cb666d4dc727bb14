{
"C01": {
"note": "All histories; str keys/values only."
},
"C03": {
"status": "partial",
"note": "update() on a full TraceState with a new key discards every entry (C03_update_loses_everything, C03_update_violated): the claim is false of the code there; everything else is proved."
},
"C04": {
"note": "Carrier without a stale tracestate; C04_stale_tracestate_violation and C04_wide_flags_violation show both hypotheses are needed."
},
"C08": {
"status": "partial",
"note": "Padding white space and the empty name are lost by the code (violations proved); proved for all other baggage within the limits."
},
"C56": {
"note": "lower-casing modelled for ASCII letters only."
},
"C20": {
"status": "partial",
"note": "UNSET/blank for the general attribute count gives 128, not unlimited (C20_unset_general_count_violated); all other fields and the exact raise condition are proved. int() modelled without CPython's digit-count limit."
},
"C18": {
"note": "An empty-string description can accompany OK; 'present' is read as non-empty."
},
"C11": {
"status": "partial",
"note": "All-zero ids in the headers are accepted as they are (violation proved); otherwise the claim holds."
},
"C19": {
"note": "dropped_attributes counts key evictions (a re-added evicted key counts again). Link objects are modelled as values: the constructor mutates shared Link objects, see DESIGN.md."
},
"C12": {
"status": "partial",
"note": "Baggage names containing 'uberctx-' and values with outer white space are mangled (violations proved); everything else round-trips."
},
"C10": {
"note": "Multi format: the outgoing carrier has no stale b3 / x-b3-flags header (needed: C10_stale_headers_violation)."
},
"C58": {
"note": "A numeric argument outside [0,1] or nan makes the provider's construction raise (C58_out_of_range_violated); C58_raises_iff says exactly when. float() is a parameter."
},
"C21": {
"note": "Finite rates are rationals (every double is one; rate*2^64 is exact)."
},
"C23": {
"note": "Random draws are inputs; samplers are arbitrary functions of the query."
},
"C24": {
"note": "Transition system with any number of producers, flushers, shut-downs; log processor is the instance sampled := always true. C24_progress: without any flush every accepted span is handed over or evicted within maxQueue*(maxBatch+19)+maxBatch+20 worker steps (steps are counted, not seconds). Forking: C93."
},
"C25": {
"status": "partial",
"note": "False of the code once shutdown has set its flag: force_flush returns True at once (C25_after_shutdown_violated). Otherwise proved, with a bound on the worker steps after which a waiting flush is served."
},
"C26": {
"status": "partial",
"note": "False for a span in flight (on_end passed its check before shutdown): C26_race_violated. Proved for everything appended before, with termination of the worker."
},
"C28": {
"note": "If func raises after assigning the global (possible for set_meter_provider) a later call replaces it (C28_raise_replaces); the claim is about functions that return."
},
"C27": {
"note": "Processors that raise stop the loop (C27_fan_out_raise); thread pool abstracted to 'each future finished in time with a result or not'."
},
"C55": {
"note": "Same bodies as the span processors."
},
"C60": {
"note": "Proved for views with attribute_keys and for histories without writes; refuted otherwise (C60_relabelled)."
},
"C61": {
"note": "Refuted: values of an aborted collection are added to the next one (C61_aborted_doubles, C61_aborted_adds); holds when no collection is aborted."
},
"C62": {
"status": "partial",
"note": "Proved when the view gives boundaries; otherwise refuted: the first histogram created decides for all (C62_first_decides, C62_raises)."
},
"C63": {
"note": "Proved for bracket-free lower-case patterns; refuted for patterns with an upper-case letter, which never match (C63_upper_never)."
},
"C64": {
"note": "Refuted in general: math.log rounding breaks consistency between logarithm and exponent mapping (C64_inconsistent, C64_misplaced), witness given; proved within each mapping family."
},
"C37": {
"note": "Cumulative collection proved while no sign starts late; refuted otherwise (C37_zero_then_large_raises, C37_sign_change_raises, C37_measurements_lost)."
},
"C52": {
"status": "partial",
"note": "Proved when the ticker thread exists, is not killed by a non-timeout exception and is joined in time; each exception to that is refuted by a run (C52_killed, C52_late_join, C52_no_thread)."
},
"C66": {
"note": "Proved; a failed constructor keeps the readers it had registered (C66_failed_keeps)."
},
"C39": {
"note": "Proved for sequential histories with the default trace-based filter (C39_trace_based) and, up to the ids of measurements made outside spans, for all. REFUTED in general: stale ids with the always-on filter (C39_stale_ids), torn exemplars under concurrent offers because the reservoir is outside the aggregation lock (C39_torn)."
},
"C40": {
"note": "REFUTED as stated: seen is incremented before the comparison seen < size, so the size-th offer is already a random replacement (C40_not_filled). Proved: all offers are returned while fewer than size, then size or size-1, at least one."
},
"C42": {
"note": "The created resource is named unless a detector's schema url conflicts with the given one (C42_conflict_unnamed). Precedence proved for the built-in environment detector; the order among several detectors is the iteration order of a set of strings (arbitrary). An explicit empty service name hides OTEL_SERVICE_NAME (C42_empty_hides); TypeError for a non-string process.executable.name (C42_type_error)."
},
"C41": {
"note": "Associativity fails for conflicting schema urls (C41_not_assoc)."
},
"C43": {
"note": "Values are decoded by an independent decoder; C43_gap_lost shows values the SDK stores but the encoder drops."
},
"C44": {
"note": "Grouping generic in the encoder; instantiated for spans and logs. C44_poisoned: one unencodable span loses the batch. C44_metrics_lost: repeated resources in metrics data lose data."
},
"C68": {
"note": "C68_default_record: LogRecord made with constructor defaults poisons the batch."
},
"C46": {
"status": "partial",
"note": "Six attempts, success iff, 63 s without RetryInfo: proved. REFUTED in general: a RetryInfo delay is unbounded (C46_unbounded_wait) or negative and raises (C46_negative_delay); HTTP connection errors are raised (C46_http_raises); the HTTP metric exporter ignores shutdown."
},
"C69": {
"status": "partial",
"note": "Proved when shutdown does not give up waiting. REFUTED: an export past its flag check raises on the closed channel (C69_late_export_raises); after the 30 s timeout shutdown releases the export's lock (C69_timeout_breaks)."
},
"C47": {
"note": "Also: every split is a part of the input with distinct headers; every split is sent even if another fails."
},
"C70": {
"note": "Sums/min/max of histograms are opaque (double rounding not modelled)."
},
"C72": {
"status": "partial",
"note": "Proved for one queued collection without exponential histograms or empty attribute keys; the three exceptions are refuted by C72_repeated (families are yielded again for every further queued collection), C72_exponential (one exponential histogram point makes every scrape raise) and C72_empty_key."
},
"C49": {
"note": "Legal and idempotent proved for all strings; 'legal names are unchanged' holds exactly for names without two consecutive underscores (C49_underscores is the counterexample). Different attribute keys may get one label (C49_label_collision)."
},
"C48": {
"note": "For every history of measurements and scrapes, through the explicit-bucket aggregation (C48_scrape)."
},
"C53": {
"note": "For arbitrary bodies (nested blocks, exceptions, leaked or misordered attach/detach). The recorded event says escaped=False although the exception escapes; a span that was never started makes the block raise RuntimeError (C53_not_started)."
},
"C54": {
"note": "All integer levels."
},
"C75": {
"note": "Refuted in addition: exporter calls are not serialised (C75_concurrent_exports), spans are exported after shutdown (C75_span_after_shutdown), BaseException leaks suppression (C75_base_exception_leaks), in-memory exporter stores after shutdown (C75_memory_after_shutdown)."
},
"C76": {
"status": "partial",
"note": "Proved for every interleaving except that the meter's attributes may be lost (C76_attributes_lost); one instrument the provider refuses leaves the others unbacked (C76_one_bad_name)."
},
"C77": {
"note": "Proxy tracers/loggers over all interleavings; programs without an SDK; C77_use_span_hides states the limit of transparency."
},
"C78": {
"status": "partial",
"note": "Everything but 'never raises', which is refuted: C78_no_provider, C78_bad_arguments; C78_raises_iff says exactly when a call raises."
},
"C79": {
"status": "partial",
"note": "Proved: precedence for endpoint, TLS mode, credentials, headers, time-out, compression (gRPC) and URL, TLS files, headers, time-out, compression (HTTP); exact conditions for exceptions; isolation of signals. Refuted parts of the claim: C79_grpc_rejects_deflate_and_none, C79_http_blank_endpoint, C79_grpc_certificate_ignored, C79_grpc_unused_timeout."
},
"C80": {
"status": "partial",
"note": "Proved except where refuted: C80_v1_default_raises (v1 without limit), C80_sequence_cut (escaped characters), C80_attribute_hidden, C80_description_not_cut, C80_wrong_service."
},
"C81": {
"note": "Proved: names, protocol, exact effects on success, unresolvable => no effect, raises-iff, sampler choice. The all-or-nothing claim is refuted when an exporter's constructor raises (C81_half_configured_violated) and when the variable for the exemplar filter is unknown or empty (C81_exemplar_filter_violated); ' traceidratio' ignores the ratio (C81_ratio_space_violated); out-of-range ratio fails (C81_ratio_range_violated); an empty list item is looked up as a name (C81_empty_item_raises)."
},
"C82": {
"status": "partial",
"note": "Proved for all lists and spans. False as stated: an empty OTEL_PROPAGATORS, or 'none', makes the import raise (C82_empty_or_none_raises_violated), Jaeger's baggage headers are not among its fields (C82_jaeger_fields_violated), and extract without a context starts from the current context instead of the root if baggage is the first propagator (C82_extract_root_violated)."
},
"C83": {
"status": "partial",
"note": "Proved by a simulation for all programs without explicit parents (parents are covered state by state: C83_parent). False: start_active_span ignores ignore_active_span (C83_ignore_active_violated); start_span directly inside an OpenTelemetry block does not continue its trace, or takes an outer span as parent (C83_otel_parent_violated, C83_outer_parent_violated); scopes closed out of order leave a closed scope's span current (C83_not_nested_violated)."
},
"C84": {
"status": "partial",
"note": "Round trip and item access proved. False: baggage is not inherited and does not travel (C84_baggage_inherited_violated, C84_baggage_travels_violated); with the baggage propagator first, extracting from an empty carrier yields the current span (C84_extract_current_violated)."
},
"C85": {
"status": "partial",
"note": "Proved for all programs of blocks, and start_span/end_span around such a program. False: inside an OpenTelemetry block current_span (and attributes set through it) is the outer OpenCensus span (C85_current_span_violated), end_span there ends that span and puts the wrong context in force (C85_end_span_violated); finish leaves the span current (C85_finish_violated); times of message events are off by the local UTC offset (C85_message_time_violated)."
},
"C86": {
"status": "partial",
"note": "Ids, names, times, trace state, attributes, events, links, exact conditions and batches proved. False: status codes are sent as gRPC codes (ok becomes CANCELLED, C86_status_violated), roots get a zero parent id (C86_root_violated), three kinds become unspecified (C86_kind_violated), one integer beyond 64 bits loses the batch (C86_one_attribute_violated), sequences become text (C86_sequence_violated), one service name per batch (C86_service_violated)."
},
"C88": {
"status": "partial",
"note": "refuted for two annotations (C88_two_annotations): By{sent}/s{wall} is exposed as bytes, the text between the annotations is lost. Proved for units with at most one annotation and no line feed, over letters, digits and colons, and %."
},
"C89": {
"status": "partial",
"note": "Proved: the text is JSON and shows the object for spans, log records, metrics, resources, scopes and console output; it determines the span's data; raises exactly on unrepresentable values. Refuted parts: a time of 0 is shown as null like a missing one (C89_epoch_violated), the number of dropped attributes of a record without attributes is not shown (C89_log_dropped_violated), a record without a timestamp raises (C89_log_raises_iff). Floats are opaque texts (NaN and Infinity are written as Python writes them, which RFC 8259 does not allow)."
},
"C90": {
"status": "partial",
"note": "Proved for fields that are given and not zero, up to 127 attributes (the name is kept with any number unless the application uses event.name itself), SDK and late providers. Refuted: an explicit time or flags of 0 are replaced (C90_zero_violated), a trace id without span id is mixed with the current span's id (C90_mixed_ids_violated), event.name can be evicted (C90_name_lost_violated), an event logger made before the logger provider never carries the provider's resource (C90_resource_violated), force_flush returns None (C90_flush_violated)."
},
"C91": {
"status": "proved",
"note": "End-to-end theorem over histories of the consumer: C91_collection characterises the whole result (spec: Spec/Pipeline.lean), C91_counter_total, C91_counter_delta and C91_gauge_last state it for single instruments. Exponential histograms are not among the stream shapes here (C35–C38), nor are exemplars (C39)."
},
"C92": {
"note": "Programs with threads and tasks, small-step semantics, arbitrary schedules. At any moment what was done is a sub-permutation of the events of the text (spans with the block around, looks, method calls), each once; when everything has finished, exactly those events, with or without exceptions, and every recording span is the one its place makes, after the method calls on it in some order and what leaving its block does (exception, status, end) exactly. Generator functions of either kind are refuted (C92_generator_violated, C92_interleaved_generators_violated): the decorator ends the span before the body runs, and blocks around yields of interleaved generators restore the wrong context."
},
"C93": {
"status": "partial",
"note": "Proved for spans and log records: for every state of the parent at the fork and every later interleaving in parent and child, the child's batch processor exports the child's spans and only those (bounds, order, accounting, progress, shutdown as in C24-C26), and no span is exported by both processes. Refuted for metrics: the child's reader collects the parent's measurements too (a delta stream counts again exactly what was pending at the fork, C93_delta_double_violated; cumulative streams count everything again); a fork during an export leaves the lock held for ever, so the child never exports metrics (C93_metrics_locked_violated); a reader that was shut down collects and exports once more in the child. Refuted for the gRPC exporter if the process forks during an export: the child never sends anything (C93_grpc_locked_violated). The forking thread is taken to be outside the modelled methods."
},
"C94": {
"status": "proved",
"note": "C94_wire (all spans sampled; the program touches its spans by attributes, events and links only) and C94_delivered (any sampler, any program). Assumes the processor is shut down after the program's threads and tasks are done and their on_end calls have returned; one tracer, one processor; timing-dependent behaviour (schedule delay, export timeout) is free."
},
"C95": {
"status": "partial",
"note": "All parts proved for every schedule; freedom from deadlock holds when callbacks only measure, and C95_callback_deadlock_violated shows a callback that creates an observable instrument or collects blocks for ever on the consumer's lock."
},
"C96": {
"status": "partial",
"note": "Finite floats are exact rationals. Refuted parts: C96_nan_accepted_violated, C96_poisoned_violated, C96_async_inf_violated, C96_nan_lowest_violated, C96_exp_nan_raises_violated, C96_exp_nan_negative_violated. C96_exp_infinities_partial assumes, as C64, that computed logarithms round to the right side of the integers."
},
"C97": {
"status": "partial",
"note": "proved for logs (C97_logs, C97_joined) and exemplars (C97_exemplars, C97_context); refuted for a measurement made with an explicitly empty context: 'context or get_current()' treats it as none given, so the measurement is attributed to the current span (C97_empty_context_violated)"
},
"C98": {
"status": "partial",
"note": "Refuted by the code in four respects, each with a theorem: equal resources may have different hashes (C98_resource_hash_violated: {'a': 1} == {'a': True}), an item may be sent under a scope whose attributes are not its own (C98_scope_merged_violated), a request may get a meter of a scope with other attributes (C98_meter_violated), and scopes of one name of which one has no version, or that differ in attributes only, cannot be compared (C98_scope_order_violated: TypeError). Everything else is proved; that different resources are different keys is proved up to collisions of the hash of strings."
},
"C99": {
"status": "partial",
"note": "Refuted by the code in four respects, each with a concrete schedule: add() may raise ValueError, since a collection resets the count between its increment and randrange (C99_add_raises_violated); three threads may leave three exemplars in a reservoir of size 2 (C99_size_violated); an exemplar may have the value 0 that nobody measured (C99_value_violated); and a collection may raise AttributeError when a view drops attributes (C99_collect_violated). Proved for all schedules: every field of an exemplar is that of an offered measurement or of an empty bucket, one exemplar per key; the histogram's reservoir never raises, stays within its bounds and keeps values in their buckets; recordings without a collection never raise; collections never fail if all measurements of the stream have attributes or none has any; and calls that do not overlap behave as the sequential reservoir of C39/C40."
},
"C100": {
"status": "partial",
"note": "Proved for the batch processor: a flush makes exactly the number of calls of export its records make, whatever is logged meanwhile (C100_flush_exports), it returns True in every fair schedule unless made by logging.shutdown (C100_flush_returns), and shutdown exports nothing that is logged about it (C100_drain_exports). Refuted by the code: with the simple processor a failing exporter, or any log call after shutdown, ends in RecursionError in the application's log call, with instrumentation suppressed in that thread from then on (C100_simple_recursion_violated, C100_simple_shutdown_violated); with the batch processor a failing exporter is called for ever because of its own reports (C100_never_quiet_violated); and a flush by logging.shutdown or dictConfig deadlocks with a worker whose export fails until the timeout (C100_flush_deadlock_violated). The queue never exceeds its bound and nothing is dropped before it is full (C100_bounded); a request of force_flush is never lost, at shutdown either (C100_flush_answered; the check of _shutdown and the request are one step here)."
},
"C101": {
"status": "partial",
"note": "Proved for every schedule: exports are the collections, one at a time, conservation of points, delta and cumulative totals at the exporter, what a flush covers, progress. Refuted in the code: a flush beside the ticker can return before a delta is exported (C101_flush_violated), exports can be out of order (C101_order_violated), failed deltas are lost (C101_failed_violated)."
},
"C102": {
"status": "partial",
"note": "Proved for all threads, programs and schedules: first in first out and exactly once (C102_fifo, C102_queued), a scrape exposes what it took (C102_exposes), an undisturbed scrape (C102_alone, C102_one_collection), scrapes one at a time (C102_one_at_a_time), no waiting and at most nine steps per call (C102_bounded), the target info (C102_target_info). Refuted by the code: with two scrapes at once one can fail with IndexError (C102_race_violated) or one page shows every family twice and the other is empty (C102_starved_violated); a flush beside a scrape makes a counter go back (C102_backwards_violated); flushes without scrapes are kept without bound and repeat every family on the next page (C102_flush_violated, C102_repeats_violated)."
},
"C103": {
"status": "partial",
"note": "Proved for all programs, hierarchies and lists of plugins that load and raise only Exceptions: nothing leaves the block (C103_contained, C103_continues), who is called and logged (C103_handled), a block without error (C103_transparent), nesting (C103_innermost). Refuted by the code: a plugin that does not load, or is no class, replaces the error, and neither the default handler nor later plugins see it (C103_load_violated); KeyboardInterrupt and SystemExit are swallowed (C103_interrupt_violated); a handler of a base class is not asked about derived errors, and the other way round (C103_subclass_violated). The rest of a block is not run after an error (C103_abandons); what a handler raises that is no Exception escapes (C103_escapes_violated)."
},
"C104": {
"status": "partial",
"note": "Proved: nearest double (C104_nearest), error bounds for every point of cumulative, delta, observable and histogram streams, exactness for integers and for totals of at most 53 bits, monotonicity for one-type counters, non-negative and correctly rounded observable deltas. Refuted in part by the code: a counter fed with both ints and floats can go down although everything added is positive (C104_mixed_violated: 2^53+1, then 0.5), and the delta points of a float counter need not add up to its cumulative value (C104_stuck_violated: the cumulative total stays at 2^53 for ever while a delta reader gets 1.0 per collection). Not modelled: overflow to infinity at 2^1024 (non-finite values are C96), mixed types in one histogram."
},
"C105": {
"status": "partial",
"note": "Proved: the constructor succeeds exactly for the sound settings meant by arguments and environment (C105_batching, C105_raises), the defaults (C105_defaults), that constructed processors meet the assumptions of C24-C26 (C105_configures), the three outcomes of the metric reader (C105_reader), waiting (C105_waits). Refuted in part by the code: a queue size below 512 alone is refused because the default batch size is not reduced (C105_small_queue_violated), a NaN interval is neither refused nor used (C105_nan_violated), delays above threading.TIMEOUT_MAX are accepted and kill the worker (C105_far_violated), a NaN delay makes it spin (C105_spins_violated)."
},
"C106": {
"status": "partial",
"note": "Proved for all programs and failures: which providers are shut down at exit and in which order (C106_exit), each processor once (C106_each, C106_each_reader), nothing again after an explicit shutdown (C106_settled), a returning shutdown has shut down every processor (C106_shutdown), readers at most once (C106_meter_once, C106_reader_once). Refuted in part by the code: processors of a ConcurrentMulti… processor are never shut down at exit, because the thread pool refuses tasks by then (C106_pool_violated, for every program); a processor that raises keeps the later ones from being shut down (C106_raise_violated); shutdown called twice shuts processors down twice (C106_twice_violated); a processor added after shutdown never is (C106_late_violated); a meter provider whose constructor failed shuts down the reader of another provider (C106_constructor_violated). The behaviour of CPython's atexit and of thread pools at exit is assumed as documented. What a processor raises leaves shutdown (C106_raises)."
},
"C107": {
"status": "partial",
"note": "Proved for all schedules and sizes: order, once, return after completion (C107_order, if processors do not raise; even if they report events themselves), never twice (C107_once, always), no deadlock and completion (C107_no_deadlock, C107_complete) and termination with an explicit bound (C107_terminates) if processors do not report events themselves. Refuted in part by the code: after one processor has raised, another may see a thread's later event before the earlier one (C107_order_violated); if a processor reports an event on the same multi-processor while it handles one, as many threads as the pool has workers block for ever, for every pool size (C107_deadlock_violated)."
},
"C108": {
"status": "partial",
"note": "Proved for every number of threads and objects and every interleaving: no wait cycle, bounded number of steps, every call returns with no lock held, provided callbacks only record, create synchronous instruments on SDK meters and get SDK meters and exporters do not collect (C108_no_deadlock, _progress, _returns, _force_flush); locks are exclusive and given back whatever is called (C108_released). Refuted by the code without that proviso: callbacks that create observable instruments, collect, or use proxy meters, exporters that flush, two providers crosswise (C108_*_violated; such a deadlock is permanent by C108_for_ever)."
},
"C109": {
"status": "partial",
"note": "Proved for all threads, calls and interleavings: no deadlock and every call returns if nothing is logged inside calls of the API (C109_no_deadlock), or if handlers do not call the API (C109_passive). Refuted by the code otherwise: C109_event_handler_violated (one thread), C109_shared_span_violated and C109_counting_handler_violated (two threads), permanent by C108_for_ever."
},
"C110": {
"status": "partial",
"note": "The guarantees are proved for all detectors and durations. The documented meaning of timeout and of initial_resource is refuted: C110_hang_violated (the call returns iff every detector returns), C110_starved_violated, C110_late_violated, C110_priority_violated."
},
"C111": {
"status": "partial",
"note": "Exactly-once holds without force_flush (C111_exactly_once) and at-most-once always (C111_at_most_once, C111_accounted); C111_flush_loses_violated and C111_concurrent_violated refute it with flushes."
},
"C112": {
"status": "partial",
"note": "Stability is proved for links that are not shared (C112_stable) and, up to the dropped count, for links shared within a provider (C112_contents); the rest is refuted by C112_dropped_violated, C112_relimited_violated, C112_vanishes_violated, C112_dictionary_violated."
},
"C113": {
"status": "partial",
"note": "Refuted in part by the code: C113_inverted_violated, C113_opening_violated, C113_observable_first_violated, C113_set_back_violated, C113_early_violated. Proved: C113_cumulative, C113_delta, C113_delta_observable (any clock), C113_disjoint, C113_times, C113_inverted_only, C113_observable_forward, C113_inside, C113_stamp_inside (clock never set back)."
},
"C114": {
"status": "partial",
"note": "Proved for all histories: C114_ends (each span open in one place or ended once), C114_leave, C114_enter (what becomes current, and where), C114_in_order (blocks left in order: the innermost is current, nothing stays behind), C114_outside (generators that yield outside blocks are as plain functions). Refuted in part by the code: two or more generators consumed together that yield inside blocks leave an ended span current (C114_zip_violated, for every number); the consumer of such a generator finds the generator's span current (C114_consumer_violated); a generator closed in another thread or task leaves its ended span current where it was begun (C114_elsewhere_violated). Only the span of a context is kept; baggage is restored along with it."
},
"C115": {
"status": "partial",
"note": "Proved for all histories: every request decodes to data its exporter was given if the exporters of each session agree on the compression and the program declares none itself (C115_decoded; configurations are honest by C115_honest); an exporter alone on its session sends its own headers to its own URL (C115_headers); at most six equal requests per export, none from anything else (C115_requests); none after shutdown (C115_shutdown). Refuted in part by the code: on a shared session a compressing exporter makes an uncompressing one declare gzip over a plain body (C115_encoding_violated) and headers such as API keys leak to other exporters' URLs (C115_leak_violated); a given Content-Encoding is sent over a plain body (C115_given_violated); the metric exporter goes on after shutdown (C115_metrics_violated). Compression is abstract (any encoder with its decoder); a call of export is one step."
},
"C116": {
"status": "partial",
"note": "Proved for all schedules: never None (C116_never_none), agreement (C116_agree) and permanence (C116_settled) when setting does not raise, at most one setter succeeds (C116_one), no loading and no raising without the variable (C116_no_env). Refuted: n concurrent callers load n providers (C116_loads_violated); a provider that cannot be loaded makes every get raise, without falling back to the proxy (C116_raises_violated); a get before the program's set makes that set ineffective (C116_late_violated); a meter provider whose proxies cannot be made is left in place and later replaced (C116_replaced_violated)."
},
"C117": {
"status": "partial",
"note": "Proved in a timed model for all histories: latency bound (C117_latency), attained (C117_latency_attained); force_flush and shutdown bounds (C117_flush, C117_shutdown); time can always go on, so the bounds are met by handing over (C117_time); the duration of an OTLP export (C117_otlp, attained: C117_otlp_attained). Refuted: the export timeout limits neither exports nor shutdown, which takes as long as all queued batches (C117_shutdown_violated); over gRPC the server's RetryInfo makes exports, and hence all of this, arbitrarily long (C117_grpc_violated). Assumes that threads are scheduled at once and that only waiting and exporting take time."
},
"C118": {
"status": "partial",
"note": "Proved: C118_request (looking a stream up in an encoded collection gives its points), C118_encodable (a collection can be encoded iff every value fits 64 bits), C118_total and C118_exact (delta: read + lost + not collected = measured), C118_cumulative. Refuted by the code: one value beyond 64 bits makes the encoding of the whole request fail, so that no metric of that reader arrives any more (C118_poisoned_violated for every run, C118_alone_violated); streams that differ only in an attribute that cannot be encoded arrive as one (C118_merged_violated). Counters with int values; no exemplars; requests not split."
},
"C119": {
"status": "partial",
"note": "Proved: C119_trace (in every schedule a task shows exactly what the structural description of its program says, and ends with its first context), C119_own (every call has its own span, ended once). Refuted by the code: functions that do their work later (generator functions, asynchronous generators, functions that return awaitables): the span ends before the work begins (C119_lazy_violated, for all work); a context manager object that was entered cannot decorate any more (C119_reuse_violated)."
},
"C120": {
"status": "partial",
"note": "Proved: the cadence of the loop, that measurements are neither lost nor handed over twice, the freshness bound and completeness of shutdown as long as the callbacks are quicker than both the export timeout and the export interval and shutdown is given more than two collections with exports, the time of shutdown (its timeout plus the exporter's own wait), and the time of MeterProvider.shutdown over any number of readers. Refuted by the code: the remaining time is passed to the exporter as the keyword timeout, which the exporters do not have, so the gRPC exporter waits its default of 30 s (_overrun_violated); the last collection is limited by the export interval instead of the export timeout, so callbacks slower than the interval lose the last measurements (_last_violated); with too little time the last measurements go to an exporter that was shut down (_cut_violated); callbacks as slow as the export timeout keep everything from being exported, for ever (_starved_violated); readers after one that used up the time are never told (_untold_violated). force_flush is not in this model."
},
"C121": {
"status": "partial",
"note": "Proved: conflicts never raises, is symmetric and holds exactly for streams of the same identity (name, unit, kind of data as in the aggregations really made); the warnings of a run are exactly the pairs of streams of the same identity whose second stream comes from a view and whose instruments were first measured in that order; if every instrument is selected by a view, silence is equivalent to different identities across instruments. Refuted by the code: default streams are never checked against earlier ones (_default_violated), so whether a conflict is reported depends on which instrument is measured first (_order_violated); two views of one instrument are not compared (_own_violated); the scope is not compared (_scopes_violated); the specification's conflict, one name with different units or kinds, is never reported (_different_violated). Exponential histograms are left out."
},
"C122": {
"status": "partial",
"note": "Proved, with floats as IEEE doubles: seconds to nanoseconds are off by less than 129 ns, exact for whole seconds, and monotone; nanoseconds to seconds are off by at most 248 ns and monotone; the round trip from 2008 to 2038 gives the nearest double (at most 128 ns off), is idempotent, and gives the same nanoseconds exactly for multiples of 256; the text shown is one of the two neighbouring microseconds, exact for whole microseconds, and monotone; OpenCensus times are off by less than 248 ns and shown as the same text again. Refuted by the code: the round trip is not the identity (_round_trip_violated), the text is neither the nearest microsecond nor the one that has begun (_nearest_violated), OpenCensus times are not the microseconds of the text (_opencensus_violated). The calendar is left out (a date is its number of microseconds), and so are times before the epoch and after 2038."
},
"C123": {
"status": "partial",
"note": "Proved for every program, any number of streams and all aggregations: each stream behaves as if it were alone except for the collections that failed before they reached it, and its answers are reported exactly in the collections that succeeded (_fate), a stream alone being the aggregation of C29–C31 and C35–C37 (_alone); the increments of a delta counter are those reported, those waiting and those lost, and are lost exactly when a collection took them and then failed at a later stream (_delta_counter); cumulative counters lose nothing (_cumulative_counter); exports are the successful collections in order (_exports); the reader's thread collects at each tick and at shutdown as long as no round failed (_thread); without unhashable attributes and cumulative exponential histograms nothing fails and every increment is exported (_healthy, _complete). Refuted by the code: a cumulative exponential histogram whose collection raises, or an observation with a list as attribute value, ends the reader's thread, so that no metric of any instrument is exported any more, not even at shutdown (_silenced, _silenced_violated, _observation_violated), and delta counters collected before it lose the interval (_lost_violated)."
},
"C124": {
"status": "partial",
"note": "At-least-once up to FAILURE, order, isolation of batches, at most six copies and end-to-end accounting proved for every run and network. Refuted: exactly-once (C124_duplicate_violated: SUCCESS with two copies), FAILURE although the collector has it (C124_failure_violated), partial_success ignored (C124_rejected_violated), redirects and 1xx counted as SUCCESS (C124_redirect_violated), no retry after a connection error over HTTP (C124_hiccup_violated)."
},
"C125": {
"status": "partial",
"note": "Writers, single reads, readings of all attributes, and the exporter's reading after end() proved for every schedule. Refuted: an attribute that is always set is not found, and the attributes seem empty, while it is assigned again (C125_missing_violated); items() raises KeyError (C125_items_violated); what it returns was never the content (C125_torn_violated); set_attributes is not atomic for readers (C125_half_violated)."
},
"C126": {
"status": "partial",
"note": "Proved: C126_independent, _function, _generator (each callback goes its own way through the collections of all readers), _construct, _single, _told, _timeout. Refuted by the code: that every reader observes what the callbacks produce, with generators (C126_readers_violated: with two readers each gets every other value), that a callback that fails once is asked again (C126_silenced_violated, generators), and that creating an instrument never raises / the first yield counts (C126_first_violated)."
},
"C127": {
"status": "partial",
"note": "Proved: C127_streams (exactly what is held, as one equation), _firsts, _never_released, _points, _bound, _view_bound, over the model of the consumer and the storages (`Storage`, `Views`), for histories whose attributes are hashable. Refuted by the code: that memory is bounded (C127_unbounded_violated: a stream per attribute set, for every n, for every reader and temporality). Exemplars held by a stream are bounded by C40; exponential histograms by C36."
},
"C128": {
"status": "partial",
"note": "Proved for every schedule: C128_once, _order, _later, _alone. Refuted by the code: that the callbacks given to a create call that returned are run (C128_ignored_violated: not if the identity exists already; no warning either), and that creation can be tried again after a failure (C128_lost_violated)."
},
"C129": {
"status": "partial",
"note": "Proved for every schedule: C129_span (what is told and in which order), _start, _end, _one_end, _pairs, _returns. Refuted by the code: that who is told of an end was told of the start (C129_unseen_violated), that the span was handed over when end returns (C129_hurried_violated), and everything after a processor raised (C129_abandoned_violated, C129_cut_violated)."
},
"C130": {
"status": "partial",
"note": "Proved for every schedule: C130_simple, _batch, _batch_late, _agree, _each. Refuted by the code: that a batch processor exports the record as it was when the processor got it (C130_later_violated) or as it was emitted (C130_after_violated)."
},
"C131": {
"status": "partial",
"note": "Proved for every schedule: C131_flush, _shut, _each. Refuted by the code: that True means exported (C131_dropped_violated), also while a processor is being shut down (C131_shut_violated), and that processors after one that is late are flushed (C131_rest_violated)."
},
"C132": {
"status": "partial",
"note": "Proved: C132_choice, _only_eligible, _all_streams, _default, _off, _all_eligible. Refuted by the code: that an empty or differently spelled variable is tolerated (C132_empty_violated; C81_exemplar_filter_violated for auto-configuration), that exemplars lead to their spans with always_on (C132_on_violated)."
}
}