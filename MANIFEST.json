{
 "claims": [
  {
   "property": "C01",
   "status": "proved",
   "theorems": [
    "Otel.TraceState.C01_tracestate_wellformed"
   ],
   "note": "All histories; str keys/values only."
  },
  {
   "property": "C02",
   "status": "proved",
   "theorems": [
    "Otel.TraceState.C02_tracestate_header_roundtrip",
    "Otel.TraceState.C02_foreign_header",
    "Otel.TraceState.C02_malformed_rejected",
    "Otel.TraceState.C02_duplicate_key_rejected"
   ],
   "note": ""
  },
  {
   "property": "C03",
   "status": "partial",
   "theorems": [
    "Otel.TraceState.C03_add_new",
    "Otel.TraceState.C03_add_refused",
    "Otel.TraceState.C03_update_partial",
    "Otel.TraceState.C03_update_loses_everything",
    "Otel.TraceState.C03_update_violated",
    "Otel.TraceState.C03_update_invalid",
    "Otel.TraceState.C03_delete"
   ],
   "note": "update() on a full TraceState with a new key discards every entry (C03_update_loses_everything, C03_update_violated): the claim is false of the code there; everything else is proved."
  },
  {
   "property": "C04",
   "status": "proved",
   "theorems": [
    "Otel.TraceContext.C04_inject_extract_roundtrip",
    "Otel.TraceContext.C04_stale_tracestate_violation",
    "Otel.TraceContext.C04_wide_flags_violation",
    "Otel.TraceContext.C04_invalid_not_injected",
    "Otel.TraceContext.C04_wire",
    "Otel.TraceContext.C04_reads"
   ],
   "note": "Carrier without a stale tracestate; C04_stale_tracestate_violation and C04_wide_flags_violation show both hypotheses are needed."
  },
  {
   "property": "C05",
   "status": "proved",
   "theorems": [
    "Otel.TraceContext.C05_extract_accepts",
    "Otel.TraceContext.C05_extract_rejects",
    "Otel.TraceContext.C05_extract_valid_or_unchanged"
   ],
   "note": ""
  },
  {
   "property": "C06",
   "status": "proved",
   "theorems": [
    "Otel.Ctx.C06_set_value",
    "Otel.Ctx.C06_current_span",
    "Otel.Runtime.C06_attach_detach_stack",
    "Otel.Runtime.C06_nested_restores"
   ],
   "note": ""
  },
  {
   "property": "C07",
   "status": "proved",
   "theorems": [
    "Otel.Baggage.C07_baggage_is_a_map",
    "Otel.Baggage.C07_get_all",
    "Otel.Baggage.C07_other_values_untouched"
   ],
   "note": ""
  },
  {
   "property": "C08",
   "status": "partial",
   "theorems": [
    "Otel.Baggage.C08_baggage_roundtrip_partial",
    "Otel.Baggage.C08_whitespace_violation",
    "Otel.Baggage.C08_empty_name_violation",
    "Otel.Baggage.C08_wire"
   ],
   "note": "Padding white space and the empty name are lost by the code (violations proved); proved for all other baggage within the limits."
  },
  {
   "property": "C09",
   "status": "proved",
   "theorems": [
    "Otel.Baggage.C09_extract_exact",
    "Otel.Baggage.C09_extract_ignored",
    "Otel.Baggage.C09_extract_bounded",
    "Otel.Baggage.C09_extract_keeps",
    "Otel.Baggage.C09_replacement"
   ],
   "note": ""
  },
  {
   "property": "C10",
   "status": "proved",
   "theorems": [
    "Otel.B3.C10_single_roundtrip",
    "Otel.B3.C10_multi_roundtrip",
    "Otel.B3.C10_received",
    "Otel.B3.C10_stale_headers_violation",
    "Otel.B3.C10_wire"
   ],
   "note": "Multi format: the outgoing carrier has no stale b3 / x-b3-flags header (needed: C10_stale_headers_violation)."
  },
  {
   "property": "C11",
   "status": "partial",
   "theorems": [
    "Otel.B3.C11_extract_accepts",
    "Otel.B3.C11_extract_rejects",
    "Otel.B3.C11_valid_or_unchanged_partial",
    "Otel.B3.C11_all_zero_violation"
   ],
   "note": "All-zero ids in the headers are accepted as they are (violation proved); otherwise the claim holds."
  },
  {
   "property": "C12",
   "status": "partial",
   "theorems": [
    "Otel.Jaeger.C12_roundtrip_partial",
    "Otel.Jaeger.C12_received",
    "Otel.Jaeger.C12_prefix_violation",
    "Otel.Jaeger.C12_whitespace_violation",
    "Otel.Jaeger.C12_negative_id_violation",
    "Otel.Jaeger.C12_extract_total",
    "Otel.Jaeger.C12_extract_accepts",
    "Otel.Jaeger.C12_extract_rejects",
    "Otel.Jaeger.C12_wire"
   ],
   "note": "Baggage names containing 'uberctx-' and values with outer white space are mangled (violations proved); everything else round-trips."
  },
  {
   "property": "C13",
   "status": "proved",
   "theorems": [
    "Otel.Composite.C13_inject_last_wins",
    "Otel.Composite.C13_fields_union",
    "Otel.Composite.C13_extract_in_order",
    "Otel.Composite.C13_silent_propagator_is_neutral",
    "Otel.Composite.C13_default_composite_roundtrip"
   ],
   "note": ""
  },
  {
   "property": "C14",
   "status": "proved",
   "theorems": [
    "Otel.BAttrs.C14_bound",
    "Otel.BAttrs.C14_contents",
    "Otel.BAttrs.C14_accounting",
    "Otel.BAttrs.C14_maxlen_zero",
    "Otel.BAttrs.C14_recent_kept",
    "Otel.BAttrs.C14_immutable"
   ],
   "note": ""
  },
  {
   "property": "C15",
   "status": "proved",
   "theorems": [
    "Otel.BAttrs.C15_stored_valid",
    "Otel.BAttrs.C15_valid_kept",
    "Otel.BAttrs.C15_clean_idempotent",
    "Otel.BAttrs.C15_truncation"
   ],
   "note": ""
  },
  {
   "property": "C16",
   "status": "proved",
   "theorems": [
    "Otel.BList.C16_newest_and_dropped"
   ],
   "note": ""
  },
  {
   "property": "C17",
   "status": "proved",
   "theorems": [
    "Otel.Span.C17_times",
    "Otel.Span.C17_notified_once",
    "Otel.Span.C17_snapshot_final",
    "Otel.Span.C17_immutable_after_end",
    "Otel.Span.C17_end_before_start",
    "Otel.Span.C17_identity_fixed",
    "Otel.Span.C17_name"
   ],
   "note": ""
  },
  {
   "property": "C18",
   "status": "proved",
   "theorems": [
    "Otel.Span.C18_status",
    "Otel.Span.C18_ok_is_final",
    "Otel.Span.C18_description_only_with_error"
   ],
   "note": "An empty-string description can accompany OK; 'present' is read as non-empty."
  },
  {
   "property": "C19",
   "status": "proved",
   "theorems": [
    "Otel.Span.C19_attributes",
    "Otel.Span.C19_dropped_attributes",
    "Otel.Span.C19_events",
    "Otel.Span.C19_links",
    "Otel.Span.C19_bounds"
   ],
   "note": "dropped_attributes counts key evictions (a re-added evicted key counts again). Link objects are modelled as values: the constructor mutates shared Link objects, see DESIGN.md."
  },
  {
   "property": "C20",
   "status": "partial",
   "theorems": [
    "Otel.Limits.C20_span_limits_partial",
    "Otel.Limits.C20_raises_iff",
    "Otel.Limits.C20_unset_general_count_violated",
    "Otel.Limits.C20_log_limits_partial",
    "Otel.Limits.C20_unset",
    "Otel.Limits.C20_environment_decimal",
    "Otel.Limits.C20_integer_text"
   ],
   "note": "UNSET/blank for the general attribute count gives 128, not unlimited (C20_unset_general_count_violated); all other fields and the exact raise condition are proved. int() modelled without CPython's digit-count limit."
  },
  {
   "property": "C21",
   "status": "proved",
   "theorems": [
    "Otel.Sampling.C21_accepts_iff",
    "Otel.Sampling.C21_threshold",
    "Otel.Sampling.C21_deterministic",
    "Otel.Sampling.C21_monotone",
    "Otel.Sampling.C21_extremes",
    "Otel.Sampling.C21_count",
    "Otel.Sampling.C21_result",
    "Otel.Sampling.C21_builtin_result"
   ],
   "note": "Finite rates are rationals (every double is one; rate*2^64 is exact)."
  },
  {
   "property": "C22",
   "status": "proved",
   "theorems": [
    "Otel.Sampling.C22_delegates",
    "Otel.Sampling.C22_default_follows_parent",
    "Otel.Sampling.C22_consistent_chain"
   ],
   "note": ""
  },
  {
   "property": "C23",
   "status": "proved",
   "theorems": [
    "Otel.Sampling.C23_child",
    "Otel.Sampling.C23_root",
    "Otel.Sampling.C23_valid",
    "Otel.Sampling.C23_sampler_result"
   ],
   "note": "Random draws are inputs; samplers are arbitrary functions of the query."
  },
  {
   "property": "C24",
   "status": "proved",
   "theorems": [
    "Otel.Batch.C24_batch_bound",
    "Otel.Batch.C24_accounting",
    "Otel.Batch.C24_order",
    "Otel.Batch.C24_no_duplicates",
    "Otel.Batch.C24_only_sampled_offered",
    "Otel.Batch.C24_overflow",
    "Otel.Batch.C24_progress"
   ],
   "note": "Transition system with any number of producers, flushers, shut-downs; log processor is the instance sampled := always true. C24_progress: without any flush every accepted span is handed over or evicted within maxQueue*(maxBatch+19)+maxBatch+20 worker steps (steps are counted, not seconds). Forking: C93."
  },
  {
   "property": "C25",
   "status": "partial",
   "theorems": [
    "Otel.Batch.C25_successful_flush_partial",
    "Otel.Batch.C25_before_recorded",
    "Otel.Batch.C25_after_shutdown_violated",
    "Otel.Batch.C25_flush_served"
   ],
   "note": "False of the code once shutdown has set its flag: force_flush returns True at once (C25_after_shutdown_violated). Otherwise proved, with a bound on the worker steps after which a waiting flush is served."
  },
  {
   "property": "C26",
   "status": "partial",
   "theorems": [
    "Otel.Batch.C26_shutdown_last",
    "Otel.Batch.C26_recorded",
    "Otel.Batch.C26_nothing_lost_partial",
    "Otel.Batch.C26_quiescent",
    "Otel.Batch.C26_worker_stops",
    "Otel.Batch.C26_no_export_after",
    "Otel.Batch.C26_race_violated",
    "Otel.Batch.C26_double_shutdown"
   ],
   "note": "False for a span in flight (on_end passed its check before shutdown): C26_race_violated. Proved for everything appended before, with termination of the worker."
  },
  {
   "property": "C27",
   "status": "proved",
   "theorems": [
    "Otel.Multi.C27_fan_out",
    "Otel.Multi.C27_fan_out_raise",
    "Otel.Multi.C27_flush_true_iff",
    "Otel.Multi.C27_flush_calls",
    "Otel.Multi.C27_flush_budget",
    "Otel.Multi.C27_concurrent_flush",
    "Otel.Multi.C27_registration",
    "Otel.Multi.C27_iteration"
   ],
   "note": "Processors that raise stop the loop (C27_fan_out_raise); thread pool abstracted to 'each future finished in time with a result or not'."
  },
  {
   "property": "C28",
   "status": "proved",
   "theorems": [
    "Otel.Once.C28_at_most_once",
    "Otel.Once.C28_false_means_done",
    "Otel.Once.C28_exactly_once",
    "Otel.Once.C28_never_replaced",
    "Otel.Once.C28_no_deadlock",
    "Otel.Once.C28_raise_replaces"
   ],
   "note": "If func raises after assigning the global (possible for set_meter_provider) a later call replaces it (C28_raise_replaces); the claim is about functions that return."
  },
  {
   "property": "C29",
   "status": "proved",
   "theorems": [
    "Otel.Metrics.C29_sync_delta",
    "Otel.Metrics.C29_sync_cumulative",
    "Otel.Metrics.C29_async_cumulative",
    "Otel.Metrics.C29_async_delta",
    "Otel.Metrics.C29_conservation",
    "Otel.Metrics.C29_contiguous",
    "Otel.Metrics.C29_last_value"
   ],
   "note": ""
  },
  {
   "property": "C30",
   "status": "proved",
   "theorems": [
    "Otel.Metrics.C30_bucket_of",
    "Otel.Metrics.C30_delta",
    "Otel.Metrics.C30_cumulative",
    "Otel.Metrics.C30_async_silent"
   ],
   "note": ""
  },
  {
   "property": "C31",
   "status": "proved",
   "theorems": [
    "Otel.Metrics.C31_hist",
    "Otel.Metrics.C31_sum_sync",
    "Otel.Metrics.C31_sum_sync_total",
    "Otel.Metrics.C31_sum_async"
   ],
   "note": ""
  },
  {
   "property": "C32",
   "status": "proved",
   "theorems": [
    "Otel.Metrics.C32_same_stream_iff",
    "Otel.Metrics.C32_refused_iff",
    "Otel.Metrics.C32_kept",
    "Otel.Metrics.C32_streams",
    "Otel.Metrics.C32_others_untouched",
    "Otel.Metrics.C32_partition"
   ],
   "note": ""
  },
  {
   "property": "C33",
   "status": "proved",
   "theorems": [
    "Otel.Metrics.C33_match_iff",
    "Otel.Metrics.C33_views",
    "Otel.Metrics.C33_suits",
    "Otel.Metrics.C33_async_never_histogram",
    "Otel.Metrics.C33_one_stream_set_per_view",
    "Otel.Metrics.C33_drop_silent",
    "Otel.Metrics.C33_metric_identity",
    "Otel.Metrics.C33_default_kinds",
    "Otel.Metrics.C33_grouping",
    "Otel.Metrics.C33_stream_machine",
    "Otel.Metrics.C33_stream_data",
    "Otel.Metrics.C33_metric_data",
    "Otel.Metrics.C33_machine_out"
   ],
   "note": ""
  },
  {
   "property": "C34",
   "status": "proved",
   "theorems": [
    "Otel.Metrics.C34_readers_independent",
    "Otel.Metrics.C34_noninterference",
    "Otel.Metrics.C34_as_if_alone"
   ],
   "note": ""
  },
  {
   "property": "C35",
   "status": "proved",
   "theorems": [
    "Otel.Metrics.Exp.C35_counts",
    "Otel.Metrics.Exp.C35_add_ok",
    "Otel.Metrics.Exp.C35_merge_ok"
   ],
   "note": ""
  },
  {
   "property": "C36",
   "status": "proved",
   "theorems": [
    "Otel.Metrics.Exp.C36_constructor",
    "Otel.Metrics.Exp.C36_never_raises",
    "Otel.Metrics.Exp.C36_delta",
    "Otel.Metrics.Exp.C36_scale_decreases"
   ],
   "note": ""
  },
  {
   "property": "C37",
   "status": "partial",
   "theorems": [
    "Otel.Metrics.Exp.C37_cumulative_partial",
    "Otel.Metrics.Exp.C37_no_late_start_partial",
    "Otel.Metrics.Exp.C37_zero_then_large_raises",
    "Otel.Metrics.Exp.C37_measurements_lost",
    "Otel.Metrics.Exp.C37_sign_change_raises"
   ],
   "note": "Cumulative collection proved while no sign starts late; refuted otherwise (C37_zero_then_large_raises, C37_sign_change_raises, C37_measurements_lost)."
  },
  {
   "property": "C38",
   "status": "proved",
   "theorems": [
    "Otel.Metrics.Exp.C38_bounds",
    "Otel.Metrics.Exp.C38_unique",
    "Otel.Metrics.Exp.C38_subnormal",
    "Otel.Metrics.Exp.C38_shift",
    "Otel.Metrics.Exp.C38_lower_boundary"
   ],
   "note": ""
  },
  {
   "property": "C39",
   "status": "partial",
   "theorems": [
    "Otel.Exemplar.C39_attributes",
    "Otel.Exemplar.C39_from_offers_partial",
    "Otel.Exemplar.C39_trace_based",
    "Otel.Exemplar.C39_filter",
    "Otel.Exemplar.C39_filter_on_off",
    "Otel.Exemplar.C39_stale_ids",
    "Otel.Exemplar.C39_torn",
    "Otel.Exemplar.C39_at_most",
    "Otel.Exemplar.C39_aligned_bucket",
    "Otel.Exemplar.C39_aligned"
   ],
   "note": "Proved for sequential histories with the default trace-based filter (C39_trace_based) and, up to the ids of measurements made outside spans, for all. REFUTED in general: stale ids with the always-on filter (C39_stale_ids), torn exemplars under concurrent offers because the reservoir is outside the aggregation lock (C39_torn)."
  },
  {
   "property": "C40",
   "status": "partial",
   "theorems": [
    "Otel.Exemplar.C40_all_while_small",
    "Otel.Exemplar.C40_count_partial",
    "Otel.Exemplar.C40_not_filled"
   ],
   "note": "REFUTED as stated: seen is incremented before the comparison seen < size, so the size-th offer is already a random replacement (C40_not_filled). Proved: all offers are returned while fewer than size, then size or size-1, at least one."
  },
  {
   "property": "C41",
   "status": "proved",
   "theorems": [
    "Otel.Resource.C41_well_formed",
    "Otel.Resource.C41_merge_well_formed",
    "Otel.Resource.C41_override",
    "Otel.Resource.C41_conflict",
    "Otel.Resource.C41_identity",
    "Otel.Resource.C41_idempotent",
    "Otel.Resource.C41_assoc",
    "Otel.Resource.C41_not_assoc",
    "Otel.Resource.C41_constructor",
    "Otel.Resource.C41_immutable"
   ],
   "note": "Associativity fails for conflicting schema urls (C41_not_assoc)."
  },
  {
   "property": "C42",
   "status": "proved",
   "theorems": [
    "Otel.Resource.C42_always_named",
    "Otel.Resource.C42_conflict_unnamed",
    "Otel.Resource.C42_type_error",
    "Otel.Resource.C42_empty_hides",
    "Otel.Resource.C42_precedence",
    "Otel.Resource.C42_raises_iff",
    "Otel.Resource.C42_env_roundtrip",
    "Otel.Resource.C42_env_last",
    "Otel.Resource.C42_failing_detector",
    "Otel.Resource.C42_later_detector",
    "Otel.Resource.C42_unknown_service",
    "Otel.Resource.C42_sdk_attributes",
    "Otel.Resource.C42_detectors",
    "Otel.Resource.C42_overlap_violated"
   ],
   "note": "The created resource is named unless a detector's schema url conflicts with the given one (C42_conflict_unnamed). Precedence proved for the built-in environment detector; the order among several detectors is the iteration order of a set of strings (arbitrary). An explicit empty service name hides OTEL_SERVICE_NAME (C42_empty_hides); TypeError for a non-string process.executable.name (C42_type_error)."
  },
  {
   "property": "C43",
   "status": "proved",
   "theorems": [
    "Otel.Otlp.C43_roundtrip",
    "Otel.Otlp.C43_encodable",
    "Otel.Otlp.C43_attributes",
    "Otel.Otlp.C43_gap_lost"
   ],
   "note": "Values are decoded by an independent decoder; C43_gap_lost shows values the SDK stores but the encoder drops."
  },
  {
   "property": "C44",
   "status": "proved",
   "theorems": [
    "Otel.Otlp.C44_encodable",
    "Otel.Otlp.C44_permutation",
    "Otel.Otlp.C44_order",
    "Otel.Otlp.C44_unique",
    "Otel.Otlp.C44_group_order",
    "Otel.Otlp.C44_poisoned",
    "Otel.Otlp.C44_metrics",
    "Otel.Otlp.C44_metrics_lost"
   ],
   "note": "Grouping generic in the encoder; instantiated for spans and logs. C44_poisoned: one unencodable span loses the batch. C44_metrics_lost: repeated resources in metrics data lose data."
  },
  {
   "property": "C45",
   "status": "proved",
   "theorems": [
    "Otel.Otlp.C45_trace_id",
    "Otel.Otlp.C45_span_id",
    "Otel.Otlp.C45_flags",
    "Otel.Otlp.C45_span",
    "Otel.Otlp.C45_span_encodable",
    "Otel.Otlp.C45_kind"
   ],
   "note": ""
  },
  {
   "property": "C46",
   "status": "partial",
   "theorems": [
    "Otel.Export.C46_success",
    "Otel.Export.C46_attempts",
    "Otel.Export.C46_wait",
    "Otel.Export.C46_unbounded_wait",
    "Otel.Export.C46_negative_delay",
    "Otel.Export.C46_shut",
    "Otel.Export.C46_shut_later",
    "Otel.Export.C46_grpc",
    "Otel.Export.C46_http",
    "Otel.Export.C46_http_raises"
   ],
   "note": "Six attempts, success iff, 63 s without RetryInfo: proved. REFUTED in general: a RetryInfo delay is unbounded (C46_unbounded_wait) or negative and raises (C46_negative_delay); HTTP connection errors are raised (C46_http_raises); the HTTP metric exporter ignores shutdown."
  },
  {
   "property": "C47",
   "status": "proved",
   "theorems": [
    "Otel.Export.C47_concat",
    "Otel.Export.C47_sizes",
    "Otel.Export.C47_part",
    "Otel.Export.C47_distinct",
    "Otel.Export.C47_export"
   ],
   "note": "Also: every split is a part of the input with distinct headers; every split is sent even if another fails."
  },
  {
   "property": "C48",
   "status": "proved",
   "theorems": [
    "Otel.Prom.C48_shape",
    "Otel.Prom.C48_le",
    "Otel.Prom.C48_scrape"
   ],
   "note": "For every history of measurements and scrapes, through the explicit-bucket aggregation (C48_scrape)."
  },
  {
   "property": "C49",
   "status": "partial",
   "theorems": [
    "Otel.Prom.C49_name_legal",
    "Otel.Prom.C49_label_legal",
    "Otel.Prom.C49_unchanged_partial",
    "Otel.Prom.C49_label_unchanged_partial",
    "Otel.Prom.C49_idempotent",
    "Otel.Prom.C49_underscores",
    "Otel.Prom.C49_label_collision",
    "Otel.Prom.C49_unit_legal"
   ],
   "note": "Legal and idempotent proved for all strings; 'legal names are unchanged' holds exactly for names without two consecutive underscores (C49_underscores is the counterexample). Different attribute keys may get one label (C49_label_collision)."
  },
  {
   "property": "C50",
   "status": "proved",
   "theorems": [
    "Otel.Metrics.C50_forwarded",
    "Otel.Metrics.C50_no_negative",
    "Otel.Metrics.C50_monotone",
    "Otel.Metrics.C50_delta_nonneg",
    "Otel.Metrics.C50_histogram_monotone"
   ],
   "note": ""
  },
  {
   "property": "C51",
   "status": "proved",
   "theorems": [
    "Otel.Provider.C51_flush",
    "Otel.Provider.C51_flush_all",
    "Otel.Provider.C51_shutdown",
    "Otel.Provider.C51_shutdown_once",
    "Otel.Provider.C51_no_meter_after"
   ],
   "note": ""
  },
  {
   "property": "C52",
   "status": "partial",
   "theorems": [
    "Otel.Periodic.C52_exclusive",
    "Otel.Periodic.C52_shutdown_flushes",
    "Otel.Periodic.C52_dead_only_by_error",
    "Otel.Periodic.C52_keeps_going",
    "Otel.Periodic.C52_progress",
    "Otel.Periodic.C52_ends",
    "Otel.Periodic.C52_quiet_after",
    "Otel.Periodic.C52_exporter_shutdown_once",
    "Otel.Periodic.C52_killed",
    "Otel.Periodic.C52_late_join",
    "Otel.Periodic.C52_no_thread",
    "Otel.Periodic.C52_force_flush"
   ],
   "note": "Proved when the ticker thread exists, is not killed by a non-timeout exception and is joined in time; each exception to that is refuted by a run (C52_killed, C52_late_join, C52_no_thread)."
  },
  {
   "property": "C53",
   "status": "proved",
   "theorems": [
    "Otel.UseSpan.C53_restores",
    "Otel.UseSpan.C53_current_after",
    "Otel.UseSpan.C53_innermost",
    "Otel.UseSpan.C53_entered",
    "Otel.UseSpan.C53_reraises",
    "Otel.UseSpan.C53_exit",
    "Otel.UseSpan.C53_already_ended",
    "Otel.UseSpan.C53_ended_once",
    "Otel.UseSpan.C53_not_started"
   ],
   "note": "For arbitrary bodies (nested blocks, exceptions, leaked or misordered attach/detach). The recorded event says escaped=False although the exception escapes; a span that was never started makes the block raise RuntimeError (C53_not_started)."
  },
  {
   "property": "C54",
   "status": "proved",
   "theorems": [
    "Otel.Severity.C54_total",
    "Otel.Severity.C54_monotone",
    "Otel.Severity.C54_ends",
    "Otel.Severity.C54_text"
   ],
   "note": "All integer levels."
  },
  {
   "property": "C55",
   "status": "proved",
   "theorems": [
    "Otel.Multi.C55_fan_out",
    "Otel.Multi.C55_flush_true_iff",
    "Otel.Multi.C55_concurrent_flush"
   ],
   "note": "Same bodies as the span processors."
  },
  {
   "property": "C56",
   "status": "proved",
   "theorems": [
    "Otel.EnvHeaders.C56_parse_env_headers"
   ],
   "note": "lower-casing modelled for ASCII letters only."
  },
  {
   "property": "C57",
   "status": "proved",
   "theorems": [
    "Otel.Span.C57_with_exit",
    "Otel.Span.C57_with_exit_ended"
   ],
   "note": ""
  },
  {
   "property": "C58",
   "status": "partial",
   "theorems": [
    "Otel.Sampling.C58_names",
    "Otel.Sampling.C58_ratio_partial",
    "Otel.Sampling.C58_parentbased_ratio",
    "Otel.Sampling.C58_raises_iff",
    "Otel.Sampling.C58_out_of_range_violated"
   ],
   "note": "A numeric argument outside [0,1] or nan makes the provider's construction raise (C58_out_of_range_violated); C58_raises_iff says exactly when. float() is a parameter."
  },
  {
   "property": "C59",
   "status": "proved",
   "theorems": [
    "Otel.Meter.C59_same_iff",
    "Otel.Meter.C59_one_object",
    "Otel.Meter.C59_sequential",
    "Otel.Meter.C59_race_witness",
    "Otel.Meter.C59_refused_then_keyError",
    "Otel.Meter.C59_identity_injective",
    "Otel.Meter.C59_identity_collision_witness",
    "Otel.Meter.C59_names_and_units"
   ],
   "note": ""
  },
  {
   "property": "C60",
   "status": "partial",
   "theorems": [
    "Otel.Metrics.C60_filtered",
    "Otel.Metrics.C60_unchanged_partial",
    "Otel.Metrics.C60_relabelled"
   ],
   "note": "Proved for views with attribute_keys and for histories without writes; refuted otherwise (C60_relabelled)."
  },
  {
   "property": "C61",
   "status": "partial",
   "theorems": [
    "Otel.Metrics.C61_aborted_doubles",
    "Otel.Metrics.C61_aborted_adds",
    "Otel.Metrics.C61_partial"
   ],
   "note": "Refuted: values of an aborted collection are added to the next one (C61_aborted_doubles, C61_aborted_adds); holds when no collection is aborted."
  },
  {
   "property": "C62",
   "status": "partial",
   "theorems": [
    "Otel.Metrics.C62_given",
    "Otel.Metrics.C62_first_decides",
    "Otel.Metrics.C62_first_choice",
    "Otel.Metrics.C62_raises"
   ],
   "note": "Proved when the view gives boundaries; otherwise refuted: the first histogram created decides for all (C62_first_decides, C62_raises)."
  },
  {
   "property": "C63",
   "status": "partial",
   "theorems": [
    "Otel.Metrics.C63_fnmatch",
    "Otel.Metrics.C63_lowercase_partial",
    "Otel.Metrics.C63_upper_never"
   ],
   "note": "Proved for bracket-free lower-case patterns; refuted for patterns with an upper-case letter, which never match (C63_upper_never)."
  },
  {
   "property": "C64",
   "status": "partial",
   "theorems": [
    "Otel.Metrics.Exp.C64_log_shift",
    "Otel.Metrics.Exp.C64_power_of_two",
    "Otel.Metrics.Exp.C64_consistent_partial",
    "Otel.Metrics.Exp.C64_inconsistent",
    "Otel.Metrics.Exp.C64_histogram_partial",
    "Otel.Metrics.Exp.C64_misplaced"
   ],
   "note": "Refuted in general: math.log rounding breaks consistency between logarithm and exponent mapping (C64_inconsistent, C64_misplaced), witness given; proved within each mapping family."
  },
  {
   "property": "C65",
   "status": "proved",
   "theorems": [
    "Otel.Metrics.C65_failing_callback",
    "Otel.Metrics.C65_all_observed",
    "Otel.Metrics.C65_timeout"
   ],
   "note": ""
  },
  {
   "property": "C66",
   "status": "proved",
   "theorems": [
    "Otel.Provider.C66_one_provider",
    "Otel.Provider.C66_returns_iff",
    "Otel.Provider.C66_failed_keeps"
   ],
   "note": "Proved; a failed constructor keeps the readers it had registered (C66_failed_keeps)."
  },
  {
   "property": "C67",
   "status": "proved",
   "theorems": [
    "Otel.Provider.C67_same_meter",
    "Otel.Provider.C67_real"
   ],
   "note": ""
  },
  {
   "property": "C68",
   "status": "proved",
   "theorems": [
    "Otel.Otlp.C68_encodable",
    "Otel.Otlp.C68_faithful",
    "Otel.Otlp.C68_default_record"
   ],
   "note": "C68_default_record: LogRecord made with constructor defaults poisons the batch."
  },
  {
   "property": "C69",
   "status": "partial",
   "theorems": [
    "Otel.GrpcShutdown.C69_not_cut",
    "Otel.GrpcShutdown.C69_shutdown_ok",
    "Otel.GrpcShutdown.C69_after_shutdown",
    "Otel.GrpcShutdown.C69_late_export_raises",
    "Otel.GrpcShutdown.C69_timeout_breaks"
   ],
   "note": "Proved when shutdown does not give up waiting. REFUTED: an export past its flag check raises on the closed channel (C69_late_export_raises); after the 30 s timeout shutdown releases the export's lock (C69_timeout_breaks)."
  },
  {
   "property": "C70",
   "status": "proved",
   "theorems": [
    "Otel.Otlp.C70_metric",
    "Otel.Otlp.C70_number_encodable",
    "Otel.Otlp.C70_empty"
   ],
   "note": "Sums/min/max of histograms are opaque (double rounding not modelled)."
  },
  {
   "property": "C71",
   "status": "proved",
   "theorems": [
    "Otel.Otlp.C71_reader",
    "Otel.Otlp.C71_otlp",
    "Otel.Otlp.C71_case"
   ],
   "note": ""
  },
  {
   "property": "C72",
   "status": "partial",
   "theorems": [
    "Otel.Prom.C72_families",
    "Otel.Prom.C72_kinds",
    "Otel.Prom.C72_labels",
    "Otel.Prom.C72_labels_order",
    "Otel.Prom.C72_repeated",
    "Otel.Prom.C72_exponential",
    "Otel.Prom.C72_empty_key"
   ],
   "note": "Proved for one queued collection without exponential histograms or empty attribute keys; the three exceptions are refuted by C72_repeated (families are yielded again for every further queued collection), C72_exponential (one exponential histogram point makes every scrape raise) and C72_empty_key."
  },
  {
   "property": "C73",
   "status": "proved",
   "theorems": [
    "Otel.Tracer.C73_tree",
    "Otel.Tracer.C73_current",
    "Otel.Tracer.C73_valid",
    "Otel.Tracer.C73_restores",
    "Otel.Tracer.C73_sampled_alike"
   ],
   "note": ""
  },
  {
   "property": "C74",
   "status": "proved",
   "theorems": [
    "Otel.Tracer.C74_processor_calls",
    "Otel.Tracer.C74_genuine",
    "Otel.Tracer.C74_final"
   ],
   "note": ""
  },
  {
   "property": "C75",
   "status": "proved",
   "theorems": [
    "Otel.Simple.C75_at_most_once",
    "Otel.Simple.C75_span",
    "Otel.Simple.C75_only_sampled",
    "Otel.Simple.C75_log",
    "Otel.Simple.C75_log_after_shutdown",
    "Otel.Simple.C75_context_restored",
    "Otel.Simple.C75_suppressed",
    "Otel.Simple.C75_memory_sound",
    "Otel.Simple.C75_memory_complete",
    "Otel.Simple.C75_memory_order",
    "Otel.Simple.C75_base_exception_leaks",
    "Otel.Simple.C75_concurrent_exports",
    "Otel.Simple.C75_span_after_shutdown",
    "Otel.Simple.C75_memory_after_shutdown"
   ],
   "note": "Refuted in addition: exporter calls are not serialised (C75_concurrent_exports), spans are exported after shutdown (C75_span_after_shutdown), BaseException leaks suppression (C75_base_exception_leaks), in-memory exporter stores after shutdown (C75_memory_after_shutdown)."
  },
  {
   "property": "C76",
   "status": "partial",
   "theorems": [
    "Otel.ProxyMetrics.C76_backed_partial",
    "Otel.ProxyMetrics.C76_one_to_one",
    "Otel.ProxyMetrics.C76_delivered",
    "Otel.ProxyMetrics.C76_setter_finishes",
    "Otel.ProxyMetrics.C76_raises_only_if",
    "Otel.ProxyMetrics.C76_attributes_lost",
    "Otel.ProxyMetrics.C76_one_bad_name"
   ],
   "note": "Proved for every interleaving except that the meter's attributes may be lost (C76_attributes_lost); one instrument the provider refuses leaves the others unbacked (C76_one_bad_name)."
  },
  {
   "property": "C77",
   "status": "proved",
   "theorems": [
    "Otel.ProxyTracer.C77_global",
    "Otel.ProxyTracer.C77_right_tracer",
    "Otel.ProxyTracer.C77_upgraded",
    "Otel.ProxyTracer.C77_noop_before",
    "Otel.ProxyTracer.C77_use_finishes",
    "Otel.ProxyTracer.C77_disabled",
    "Otel.ProxyTracer.C77_tracer_scope",
    "Otel.ProxyTracer.C77_loggers",
    "Otel.ProxyTracer.C77_loggers_disabled",
    "Otel.ProxyTracer.C77_transparent",
    "Otel.ProxyTracer.C77_use_span_hides",
    "Otel.ProxyTracer.C77_use_span_restores"
   ],
   "note": "Proxy tracers/loggers over all interleavings; programs without an SDK; C77_use_span_hides states the limit of transparency."
  },
  {
   "property": "C78",
   "status": "partial",
   "theorems": [
    "Otel.LoggingHandler.C78_faithful",
    "Otel.LoggingHandler.C78_attributes",
    "Otel.LoggingHandler.C78_own_kept",
    "Otel.LoggingHandler.C78_limit",
    "Otel.LoggingHandler.C78_disabled",
    "Otel.LoggingHandler.C78_raises_iff",
    "Otel.LoggingHandler.C78_no_provider",
    "Otel.LoggingHandler.C78_bad_arguments"
   ],
   "note": "Everything but 'never raises', which is refuted: C78_no_provider, C78_bad_arguments; C78_raises_iff says exactly when a call raises."
  },
  {
   "property": "C79",
   "status": "partial",
   "theorems": [
    "Otel.OtlpConfig.C79_grpc_url",
    "Otel.OtlpConfig.C79_grpc_plain",
    "Otel.OtlpConfig.C79_https_secure",
    "Otel.OtlpConfig.C79_grpc_timeout",
    "Otel.OtlpConfig.C79_grpc_headers",
    "Otel.OtlpConfig.C79_grpc_compression",
    "Otel.OtlpConfig.C79_grpc_raises_iff",
    "Otel.OtlpConfig.C79_http_url",
    "Otel.OtlpConfig.C79_http_raises_iff",
    "Otel.OtlpConfig.C79_http_request",
    "Otel.OtlpConfig.C79_isolated",
    "Otel.OtlpConfig.C79_http_tls",
    "Otel.OtlpConfig.C79_grpc_rejects_deflate_and_none",
    "Otel.OtlpConfig.C79_http_blank_endpoint",
    "Otel.OtlpConfig.C79_grpc_certificate_ignored",
    "Otel.OtlpConfig.C79_grpc_unused_timeout"
   ],
   "note": "Proved: precedence for endpoint, TLS mode, credentials, headers, time-out, compression (gRPC) and URL, TLS files, headers, time-out, compression (HTTP); exact conditions for exceptions; isolation of signals. Refuted parts of the claim: C79_grpc_rejects_deflate_and_none, C79_http_blank_endpoint, C79_grpc_certificate_ignored, C79_grpc_unused_timeout."
  },
  {
   "property": "C80",
   "status": "partial",
   "theorems": [
    "Otel.Zipkin.C80_json",
    "Otel.Zipkin.C80_sequence",
    "Otel.Zipkin.C80_sequence_unlimited",
    "Otel.Zipkin.C80_tag_length",
    "Otel.Zipkin.C80_scalar",
    "Otel.Zipkin.C80_scalar_text",
    "Otel.Zipkin.C80_sequence_cut",
    "Otel.Zipkin.C80_tags",
    "Otel.Zipkin.C80_times",
    "Otel.Zipkin.C80_v2",
    "Otel.Zipkin.C80_v1",
    "Otel.Zipkin.C80_proto",
    "Otel.Zipkin.C80_export",
    "Otel.Zipkin.C80_service",
    "Otel.Zipkin.C80_v1_default_raises",
    "Otel.Zipkin.C80_attribute_hidden",
    "Otel.Zipkin.C80_description_not_cut",
    "Otel.Zipkin.C80_wrong_service"
   ],
   "note": "Proved except where refuted: C80_v1_default_raises (v1 without limit), C80_sequence_cut (escaped characters), C80_attribute_hidden, C80_description_not_cut, C80_wrong_service."
  },
  {
   "property": "C81",
   "status": "proved",
   "theorems": [
    "Otel.Config.C81_no_exporters",
    "Otel.Config.C81_names",
    "Otel.Config.C81_protocol",
    "Otel.Config.C81_success",
    "Otel.Config.C81_unresolvable_atomic",
    "Otel.Config.C81_raises_iff",
    "Otel.Config.C81_half_configured_violated",
    "Otel.Config.C81_exemplar_filter_violated",
    "Otel.Config.C81_sampler_argument",
    "Otel.Config.C81_sampler_custom",
    "Otel.Config.C81_sampler_builtin",
    "Otel.Config.C81_sampler_space",
    "Otel.Config.C81_ratio_space_violated",
    "Otel.Config.C81_ratio_range_violated",
    "Otel.Config.C81_id_generator",
    "Otel.Config.C81_empty_item_raises"
   ],
   "note": "Proved: names, protocol, exact effects on success, unresolvable => no effect, raises-iff, sampler choice. The all-or-nothing claim is refuted when an exporter's constructor raises (C81_half_configured_violated) and when the variable for the exemplar filter is unknown or empty (C81_exemplar_filter_violated); ' traceidratio' ignores the ratio (C81_ratio_space_violated); out-of-range ratio fails (C81_ratio_range_violated); an empty list item is looked up as a name (C81_empty_item_raises)."
  },
  {
   "property": "C82",
   "status": "partial",
   "theorems": [
    "Otel.Propagate.C82_load",
    "Otel.Propagate.C82_default",
    "Otel.Propagate.C82_empty_or_none_raises_violated",
    "Otel.Propagate.C82_names",
    "Otel.Propagate.C82_interoperation",
    "Otel.Propagate.C82_trace_continues",
    "Otel.Propagate.C82_nothing_in_common",
    "Otel.Propagate.C82_w3c_last",
    "Otel.Propagate.C82_baggage",
    "Otel.Propagate.C82_fields",
    "Otel.Propagate.C82_jaeger_fields_violated",
    "Otel.Propagate.C82_extract_root",
    "Otel.Propagate.C82_extract_root_violated"
   ],
   "note": "Proved for all lists and spans. False as stated: an empty OTEL_PROPAGATORS, or 'none', makes the import raise (C82_empty_or_none_raises_violated), Jaeger's baggage headers are not among its fields (C82_jaeger_fields_violated), and extract without a context starts from the current context instead of the root if baggage is the first propagator (C82_extract_root_violated)."
  },
  {
   "property": "C83",
   "status": "partial",
   "theorems": [
    "Otel.OpenTracing.C83_restores",
    "Otel.OpenTracing.C83_activate",
    "Otel.OpenTracing.C83_close_twice",
    "Otel.OpenTracing.C83_same_traces",
    "Otel.OpenTracing.C83_parent",
    "Otel.OpenTracing.C83_active_parent",
    "Otel.OpenTracing.C83_links",
    "Otel.OpenTracing.C83_ignore_active_violated",
    "Otel.OpenTracing.C83_otel_parent_violated",
    "Otel.OpenTracing.C83_outer_parent_violated",
    "Otel.OpenTracing.C83_not_nested_violated"
   ],
   "note": "Proved by a simulation for all programs without explicit parents (parents are covered state by state: C83_parent). False: start_active_span ignores ignore_active_span (C83_ignore_active_violated); start_span directly inside an OpenTelemetry block does not continue its trace, or takes an outer span as parent (C83_otel_parent_violated, C83_outer_parent_violated); scopes closed out of order leave a closed scope's span current (C83_not_nested_violated)."
  },
  {
   "property": "C84",
   "status": "partial",
   "theorems": [
    "Otel.OpenTracing.C84_baggage_item",
    "Otel.OpenTracing.C84_baggage_inherited_violated",
    "Otel.OpenTracing.C84_round_trip",
    "Otel.OpenTracing.C84_inject_none",
    "Otel.OpenTracing.C84_extract_nothing",
    "Otel.OpenTracing.C84_extract_current_violated",
    "Otel.OpenTracing.C84_baggage_travels_violated"
   ],
   "note": "Round trip and item access proved. False: baggage is not inherited and does not travel (C84_baggage_inherited_violated, C84_baggage_travels_violated); with the baggage propagator first, extracting from an empty carrier yields the current span (C84_extract_current_violated)."
  },
  {
   "property": "C85",
   "status": "partial",
   "theorems": [
    "Otel.OpenCensus.C85_restores",
    "Otel.OpenCensus.C85_same_traces",
    "Otel.OpenCensus.C85_start_end",
    "Otel.OpenCensus.C85_parent",
    "Otel.OpenCensus.C85_tracer_context",
    "Otel.OpenCensus.C85_ids",
    "Otel.OpenCensus.C85_methods",
    "Otel.OpenCensus.C85_message_event",
    "Otel.OpenCensus.C85_message_time_violated",
    "Otel.OpenCensus.C85_current_span_violated",
    "Otel.OpenCensus.C85_end_span_violated",
    "Otel.OpenCensus.C85_finish_violated"
   ],
   "note": "Proved for all programs of blocks, and start_span/end_span around such a program. False: inside an OpenTelemetry block current_span (and attributes set through it) is the outer OpenCensus span (C85_current_span_violated), end_span there ends that span and puts the wrong context in force (C85_end_span_violated); finish leaves the span current (C85_finish_violated); times of message events are off by the local UTC offset (C85_message_time_violated)."
  },
  {
   "property": "C86",
   "status": "partial",
   "theorems": [
    "Otel.OcExporter.C86_span",
    "Otel.OcExporter.C86_span_iff",
    "Otel.OcExporter.C86_export",
    "Otel.OcExporter.C86_status_violated",
    "Otel.OcExporter.C86_root_violated",
    "Otel.OcExporter.C86_kind_violated",
    "Otel.OcExporter.C86_one_attribute_violated",
    "Otel.OcExporter.C86_sequence_violated",
    "Otel.OcExporter.C86_service_violated"
   ],
   "note": "Ids, names, times, trace state, attributes, events, links, exact conditions and batches proved. False: status codes are sent as gRPC codes (ok becomes CANCELLED, C86_status_violated), roots get a zero parent id (C86_root_violated), three kinds become unspecified (C86_kind_violated), one integer beyond 64 bits loses the batch (C86_one_attribute_violated), sequences become text (C86_sequence_violated), one service name per batch (C86_service_violated)."
  },
  {
   "property": "C87",
   "status": "proved",
   "theorems": [
    "Otel.C87_format",
    "Otel.C87_width",
    "Otel.C87_injective",
    "Otel.C87_ids_injective"
   ],
   "note": ""
  },
  {
   "property": "C88",
   "status": "partial",
   "theorems": [
    "Otel.Prom.C88_simple",
    "Otel.Prom.C88_ratio",
    "Otel.Prom.C88_annotation",
    "Otel.Prom.C88_two_annotations"
   ],
   "note": "refuted for two annotations (C88_two_annotations): By{sent}/s{wall} is exposed as bytes, the text between the annotations is lost. Proved for units with at most one annotation and no line feed, over letters, digits and colons, and %."
  },
  {
   "property": "C89",
   "status": "partial",
   "theorems": [
    "Otel.ToJson.C89_reads_back",
    "Otel.ToJson.C89_span",
    "Otel.ToJson.C89_span_raises_iff",
    "Otel.ToJson.C89_span_determined",
    "Otel.ToJson.C89_epoch_violated",
    "Otel.ToJson.C89_log",
    "Otel.ToJson.C89_log_raises_iff",
    "Otel.ToJson.C89_log_dropped_violated",
    "Otel.ToJson.C89_metrics",
    "Otel.ToJson.C89_metrics_raises_iff",
    "Otel.ToJson.C89_resource_and_scope",
    "Otel.ToJson.C89_stored_attributes",
    "Otel.ToJson.C89_console",
    "Otel.ToJson.C89_console_spans"
   ],
   "note": "Proved: the text is JSON and shows the object for spans, log records, metrics, resources, scopes and console output; it determines the span's data; raises exactly on unrepresentable values. Refuted parts: a time of 0 is shown as null like a missing one (C89_epoch_violated), the number of dropped attributes of a record without attributes is not shown (C89_log_dropped_violated), a record without a timestamp raises (C89_log_raises_iff). Floats are opaque texts (NaN and Infinity are written as Python writes them, which RFC 8259 does not allow)."
  },
  {
   "property": "C90",
   "status": "partial",
   "theorems": [
    "Otel.Events.C90_faithful",
    "Otel.Events.C90_attributes",
    "Otel.Events.C90_name_kept",
    "Otel.Events.C90_name_lost_violated",
    "Otel.Events.C90_disabled",
    "Otel.Events.C90_late_provider",
    "Otel.Events.C90_resource_violated",
    "Otel.Events.C90_zero_violated",
    "Otel.Events.C90_mixed_ids_violated",
    "Otel.Events.C90_flush_violated"
   ],
   "note": "Proved for fields that are given and not zero, up to 127 attributes (the name is kept with any number unless the application uses event.name itself), SDK and late providers. Refuted: an explicit time or flags of 0 are replaced (C90_zero_violated), a trace id without span id is mixed with the current span's id (C90_mixed_ids_violated), event.name can be evicted (C90_name_lost_violated), an event logger made before the logger provider never carries the provider's resource (C90_resource_violated), force_flush returns None (C90_flush_violated)."
  },
  {
   "property": "C91",
   "status": "proved",
   "theorems": [
    "Otel.Metrics.C91_collection",
    "Otel.Metrics.C91_counter_total",
    "Otel.Metrics.C91_counter_delta",
    "Otel.Metrics.C91_gauge_last"
   ],
   "note": "End-to-end theorem over histories of the consumer: C91_collection characterises the whole result (spec: Spec/Pipeline.lean), C91_counter_total, C91_counter_delta and C91_gauge_last state it for single instruments. Exponential histograms are not among the stream shapes here (C35–C38), nor are exemplars (C39)."
  },
  {
   "property": "C92",
   "status": "proved",
   "theorems": [
    "Otel.Tasks.C92_tree",
    "Otel.Tasks.C92_complete",
    "Otel.Tasks.C92_ended",
    "Otel.Tasks.C92_genuine",
    "Otel.Tasks.C92_restored",
    "Otel.Tasks.C92_decorated",
    "Otel.Tasks.C92_generator_violated",
    "Otel.Tasks.C92_interleaved_generators_violated"
   ],
   "note": "Programs with threads and tasks, small-step semantics, arbitrary schedules. At any moment what was done is a sub-permutation of the events of the text (spans with the block around, looks, method calls), each once; when everything has finished, exactly those events, with or without exceptions, and every recording span is the one its place makes, after the method calls on it in some order and what leaving its block does (exception, status, end) exactly. Generator functions of either kind are refuted (C92_generator_violated, C92_interleaved_generators_violated): the decorator ends the span before the body runs, and blocks around yields of interleaved generators restore the wrong context."
  },
  {
   "property": "C93",
   "status": "partial",
   "theorems": [
    "Otel.Batch.C93_child_spans_partial",
    "Otel.Batch.C93_only_own_spans",
    "Otel.Batch.C93_no_span_twice",
    "Otel.Batch.C93_child_progress",
    "Otel.Batch.C93_child_shutdown",
    "Otel.Periodic.C93_child_reader",
    "Otel.Periodic.C93_metrics_twice_violated",
    "Otel.Periodic.C93_metrics_locked_violated",
    "Otel.Periodic.C93_metrics_after_shutdown_violated",
    "Otel.Metrics.C93_delta_double_violated",
    "Otel.GrpcShutdown.C93_grpc_fresh",
    "Otel.GrpcShutdown.C93_grpc_locked_violated"
   ],
   "note": "Proved for spans and log records: for every state of the parent at the fork and every later interleaving in parent and child, the child's batch processor exports the child's spans and only those (bounds, order, accounting, progress, shutdown as in C24-C26), and no span is exported by both processes. Refuted for metrics: the child's reader collects the parent's measurements too (a delta stream counts again exactly what was pending at the fork, C93_delta_double_violated; cumulative streams count everything again); a fork during an export leaves the lock held for ever, so the child never exports metrics (C93_metrics_locked_violated); a reader that was shut down collects and exports once more in the child. Refuted for the gRPC exporter if the process forks during an export: the child never sends anything (C93_grpc_locked_violated). The forking thread is taken to be outside the modelled methods."
  },
  {
   "property": "C94",
   "status": "proved",
   "theorems": [
    "Otel.Traced.C94_delivered",
    "Otel.Traced.C94_wire",
    "Otel.Traced.C94_content"
   ],
   "note": "C94_wire (all spans sampled; the program touches its spans by attributes, events and links only) and C94_delivered (any sampler, any program). Assumes the processor is shut down after the program's threads and tasks are done and their on_end calls have returned; one tracer, one processor; timing-dependent behaviour (schedule delay, export timeout) is free."
  },
  {
   "property": "C95",
   "status": "partial",
   "theorems": [
    "Otel.Recording.C95_no_crash",
    "Otel.Recording.C95_exactly_once",
    "Otel.Recording.C95_stream",
    "Otel.Recording.C95_collection",
    "Otel.Recording.C95_progress",
    "Otel.Recording.C95_callback_deadlock_violated",
    "Otel.Recording.C95_points",
    "Otel.Recording.C95_sum_total",
    "Otel.Recording.C95_sum_final"
   ],
   "note": "All parts proved for every schedule; freedom from deadlock holds when callbacks only measure, and C95_callback_deadlock_violated shows a callback that creates an observable instrument or collects blocks for ever on the consumer's lock."
  },
  {
   "property": "C96",
   "status": "partial",
   "theorems": [
    "Otel.Metrics.C96_refused",
    "Otel.Metrics.C96_nan_accepted_violated",
    "Otel.Metrics.C96_sum_delta",
    "Otel.Metrics.C96_delta_recovers",
    "Otel.Metrics.C96_sum_cumulative",
    "Otel.Metrics.C96_poisoned_violated",
    "Otel.Metrics.C96_async_delta",
    "Otel.Metrics.C96_async_inf_violated",
    "Otel.Metrics.C96_bucket_of",
    "Otel.Metrics.C96_hist_delta",
    "Otel.Metrics.C96_hist_cumulative",
    "Otel.Metrics.C96_nan_lowest_violated",
    "Otel.Metrics.Exp.C96_exp_infinities_partial",
    "Otel.Metrics.Exp.C96_exp_mirror",
    "Otel.Metrics.Exp.C96_exp_nan_raises_violated",
    "Otel.Metrics.Exp.C96_exp_nan_negative_violated"
   ],
   "note": "Finite floats are exact rationals. Refuted parts: C96_nan_accepted_violated, C96_poisoned_violated, C96_async_inf_violated, C96_nan_lowest_violated, C96_exp_nan_raises_violated, C96_exp_nan_negative_violated. C96_exp_infinities_partial assumes, as C64, that computed logarithms round to the right side of the integers."
  },
  {
   "property": "C97",
   "status": "partial",
   "theorems": [
    "Otel.Correlated.C97_logs",
    "Otel.Correlated.C97_joined",
    "Otel.Correlated.C97_exemplars",
    "Otel.Correlated.C97_context",
    "Otel.Correlated.C97_empty_context_violated"
   ],
   "note": "proved for logs (C97_logs, C97_joined) and exemplars (C97_exemplars, C97_context); refuted for a measurement made with an explicitly empty context: 'context or get_current()' treats it as none given, so the measurement is attributed to the current span (C97_empty_context_violated)"
  },
  {
   "property": "C98",
   "status": "partial",
   "theorems": [
    "Otel.Identity.C98_resource_equivalence",
    "Otel.Identity.C98_resource_key",
    "Otel.Identity.C98_merge_order",
    "Otel.Identity.C98_resource_hash_violated",
    "Otel.Identity.C98_scope_key",
    "Otel.Identity.C98_scope_texts",
    "Otel.Identity.C98_groups",
    "Otel.Identity.C98_sent_as_own",
    "Otel.Identity.C98_scope_merged_violated",
    "Otel.Identity.C98_meters",
    "Otel.Identity.C98_meter_violated",
    "Otel.Identity.C98_scope_order",
    "Otel.Identity.C98_scope_order_keys",
    "Otel.Identity.C98_scope_order_violated"
   ],
   "note": "Refuted by the code in four respects, each with a theorem: equal resources may have different hashes (C98_resource_hash_violated: {'a': 1} == {'a': True}), an item may be sent under a scope whose attributes are not its own (C98_scope_merged_violated), a request may get a meter of a scope with other attributes (C98_meter_violated), and scopes of one name of which one has no version, or that differ in attributes only, cannot be compared (C98_scope_order_violated: TypeError). Everything else is proved; that different resources are different keys is proved up to collisions of the hash of strings."
  },
  {
   "property": "C99",
   "status": "partial",
   "theorems": [
    "Otel.ExemplarRace.C99_composed",
    "Otel.ExemplarRace.C99_aligned",
    "Otel.ExemplarRace.C99_recording_never_raises",
    "Otel.ExemplarRace.C99_collect_never_fails",
    "Otel.ExemplarRace.C99_one_at_a_time",
    "Otel.ExemplarRace.C99_calls_end",
    "Otel.ExemplarRace.C99_one_at_a_time_size",
    "Otel.ExemplarRace.C99_add_raises_violated",
    "Otel.ExemplarRace.C99_size_violated",
    "Otel.ExemplarRace.C99_value_violated",
    "Otel.ExemplarRace.C99_collect_violated"
   ],
   "note": "Refuted by the code in four respects, each with a concrete schedule: add() may raise ValueError, since a collection resets the count between its increment and randrange (C99_add_raises_violated); three threads may leave three exemplars in a reservoir of size 2 (C99_size_violated); an exemplar may have the value 0 that nobody measured (C99_value_violated); and a collection may raise AttributeError when a view drops attributes (C99_collect_violated). Proved for all schedules: every field of an exemplar is that of an offered measurement or of an empty bucket, one exemplar per key; the histogram's reservoir never raises, stays within its bounds and keeps values in their buckets; recordings without a collection never raise; collections never fail if all measurements of the stream have attributes or none has any; and calls that do not overlap behave as the sequential reservoir of C39/C40."
  },
  {
   "property": "C100",
   "status": "partial",
   "theorems": [
    "Otel.Feedback.C100_simple_returns",
    "Otel.Feedback.C100_simple_quiet",
    "Otel.Feedback.C100_simple_recursion_violated",
    "Otel.Feedback.C100_simple_shutdown_violated",
    "Otel.Feedback.C100_flush_exports",
    "Otel.Feedback.C100_drain_exports",
    "Otel.Feedback.C100_bounded",
    "Otel.Feedback.C100_flush_joins",
    "Otel.Feedback.C100_flush_answered",
    "Otel.Feedback.C100_flush_returns",
    "Otel.Feedback.C100_never_quiet_violated",
    "Otel.Feedback.C100_flush_deadlock_violated"
   ],
   "note": "Proved for the batch processor: a flush makes exactly the number of calls of export its records make, whatever is logged meanwhile (C100_flush_exports), it returns True in every fair schedule unless made by logging.shutdown (C100_flush_returns), and shutdown exports nothing that is logged about it (C100_drain_exports). Refuted by the code: with the simple processor a failing exporter, or any log call after shutdown, ends in RecursionError in the application's log call, with instrumentation suppressed in that thread from then on (C100_simple_recursion_violated, C100_simple_shutdown_violated); with the batch processor a failing exporter is called for ever because of its own reports (C100_never_quiet_violated); and a flush by logging.shutdown or dictConfig deadlocks with a worker whose export fails until the timeout (C100_flush_deadlock_violated). The queue never exceeds its bound and nothing is dropped before it is full (C100_bounded); a request of force_flush is never lost, at shutdown either (C100_flush_answered; the check of _shutdown and the request are one step here)."
  },
  {
   "property": "C101",
   "status": "partial",
   "theorems": [
    "Otel.Measured.C101_exports",
    "Otel.Measured.C101_one_by_one",
    "Otel.Measured.C101_conserved",
    "Otel.Measured.C101_delta_total",
    "Otel.Measured.C101_cumulative_total",
    "Otel.Measured.C101_flush_covers",
    "Otel.Measured.C101_flush_alone",
    "Otel.Measured.C101_progress",
    "Otel.Measured.C101_flush_violated",
    "Otel.Measured.C101_order_violated",
    "Otel.Measured.C101_failed_violated"
   ],
   "note": "Proved for every schedule: exports are the collections, one at a time, conservation of points, delta and cumulative totals at the exporter, what a flush covers, progress. Refuted in the code: a flush beside the ticker can return before a delta is exported (C101_flush_violated), exports can be out of order (C101_order_violated), failed deltas are lost (C101_failed_violated)."
  },
  {
   "property": "C102",
   "status": "partial",
   "theorems": [
    "Otel.Scrapes.C102_fifo",
    "Otel.Scrapes.C102_queued",
    "Otel.Scrapes.C102_exposes",
    "Otel.Scrapes.C102_alone",
    "Otel.Scrapes.C102_one_collection",
    "Otel.Scrapes.C102_one_at_a_time",
    "Otel.Scrapes.C102_bounded",
    "Otel.Scrapes.C102_target_info",
    "Otel.Scrapes.C102_flush_violated",
    "Otel.Scrapes.C102_repeats_violated",
    "Otel.Scrapes.C102_race_violated",
    "Otel.Scrapes.C102_starved_violated",
    "Otel.Scrapes.C102_backwards_violated"
   ],
   "note": "Proved for all threads, programs and schedules: first in first out and exactly once (C102_fifo, C102_queued), a scrape exposes what it took (C102_exposes), an undisturbed scrape (C102_alone, C102_one_collection), scrapes one at a time (C102_one_at_a_time), no waiting and at most nine steps per call (C102_bounded), the target info (C102_target_info). Refuted by the code: with two scrapes at once one can fail with IndexError (C102_race_violated) or one page shows every family twice and the other is empty (C102_starved_violated); a flush beside a scrape makes a counter go back (C102_backwards_violated); flushes without scrapes are kept without bound and repeat every family on the next page (C102_flush_violated, C102_repeats_violated)."
  },
  {
   "property": "C103",
   "status": "partial",
   "theorems": [
    "Otel.ErrorHandler.C103_contained",
    "Otel.ErrorHandler.C103_handled",
    "Otel.ErrorHandler.C103_abandons",
    "Otel.ErrorHandler.C103_transparent",
    "Otel.ErrorHandler.C103_around",
    "Otel.ErrorHandler.C103_innermost",
    "Otel.ErrorHandler.C103_continues",
    "Otel.ErrorHandler.C103_load_violated",
    "Otel.ErrorHandler.C103_escapes_violated",
    "Otel.ErrorHandler.C103_interrupt_violated",
    "Otel.ErrorHandler.C103_subclass_violated"
   ],
   "note": "Proved for all programs, hierarchies and lists of plugins that load and raise only Exceptions: nothing leaves the block (C103_contained, C103_continues), who is called and logged (C103_handled), a block without error (C103_transparent), nesting (C103_innermost). Refuted by the code: a plugin that does not load, or is no class, replaces the error, and neither the default handler nor later plugins see it (C103_load_violated); KeyboardInterrupt and SystemExit are swallowed (C103_interrupt_violated); a handler of a base class is not asked about derived errors, and the other way round (C103_subclass_violated). The rest of a block is not run after an error (C103_abandons); what a handler raises that is no Exception escapes (C103_escapes_violated)."
  },
  {
   "property": "C104",
   "status": "partial",
   "theorems": [
    "Otel.Rounding.C104_nearest",
    "Otel.Rounding.C104_cumulative",
    "Otel.Rounding.C104_delta",
    "Otel.Rounding.C104_cumulative_exact",
    "Otel.Rounding.C104_delta_exact",
    "Otel.Rounding.C104_ints_exact",
    "Otel.Rounding.C104_monotone",
    "Otel.Rounding.C104_observed_delta",
    "Otel.Rounding.C104_observed_nonneg",
    "Otel.Rounding.C104_observed_rounded",
    "Otel.Rounding.C104_histogram_delta",
    "Otel.Rounding.C104_histogram_cumulative",
    "Otel.Rounding.C104_mixed_violated",
    "Otel.Rounding.C104_stuck_violated"
   ],
   "note": "Proved: nearest double (C104_nearest), error bounds for every point of cumulative, delta, observable and histogram streams, exactness for integers and for totals of at most 53 bits, monotonicity for one-type counters, non-negative and correctly rounded observable deltas. Refuted in part by the code: a counter fed with both ints and floats can go down although everything added is positive (C104_mixed_violated: 2^53+1, then 0.5), and the delta points of a float counter need not add up to its cumulative value (C104_stuck_violated: the cumulative total stays at 2^53 for ever while a delta reader gets 1.0 per collection). Not modelled: overflow to infinity at 2^1024 (non-finite values are C96), mixed types in one histogram."
  },
  {
   "property": "C105",
   "status": "partial",
   "theorems": [
    "Otel.Settings.C105_batching",
    "Otel.Settings.C105_raises",
    "Otel.Settings.C105_defaults",
    "Otel.Settings.C105_configures",
    "Otel.Settings.C105_small_queue_violated",
    "Otel.Settings.C105_reader",
    "Otel.Settings.C105_nan_violated",
    "Otel.Settings.C105_waits",
    "Otel.Settings.C105_far_violated",
    "Otel.Settings.C105_spins_violated"
   ],
   "note": "Proved: the constructor succeeds exactly for the sound settings meant by arguments and environment (C105_batching, C105_raises), the defaults (C105_defaults), that constructed processors meet the assumptions of C24-C26 (C105_configures), the three outcomes of the metric reader (C105_reader), waiting (C105_waits). Refuted in part by the code: a queue size below 512 alone is refused because the default batch size is not reduced (C105_small_queue_violated), a NaN interval is neither refused nor used (C105_nan_violated), delays above threading.TIMEOUT_MAX are accepted and kill the worker (C105_far_violated), a NaN delay makes it spin (C105_spins_violated)."
  },
  {
   "property": "C106",
   "status": "partial",
   "theorems": [
    "Otel.Exit.C106_exit",
    "Otel.Exit.C106_each",
    "Otel.Exit.C106_each_reader",
    "Otel.Exit.C106_settled",
    "Otel.Exit.C106_pool_violated",
    "Otel.Exit.C106_shutdown",
    "Otel.Exit.C106_raises",
    "Otel.Exit.C106_meter_once",
    "Otel.Exit.C106_reader_once",
    "Otel.Exit.C106_raise_violated",
    "Otel.Exit.C106_twice_violated",
    "Otel.Exit.C106_late_violated",
    "Otel.Exit.C106_constructor_violated"
   ],
   "note": "Proved for all programs and failures: which providers are shut down at exit and in which order (C106_exit), each processor once (C106_each, C106_each_reader), nothing again after an explicit shutdown (C106_settled), a returning shutdown has shut down every processor (C106_shutdown), readers at most once (C106_meter_once, C106_reader_once). Refuted in part by the code: processors of a ConcurrentMulti… processor are never shut down at exit, because the thread pool refuses tasks by then (C106_pool_violated, for every program); a processor that raises keeps the later ones from being shut down (C106_raise_violated); shutdown called twice shuts processors down twice (C106_twice_violated); a processor added after shutdown never is (C106_late_violated); a meter provider whose constructor failed shuts down the reader of another provider (C106_constructor_violated). The behaviour of CPython's atexit and of thread pools at exit is assumed as documented. What a processor raises leaves shutdown (C106_raises)."
  },
  {
   "property": "C107",
   "status": "partial",
   "theorems": [
    "Otel.Pool.C107_order",
    "Otel.Pool.C107_once",
    "Otel.Pool.C107_no_deadlock",
    "Otel.Pool.C107_complete",
    "Otel.Pool.C107_terminates",
    "Otel.Pool.C107_order_violated",
    "Otel.Pool.C107_deadlock_violated"
   ],
   "note": "Proved for all schedules and sizes: order, once, return after completion (C107_order, if processors do not raise; even if they report events themselves), never twice (C107_once, always), no deadlock and completion (C107_no_deadlock, C107_complete) and termination with an explicit bound (C107_terminates) if processors do not report events themselves. Refuted in part by the code: after one processor has raised, another may see a thread's later event before the earlier one (C107_order_violated); if a processor reports an event on the same multi-processor while it handles one, as many threads as the pool has workers block for ever, for every pool size (C107_deadlock_violated)."
  },
  {
   "property": "C108",
   "status": "partial",
   "theorems": [
    "Otel.Locks.C108_no_deadlock",
    "Otel.Locks.C108_progress",
    "Otel.Locks.C108_returns",
    "Otel.Locks.C108_force_flush",
    "Otel.Locks.C108_for_ever",
    "Otel.Locks.C108_callback_creates_violated",
    "Otel.Locks.C108_callback_collects_violated",
    "Otel.Locks.C108_proxy_violated",
    "Otel.Locks.C108_set_provider_violated",
    "Otel.Locks.C108_two_providers_violated",
    "Otel.Locks.C108_exporter_flushes_violated",
    "Otel.Locks.C108_released"
   ],
   "note": "Proved for every number of threads and objects and every interleaving: no wait cycle, bounded number of steps, every call returns with no lock held, provided callbacks only record, create synchronous instruments on SDK meters and get SDK meters and exporters do not collect (C108_no_deadlock, _progress, _returns, _force_flush); locks are exclusive and given back whatever is called (C108_released). Refuted by the code without that proviso: callbacks that create observable instruments, collect, or use proxy meters, exporters that flush, two providers crosswise (C108_*_violated; such a deadlock is permanent by C108_for_ever)."
  },
  {
   "property": "C109",
   "status": "partial",
   "theorems": [
    "Otel.Locks.C109_no_deadlock",
    "Otel.Locks.C109_passive",
    "Otel.Locks.C109_event_handler_violated",
    "Otel.Locks.C109_shared_span_violated",
    "Otel.Locks.C109_counting_handler_violated"
   ],
   "note": "Proved for all threads, calls and interleavings: no deadlock and every call returns if nothing is logged inside calls of the API (C109_no_deadlock), or if handlers do not call the API (C109_passive). Refuted by the code otherwise: C109_event_handler_violated (one thread), C109_shared_span_violated and C109_counting_handler_violated (two threads), permanent by C108_for_ever."
  },
  {
   "property": "C110",
   "status": "partial",
   "theorems": [
    "Otel.Detectors.C110_skipped",
    "Otel.Detectors.C110_few",
    "Otel.Detectors.C110_order",
    "Otel.Detectors.C110_returns",
    "Otel.Detectors.C110_hang_violated",
    "Otel.Detectors.C110_starved_violated",
    "Otel.Detectors.C110_late_violated",
    "Otel.Detectors.C110_priority_violated",
    "Otel.Detectors.C110_raises"
   ],
   "note": "The guarantees are proved for all detectors and durations. The documented meaning of timeout and of initial_resource is refuted: C110_hang_violated (the call returns iff every detector returns), C110_starved_violated, C110_late_violated, C110_priority_violated."
  },
  {
   "property": "C111",
   "status": "partial",
   "theorems": [
    "Otel.InMemory.C111_accounted",
    "Otel.InMemory.C111_at_most_once",
    "Otel.InMemory.C111_exactly_once",
    "Otel.InMemory.C111_fresh",
    "Otel.InMemory.C111_flush_loses_violated",
    "Otel.InMemory.C111_flush_kept",
    "Otel.InMemory.C111_concurrent_violated"
   ],
   "note": "Exactly-once holds without force_flush (C111_exactly_once) and at-most-once always (C111_at_most_once, C111_accounted); C111_flush_loses_violated and C111_concurrent_violated refute it with flushes."
  },
  {
   "property": "C112",
   "status": "partial",
   "theorems": [
    "Otel.Links.C112_created",
    "Otel.Links.C112_stable",
    "Otel.Links.C112_contents",
    "Otel.Links.C112_dropped_violated",
    "Otel.Links.C112_relimited_violated",
    "Otel.Links.C112_dictionary_violated",
    "Otel.Links.C112_vanishes_violated"
   ],
   "note": "Stability is proved for links that are not shared (C112_stable) and, up to the dropped count, for links shared within a provider (C112_contents); the rest is refuted by C112_dropped_violated, C112_relimited_violated, C112_vanishes_violated, C112_dictionary_violated."
  },
  {
   "property": "C113",
   "status": "partial",
   "theorems": [
    "Otel.Intervals.C113_cumulative",
    "Otel.Intervals.C113_delta",
    "Otel.Intervals.C113_delta_observable",
    "Otel.Intervals.C113_disjoint",
    "Otel.Intervals.C113_times",
    "Otel.Intervals.C113_inverted_only",
    "Otel.Intervals.C113_observable_forward",
    "Otel.Intervals.C113_inside",
    "Otel.Intervals.C113_stamp_inside",
    "Otel.Intervals.C113_opening_violated",
    "Otel.Intervals.C113_observable_first_violated",
    "Otel.Intervals.C113_counts_cumulative",
    "Otel.Intervals.C113_counts_delta",
    "Otel.Intervals.C113_counts_observed",
    "Otel.Intervals.C113_inverted_violated",
    "Otel.Intervals.C113_set_back_violated",
    "Otel.Intervals.C113_early_violated"
   ],
   "note": "Refuted in part by the code: C113_inverted_violated, C113_opening_violated, C113_observable_first_violated, C113_set_back_violated, C113_early_violated. Proved: C113_cumulative, C113_delta, C113_delta_observable (any clock), C113_disjoint, C113_times, C113_inverted_only, C113_observable_forward, C113_inside, C113_stamp_inside (clock never set back)."
  },
  {
   "property": "C114",
   "status": "partial",
   "theorems": [
    "Otel.Generators.C114_ends",
    "Otel.Generators.C114_leave",
    "Otel.Generators.C114_enter",
    "Otel.Generators.C114_in_order",
    "Otel.Generators.C114_outside",
    "Otel.Generators.C114_zip_violated",
    "Otel.Generators.C114_consumer_violated",
    "Otel.Generators.C114_elsewhere_violated"
   ],
   "note": "Proved for all histories: C114_ends (each span open in one place or ended once), C114_leave, C114_enter (what becomes current, and where), C114_in_order (blocks left in order: the innermost is current, nothing stays behind), C114_outside (generators that yield outside blocks are as plain functions). Refuted in part by the code: two or more generators consumed together that yield inside blocks leave an ended span current (C114_zip_violated, for every number); the consumer of such a generator finds the generator's span current (C114_consumer_violated); a generator closed in another thread or task leaves its ended span current where it was begun (C114_elsewhere_violated). Only the span of a context is kept; baggage is restored along with it."
  },
  {
   "property": "C115",
   "status": "partial",
   "theorems": [
    "Otel.HttpWire.C115_decoded",
    "Otel.HttpWire.C115_honest",
    "Otel.HttpWire.C115_headers",
    "Otel.HttpWire.C115_requests",
    "Otel.HttpWire.C115_sends",
    "Otel.HttpWire.C115_shutdown",
    "Otel.HttpWire.C115_encoding_violated",
    "Otel.HttpWire.C115_leak_violated",
    "Otel.HttpWire.C115_given_violated",
    "Otel.HttpWire.C115_metrics_violated"
   ],
   "note": "Proved for all histories: every request decodes to data its exporter was given if the exporters of each session agree on the compression and the program declares none itself (C115_decoded; configurations are honest by C115_honest); an exporter alone on its session sends its own headers to its own URL (C115_headers); at most six equal requests per export, none from anything else (C115_requests); none after shutdown (C115_shutdown). Refuted in part by the code: on a shared session a compressing exporter makes an uncompressing one declare gzip over a plain body (C115_encoding_violated) and headers such as API keys leak to other exporters' URLs (C115_leak_violated); a given Content-Encoding is sent over a plain body (C115_given_violated); the metric exporter goes on after shutdown (C115_metrics_violated). Compression is abstract (any encoder with its decoder); a call of export is one step."
  },
  {
   "property": "C116",
   "status": "partial",
   "theorems": [
    "Otel.Globals.C116_never_none",
    "Otel.Globals.C116_agree",
    "Otel.Globals.C116_settled",
    "Otel.Globals.C116_one",
    "Otel.Globals.C116_no_env",
    "Otel.Globals.C116_loads_violated",
    "Otel.Globals.C116_raises_violated",
    "Otel.Globals.C116_late_violated",
    "Otel.Globals.C116_replaced_violated"
   ],
   "note": "Proved for all schedules: never None (C116_never_none), agreement (C116_agree) and permanence (C116_settled) when setting does not raise, at most one setter succeeds (C116_one), no loading and no raising without the variable (C116_no_env). Refuted: n concurrent callers load n providers (C116_loads_violated); a provider that cannot be loaded makes every get raise, without falling back to the proxy (C116_raises_violated); a get before the program's set makes that set ineffective (C116_late_violated); a meter provider whose proxies cannot be made is left in place and later replaced (C116_replaced_violated)."
  },
  {
   "property": "C117",
   "status": "partial",
   "theorems": [
    "Otel.Timely.C117_latency",
    "Otel.Timely.C117_flush",
    "Otel.Timely.C117_shutdown",
    "Otel.Timely.C117_time",
    "Otel.Timely.C117_latency_attained",
    "Otel.Timely.C117_shutdown_violated",
    "Otel.Timely.C117_otlp",
    "Otel.Timely.C117_otlp_attained",
    "Otel.Timely.C117_grpc_violated"
   ],
   "note": "Proved in a timed model for all histories: latency bound (C117_latency), attained (C117_latency_attained); force_flush and shutdown bounds (C117_flush, C117_shutdown); time can always go on, so the bounds are met by handing over (C117_time); the duration of an OTLP export (C117_otlp, attained: C117_otlp_attained). Refuted: the export timeout limits neither exports nor shutdown, which takes as long as all queued batches (C117_shutdown_violated); over gRPC the server's RetryInfo makes exports, and hence all of this, arbitrarily long (C117_grpc_violated). Assumes that threads are scheduled at once and that only waiting and exporting take time."
  },
  {
   "property": "C118",
   "status": "partial",
   "theorems": [
    "Otel.MetricWire.C118_request",
    "Otel.MetricWire.C118_encodable",
    "Otel.MetricWire.C118_total",
    "Otel.MetricWire.C118_exact",
    "Otel.MetricWire.C118_cumulative",
    "Otel.MetricWire.C118_poisoned_violated",
    "Otel.MetricWire.C118_alone_violated",
    "Otel.MetricWire.C118_merged_violated"
   ],
   "note": "Proved: C118_request (looking a stream up in an encoded collection gives its points), C118_encodable (a collection can be encoded iff every value fits 64 bits), C118_total and C118_exact (delta: read + lost + not collected = measured), C118_cumulative. Refuted by the code: one value beyond 64 bits makes the encoding of the whole request fail, so that no metric of that reader arrives any more (C118_poisoned_violated for every run, C118_alone_violated); streams that differ only in an attribute that cannot be encoded arrive as one (C118_merged_violated). Counters with int values; no exemplars; requests not split."
  },
  {
   "property": "C119",
   "status": "partial",
   "theorems": [
    "Otel.Decorated.C119_trace",
    "Otel.Decorated.C119_own",
    "Otel.Decorated.C119_lazy_violated",
    "Otel.Decorated.C119_reuse_violated"
   ],
   "note": "Proved: C119_trace (in every schedule a task shows exactly what the structural description of its program says, and ends with its first context), C119_own (every call has its own span, ended once). Refuted by the code: functions that do their work later (generator functions, asynchronous generators, functions that return awaitables): the span ends before the work begins (C119_lazy_violated, for all work); a context manager object that was entered cannot decorate any more (C119_reuse_violated)."
  },
  {
   "property": "C120",
   "status": "partial",
   "theorems": [
    "Otel.Periods.C120_cadence",
    "Otel.Periods.C120_kept",
    "Otel.Periods.C120_fresh",
    "Otel.Periods.C120_shutdown",
    "Otel.Periods.C120_complete",
    "Otel.Periods.C120_released",
    "Otel.Periods.C120_overrun_violated",
    "Otel.Periods.C120_last_violated",
    "Otel.Periods.C120_cut_violated",
    "Otel.Periods.C120_starved_violated",
    "Otel.Periods.C120_provider",
    "Otel.Periods.C120_untold_violated"
   ],
   "note": "Proved: the cadence of the loop, that measurements are neither lost nor handed over twice, the freshness bound and completeness of shutdown as long as the callbacks are quicker than both the export timeout and the export interval and shutdown is given more than two collections with exports, the time of shutdown (its timeout plus the exporter's own wait), and the time of MeterProvider.shutdown over any number of readers. Refuted by the code: the remaining time is passed to the exporter as the keyword timeout, which the exporters do not have, so the gRPC exporter waits its default of 30 s (_overrun_violated); the last collection is limited by the export interval instead of the export timeout, so callbacks slower than the interval lose the last measurements (_last_violated); with too little time the last measurements go to an exporter that was shut down (_cut_violated); callbacks as slow as the export timeout keep everything from being exported, for ever (_starved_violated); readers after one that used up the time are never told (_untold_violated). force_flush is not in this model."
  },
  {
   "property": "C121",
   "status": "partial",
   "theorems": [
    "Otel.Conflicts.C121_conflicts",
    "Otel.Conflicts.C121_data",
    "Otel.Conflicts.C121_warnings",
    "Otel.Conflicts.C121_silent",
    "Otel.Conflicts.C121_default_violated",
    "Otel.Conflicts.C121_order_violated",
    "Otel.Conflicts.C121_own_violated",
    "Otel.Conflicts.C121_scopes_violated",
    "Otel.Conflicts.C121_different_violated"
   ],
   "note": "Proved: conflicts never raises, is symmetric and holds exactly for streams of the same identity (name, unit, kind of data as in the aggregations really made); the warnings of a run are exactly the pairs of streams of the same identity whose second stream comes from a view and whose instruments were first measured in that order; if every instrument is selected by a view, silence is equivalent to different identities across instruments. Refuted by the code: default streams are never checked against earlier ones (_default_violated), so whether a conflict is reported depends on which instrument is measured first (_order_violated); two views of one instrument are not compared (_own_violated); the scope is not compared (_scopes_violated); the specification's conflict, one name with different units or kinds, is never reported (_different_violated). Exponential histograms are left out."
  },
  {
   "property": "C122",
   "status": "partial",
   "theorems": [
    "Otel.Clock.C122_to_ns",
    "Otel.Clock.C122_from_ns",
    "Otel.Clock.C122_round_trip",
    "Otel.Clock.C122_shown",
    "Otel.Clock.C122_opencensus",
    "Otel.Clock.C122_round_trip_violated",
    "Otel.Clock.C122_nearest_violated",
    "Otel.Clock.C122_opencensus_violated"
   ],
   "note": "Proved, with floats as IEEE doubles: seconds to nanoseconds are off by less than 129 ns, exact for whole seconds, and monotone; nanoseconds to seconds are off by at most 248 ns and monotone; the round trip from 2008 to 2038 gives the nearest double (at most 128 ns off), is idempotent, and gives the same nanoseconds exactly for multiples of 256; the text shown is one of the two neighbouring microseconds, exact for whole microseconds, and monotone; OpenCensus times are off by less than 248 ns and shown as the same text again. Refuted by the code: the round trip is not the identity (_round_trip_violated), the text is neither the nearest microsecond nor the one that has begun (_nearest_violated), OpenCensus times are not the microseconds of the text (_opencensus_violated). The calendar is left out (a date is its number of microseconds), and so are times before the epoch and after 2038."
  },
  {
   "property": "C123",
   "status": "partial",
   "theorems": [
    "Otel.Isolation.C123_fate",
    "Otel.Isolation.C123_alone",
    "Otel.Isolation.C123_delta_counter",
    "Otel.Isolation.C123_cumulative_counter",
    "Otel.Isolation.C123_thread",
    "Otel.Isolation.C123_silenced",
    "Otel.Isolation.C123_exports",
    "Otel.Isolation.C123_healthy",
    "Otel.Isolation.C123_complete",
    "Otel.Isolation.C123_silenced_violated",
    "Otel.Isolation.C123_lost_violated",
    "Otel.Isolation.C123_observation_violated"
   ],
   "note": "Proved for every program, any number of streams and all aggregations: each stream behaves as if it were alone except for the collections that failed before they reached it, and its answers are reported exactly in the collections that succeeded (_fate), a stream alone being the aggregation of C29–C31 and C35–C37 (_alone); the increments of a delta counter are those reported, those waiting and those lost, and are lost exactly when a collection took them and then failed at a later stream (_delta_counter); cumulative counters lose nothing (_cumulative_counter); exports are the successful collections in order (_exports); the reader's thread collects at each tick and at shutdown as long as no round failed (_thread); without unhashable attributes and cumulative exponential histograms nothing fails and every increment is exported (_healthy, _complete). Refuted by the code: a cumulative exponential histogram whose collection raises, or an observation with a list as attribute value, ends the reader's thread, so that no metric of any instrument is exported any more, not even at shutdown (_silenced, _silenced_violated, _observation_violated), and delta counters collected before it lose the interval (_lost_violated)."
  },
  {
   "property": "C124",
   "status": "partial",
   "theorems": [
    "Otel.Delivery.C124_call",
    "Otel.Delivery.C124_success",
    "Otel.Delivery.C124_once",
    "Otel.Delivery.C124_order",
    "Otel.Delivery.C124_independent",
    "Otel.Delivery.C124_copies",
    "Otel.Delivery.C124_batches",
    "Otel.Delivery.C124_all",
    "Otel.Delivery.C124_nothing_invented",
    "Otel.Delivery.C124_accounted",
    "Otel.Delivery.C124_end_to_end",
    "Otel.Delivery.C124_no_second_chance",
    "Otel.Delivery.C124_span_copies",
    "Otel.Delivery.C124_duplicate_violated",
    "Otel.Delivery.C124_failure_violated",
    "Otel.Delivery.C124_rejected_violated",
    "Otel.Delivery.C124_redirect_violated",
    "Otel.Delivery.C124_hiccup_violated"
   ],
   "note": "At-least-once up to FAILURE, order, isolation of batches, at most six copies and end-to-end accounting proved for every run and network. Refuted: exactly-once (C124_duplicate_violated: SUCCESS with two copies), FAILURE although the collector has it (C124_failure_violated), partial_success ignored (C124_rejected_violated), redirects and 1xx counted as SUCCESS (C124_redirect_violated), no retry after a connection error over HTTP (C124_hiccup_violated)."
  },
  {
   "property": "C125",
   "status": "partial",
   "theorems": [
    "Otel.Live.C125_writes",
    "Otel.Live.C125_call",
    "Otel.Live.C125_get",
    "Otel.Live.C125_items",
    "Otel.Live.C125_raised",
    "Otel.Live.C125_final",
    "Otel.Live.C125_exporter",
    "Otel.Live.C125_missing_violated",
    "Otel.Live.C125_items_violated",
    "Otel.Live.C125_torn_violated",
    "Otel.Live.C125_half_violated"
   ],
   "note": "Writers, single reads, readings of all attributes, and the exporter's reading after end() proved for every schedule. Refuted: an attribute that is always set is not found, and the attributes seem empty, while it is assigned again (C125_missing_violated); items() raises KeyError (C125_items_violated); what it returns was never the content (C125_torn_violated); set_attributes is not atomic for readers (C125_half_violated)."
  },
  {
   "property": "C126",
   "status": "partial",
   "theorems": [
    "Otel.Callbacks.C126_independent",
    "Otel.Callbacks.C126_function",
    "Otel.Callbacks.C126_generator",
    "Otel.Callbacks.C126_construct",
    "Otel.Callbacks.C126_single",
    "Otel.Callbacks.C126_told",
    "Otel.Callbacks.C126_timeout",
    "Otel.Callbacks.C126_readers_violated",
    "Otel.Callbacks.C126_silenced_violated",
    "Otel.Callbacks.C126_first_violated"
   ],
   "note": "Proved: C126_independent, _function, _generator (each callback goes its own way through the collections of all readers), _construct, _single, _told, _timeout. Refuted by the code: that every reader observes what the callbacks produce, with generators (C126_readers_violated: with two readers each gets every other value), that a callback that fails once is asked again (C126_silenced_violated, generators), and that creating an instrument never raises / the first yield counts (C126_first_violated)."
  },
  {
   "property": "C127",
   "status": "partial",
   "theorems": [
    "Otel.Footprint.C127_streams",
    "Otel.Footprint.C127_firsts",
    "Otel.Footprint.C127_never_released",
    "Otel.Footprint.C127_bound",
    "Otel.Footprint.C127_view_bound",
    "Otel.Footprint.C127_points",
    "Otel.Footprint.C127_unbounded_violated"
   ],
   "note": "Proved: C127_streams (exactly what is held, as one equation), _firsts, _never_released, _points, _bound, _view_bound, over the model of the consumer and the storages (`Storage`, `Views`), for histories whose attributes are hashable. Refuted by the code: that memory is bounded (C127_unbounded_violated: a stream per attribute set, for every n, for every reader and temporality). Exemplars held by a stream are bounded by C40; exponential histograms by C36."
  },
  {
   "property": "C128",
   "status": "partial",
   "theorems": [
    "Otel.Observables.C128_once",
    "Otel.Observables.C128_order",
    "Otel.Observables.C128_later",
    "Otel.Observables.C128_alone",
    "Otel.Observables.C128_ignored_violated",
    "Otel.Observables.C128_lost_violated"
   ],
   "note": "Proved for every schedule: C128_once, _order, _later, _alone. Refuted by the code: that the callbacks given to a create call that returned are run (C128_ignored_violated: not if the identity exists already; no warning either), and that creation can be tried again after a failure (C128_lost_violated)."
  },
  {
   "property": "C129",
   "status": "partial",
   "theorems": [
    "Otel.Lifecycles.C129_span",
    "Otel.Lifecycles.C129_start",
    "Otel.Lifecycles.C129_end",
    "Otel.Lifecycles.C129_one_end",
    "Otel.Lifecycles.C129_pairs",
    "Otel.Lifecycles.C129_returns",
    "Otel.Lifecycles.C129_abandoned_violated",
    "Otel.Lifecycles.C129_cut_violated",
    "Otel.Lifecycles.C129_unseen_violated",
    "Otel.Lifecycles.C129_hurried_violated"
   ],
   "note": "Proved for every schedule: C129_span (what is told and in which order), _start, _end, _one_end, _pairs, _returns. Refuted by the code: that who is told of an end was told of the start (C129_unseen_violated), that the span was handed over when end returns (C129_hurried_violated), and everything after a processor raised (C129_abandoned_violated, C129_cut_violated)."
  },
  {
   "property": "C130",
   "status": "partial",
   "theorems": [
    "Otel.LogSharing.C130_simple",
    "Otel.LogSharing.C130_batch",
    "Otel.LogSharing.C130_batch_late",
    "Otel.LogSharing.C130_agree",
    "Otel.LogSharing.C130_each",
    "Otel.LogSharing.C130_later_violated",
    "Otel.LogSharing.C130_after_violated"
   ],
   "note": "Proved for every schedule: C130_simple, _batch, _batch_late, _agree, _each. Refuted by the code: that a batch processor exports the record as it was when the processor got it (C130_later_violated) or as it was emitted (C130_after_violated)."
  },
  {
   "property": "C131",
   "status": "partial",
   "theorems": [
    "Otel.Flushing.C131_flush",
    "Otel.Flushing.C131_shut",
    "Otel.Flushing.C131_each",
    "Otel.Flushing.C131_dropped_violated",
    "Otel.Flushing.C131_shut_violated",
    "Otel.Flushing.C131_rest_violated"
   ],
   "note": "Proved for every schedule: C131_flush, _shut, _each. Refuted by the code: that True means exported (C131_dropped_violated), also while a processor is being shut down (C131_shut_violated), and that processors after one that is late are flushed (C131_rest_violated)."
  },
  {
   "property": "C132",
   "status": "partial",
   "theorems": [
    "Otel.ExemplarFilters.C132_choice",
    "Otel.ExemplarFilters.C132_only_eligible",
    "Otel.ExemplarFilters.C132_all_streams",
    "Otel.ExemplarFilters.C132_default",
    "Otel.ExemplarFilters.C132_off",
    "Otel.ExemplarFilters.C132_all_eligible",
    "Otel.ExemplarFilters.C132_empty_violated",
    "Otel.ExemplarFilters.C132_on_violated"
   ],
   "note": "Proved: C132_choice, _only_eligible, _all_streams, _default, _off, _all_eligible. Refuted by the code: that an empty or differently spelled variable is tolerated (C132_empty_violated; C81_exemplar_filter_violated for auto-configuration), that exemplars lead to their spans with always_on (C132_on_violated)."
  }
 ]
}