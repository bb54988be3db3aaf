{
 "claims": [
  {
   "property": "C01",
   "status": "proved",
   "theorems": [
    "SampleFlow.C01_takeEveryNth",
    "SampleFlow.C01_takeEveryNth_zero_is_ub"
   ],
   "note": ""
  },
  {
   "property": "C02",
   "status": "proved",
   "theorems": [
    "SampleFlow.C02_discardFirstN",
    "SampleFlow.C02_discardFirstN_drop",
    "SampleFlow.C02_discardFirstN_wraps"
   ],
   "note": ""
  },
  {
   "property": "C03",
   "status": "proved",
   "theorems": [
    "SampleFlow.C03_condition"
   ],
   "note": ""
  },
  {
   "property": "C04",
   "status": "proved",
   "theorems": [
    "SampleFlow.C04_conversion",
    "SampleFlow.C04_passThrough",
    "SampleFlow.C04_componentSplitter",
    "SampleFlow.C04_componentSplitter_missing"
   ],
   "note": ""
  },
  {
   "property": "C05",
   "status": "proved",
   "theorems": [
    "SampleFlow.C05_series",
    "SampleFlow.C05_take_take",
    "SampleFlow.C05_take_take_single",
    "SampleFlow.C05_discard_discard",
    "SampleFlow.C05_discard_take",
    "SampleFlow.C05_condition_condition"
   ],
   "note": ""
  },
  {
   "property": "C06",
   "status": "proved",
   "theorems": [
    "SampleFlow.C06_path_stream",
    "SampleFlow.C06_siblings_irrelevant",
    "SampleFlow.C06_succeeds"
   ],
   "note": ""
  },
  {
   "property": "C07",
   "status": "proved",
   "theorems": [
    "SampleFlow.C07_flush_reaches_all"
   ],
   "note": ""
  },
  {
   "property": "C08",
   "status": "proved",
   "theorems": [
    "SampleFlow.C08_neighbours",
    "SampleFlow.C08_associative",
    "SampleFlow.C08_same_slot_order"
   ],
   "note": ""
  },
  {
   "property": "C09",
   "status": "proved",
   "theorems": [
    "SampleFlow.C09_bookkeeping",
    "SampleFlow.C09_destroyed",
    "SampleFlow.C09_no_fault"
   ],
   "note": ""
  },
  {
   "property": "C10",
   "status": "proved",
   "theorems": [
    "SampleFlow.C10_delivery",
    "SampleFlow.C10_nothing_after_disconnect",
    "SampleFlow.C10_flush"
   ],
   "note": ""
  },
  {
   "property": "C11",
   "status": "partial",
   "theorems": [
    "SampleFlow.C11_no_change_while_connected",
    "SampleFlow.C11_connections_in_current_mode",
    "SampleFlow.C11_only_supported_modes_partial",
    "SampleFlow.C11_synchronous_only",
    "SampleFlow.C11_violation_async_only_consumer",
    "SampleFlow.C11_violation_combined_mode"
   ],
   "note": "False of the code as stated. Proved: mode cannot change while connected; every connection was made in the current mode; synchronous-only consumers are never asynchronous; supported modes only, for consumers that support synchronous mode (_partial). Violations: a consumer that supports only asynchronous mode starts in synchronous mode; set_parallel_mode accepts the combined mode (C11_violation_*)."
  },
  {
   "property": "C12",
   "status": "proved",
   "theorems": [
    "SampleFlow.Async.C12_flush_waits_for_everything",
    "SampleFlow.Async.C12_owner_meaning"
   ],
   "note": ""
  },
  {
   "property": "C13",
   "status": "proved",
   "theorems": [
    "SampleFlow.Async.C13_exactly_once",
    "SampleFlow.Async.C13_never_duplicated",
    "SampleFlow.Async.C13_same_as_synchronous_stateless",
    "SampleFlow.Async.C13_same_as_synchronous_leaves"
   ],
   "note": ""
  },
  {
   "property": "C14",
   "status": "proved",
   "theorems": [
    "SampleFlow.Async.C14_trim_prefix",
    "SampleFlow.Async.C14_unfinished_in_queue"
   ],
   "note": ""
  },
  {
   "property": "C15",
   "status": "proved",
   "theorems": [
    "SampleFlow.Async.C15_no_deadlock",
    "SampleFlow.Async.C15_every_schedule_finite",
    "SampleFlow.Async.C15_always_completes"
   ],
   "note": ""
  },
  {
   "property": "C16",
   "status": "partial",
   "theorems": [
    "SampleFlow.Async.C16_violation_unbounded_queue",
    "SampleFlow.Async.C16_violation_order",
    "SampleFlow.Async.C16_queue_at_most_samples_sent_partial"
   ],
   "note": "False of the code: queue_size is never read. Negation proved for every bound; what holds (the queue contains every unfinished sample and at most one entry per sample sent) is C16_queue_at_most_samples_sent_partial."
  },
  {
   "property": "C17",
   "status": "proved",
   "theorems": [
    "SampleFlow.Disconnect.C17_no_consume_after_disconnect"
   ],
   "note": ""
  },
  {
   "property": "C18",
   "status": "partial",
   "theorems": [
    "SampleFlow.Disconnect.C18_violation_synchronous",
    "SampleFlow.Disconnect.C18_violation_asynchronous",
    "SampleFlow.Disconnect.C18_violation_iterator",
    "SampleFlow.Disconnect.C18_no_use_after_destruction_partial"
   ],
   "note": "False of the code in general (three witness executions). Partial theorem: no use after destruction when the consumer is destroyed after sample() returned / was disconnected with no send in progress."
  },
  {
   "property": "C19",
   "status": "proved",
   "theorems": [
    "SampleFlow.Mutex.C19_linearizable",
    "SampleFlow.Mutex.C19_all_done",
    "SampleFlow.Mutex.C19_no_deadlock",
    "SampleFlow.Mutex.C19_count",
    "SampleFlow.Mutex.C19_mean",
    "SampleFlow.Mutex.C19_mean_get",
    "SampleFlow.Mutex.C19_covariance",
    "SampleFlow.Mutex.C19_histogram_bins",
    "SampleFlow.Mutex.C19_takeEveryNth",
    "SampleFlow.Mutex.C19_premises_satisfiable",
    "SampleFlow.Mutex.C19_interleaving",
    "SampleFlow.Mutex.C19_lastSample_get",
    "SampleFlow.Mutex.C19_lastSample",
    "SampleFlow.Mutex.C19_maximumProbability",
    "SampleFlow.Mutex.C19_maximumProbability_get",
    "SampleFlow.Mutex.C19_acceptanceRatio",
    "SampleFlow.Mutex.C19_acceptanceRatio_get",
    "SampleFlow.Mutex.C19_streamOutput",
    "SampleFlow.Mutex.C19_pairHistogram_bins",
    "SampleFlow.Mutex.C19_pairHistogram_get",
    "SampleFlow.Mutex.C19_discardFirstN",
    "SampleFlow.Mutex.C19_autoCovarianceTrace",
    "SampleFlow.Mutex.C19_autoCovarianceMatrix",
    "SampleFlow.Mutex.C19_averageCosinus"
   ],
   "note": ""
  },
  {
   "property": "C20",
   "status": "proved",
   "theorems": [
    "SampleFlow.Mutex.C20_no_concurrent_action",
    "SampleFlow.Mutex.C20_exactly_once",
    "SampleFlow.Mutex.C20_atomic_actions",
    "SampleFlow.Mutex.C20_concurrent_when_allowed"
   ],
   "note": ""
  },
  {
   "property": "C21",
   "status": "proved",
   "theorems": [
    "SampleFlow.C21_mean",
    "SampleFlow.C21_mean_no_samples"
   ],
   "note": ""
  },
  {
   "property": "C22",
   "status": "proved",
   "theorems": [
    "SampleFlow.C22_autoCovarianceTrace_depends_on_order",
    "SampleFlow.C22_autoCovarianceMatrix_depends_on_order",
    "SampleFlow.C22_streamOutput_depends_on_order",
    "SampleFlow.C22_averageCosinus_depends_on_order",
    "SampleFlow.C22_mean",
    "SampleFlow.C22_covariance",
    "SampleFlow.C22_count",
    "SampleFlow.C22_histogram",
    "SampleFlow.C22_pairHistogram",
    "SampleFlow.C22_maxProb",
    "SampleFlow.C22_lastSample_depends_on_order",
    "SampleFlow.C22_acceptanceRatio_depends_on_order"
   ],
   "note": ""
  },
  {
   "property": "C23",
   "status": "proved",
   "theorems": [
    "SampleFlow.C23_covariance",
    "SampleFlow.C23_covariance_one_sample"
   ],
   "note": ""
  },
  {
   "property": "C24",
   "status": "proved",
   "theorems": [
    "SampleFlow.C24_hermitian",
    "SampleFlow.C24_psd",
    "SampleFlow.C24_variance_nonneg",
    "SampleFlow.C24_psd_complex"
   ],
   "note": ""
  },
  {
   "property": "C25",
   "status": "proved",
   "theorems": [
    "SampleFlow.C25_autoCovarianceTrace",
    "SampleFlow.C25_autoCovarianceTrace_no_samples_ub"
   ],
   "note": ""
  },
  {
   "property": "C26",
   "status": "proved",
   "theorems": [
    "SampleFlow.C26_autoCovarianceMatrix",
    "SampleFlow.C26_correct_iff_memory_zero",
    "SampleFlow.C26_uninitialised_memory_shows"
   ],
   "note": "The property includes the uninitialised memory as explicit summand; the documented formula holds iff that memory is zero (finding)."
  },
  {
   "property": "C27",
   "status": "proved",
   "theorems": [
    "SampleFlow.C27_trace_of_covariance",
    "SampleFlow.C27_trace_of_autoCovariance"
   ],
   "note": ""
  },
  {
   "property": "C28",
   "status": "proved",
   "theorems": [
    "SampleFlow.C28_averageCosinus",
    "SampleFlow.C28_history_zero_ub",
    "SampleFlow.C28_truncation_at_2_32"
   ],
   "note": ""
  },
  {
   "property": "C29",
   "status": "proved",
   "theorems": [
    "SampleFlow.C29_acceptanceRatio",
    "SampleFlow.C29_acceptanceRatio_range",
    "SampleFlow.C29_acceptanceRatio_empty",
    "SampleFlow.C29_valarray_equal"
   ],
   "note": ""
  },
  {
   "property": "C30",
   "status": "proved",
   "theorems": [
    "SampleFlow.C30_counts",
    "SampleFlow.C30_bin_meaning",
    "SampleFlow.C30_bins_partition",
    "SampleFlow.C30_total",
    "SampleFlow.C30_nan",
    "SampleFlow.C30_gnuplot"
   ],
   "note": ""
  },
  {
   "property": "C31",
   "status": "proved",
   "theorems": [
    "SampleFlow.C31_linear",
    "SampleFlow.C31_linear_bad_range",
    "SampleFlow.C31_mapped",
    "SampleFlow.C31_mapped_ok_is_subdivision",
    "SampleFlow.C31_mapped_rejected",
    "SampleFlow.C31_rows_adjacent",
    "SampleFlow.C31_logarithmic"
   ],
   "note": ""
  },
  {
   "property": "C32",
   "status": "proved",
   "theorems": [
    "SampleFlow.C32_pairHistogram",
    "SampleFlow.C32_linear",
    "SampleFlow.C32_bad_range",
    "SampleFlow.C32_mapped",
    "SampleFlow.C32_mapped_ok_is_subdivision",
    "SampleFlow.C32_linear_counts",
    "SampleFlow.C32_correct_iff_memory_zero",
    "SampleFlow.C32_wrong_size"
   ],
   "note": "The property includes the uninitialised memory as explicit summand; the documented counts hold iff that memory is zero (finding)."
  },
  {
   "property": "C33",
   "status": "proved",
   "theorems": [
    "SampleFlow.C33_maximumProbabilitySample",
    "SampleFlow.C33_maximumProbabilitySample_finite",
    "SampleFlow.C33_no_likelihood",
    "SampleFlow.C33_wrong_type_throws",
    "SampleFlow.C33_sentinel_violation"
   ],
   "note": ""
  },
  {
   "property": "C34",
   "status": "proved",
   "theorems": [
    "SampleFlow.C34_lastSample",
    "SampleFlow.C34_countSamples"
   ],
   "note": ""
  },
  {
   "property": "C35",
   "status": "proved",
   "theorems": [
    "SampleFlow.C35_one_line_per_sample",
    "SampleFlow.C35_components",
    "SampleFlow.C35_lossless"
   ],
   "note": ""
  },
  {
   "property": "C36",
   "status": "proved",
   "theorems": [
    "SampleFlow.C36_range"
   ],
   "note": ""
  },
  {
   "property": "C37",
   "status": "proved",
   "theorems": [
    "SampleFlow.C37_samples"
   ],
   "note": ""
  },
  {
   "property": "C38",
   "status": "proved",
   "theorems": [
    "SampleFlow.C38_chain",
    "SampleFlow.C38_uphill_accepted"
   ],
   "note": ""
  },
  {
   "property": "C39",
   "status": "proved",
   "theorems": [
    "SampleFlow.C39_never_back_to_zero"
   ],
   "note": ""
  },
  {
   "property": "C40",
   "status": "proved",
   "theorems": [
    "SampleFlow.C40_delayedRejection",
    "SampleFlow.C40_differentialEvaluation",
    "SampleFlow.C40_range",
    "SampleFlow.C40_metropolisHastings"
   ],
   "note": ""
  },
  {
   "property": "C41",
   "status": "proved",
   "theorems": [
    "SampleFlow.C41_continue"
   ],
   "note": ""
  },
  {
   "property": "C42",
   "status": "proved",
   "theorems": [
    "SampleFlow.C42_general_detailed_balance",
    "SampleFlow.C42_general_stationary",
    "SampleFlow.C42_general_stationary_steps",
    "SampleFlow.C42_general_total",
    "SampleFlow.C42_acceptance_probability",
    "SampleFlow.C42_uphill_always_accepted",
    "SampleFlow.C42_detailed_balance",
    "SampleFlow.C42_transition_sum",
    "SampleFlow.C42_stationary"
   ],
   "note": ""
  },
  {
   "property": "C43",
   "status": "partial",
   "theorems": [
    "SampleFlow.C43_violation",
    "SampleFlow.C43_symmetric_proposals_agree_partial",
    "SampleFlow.C43_agree_iff_partial",
    "SampleFlow.C43_violation_mixed"
   ],
   "note": "False of the code: -inf and -max differ (C43_violation, C43_violation_mixed); the encodings agree exactly for proposals with ratio at most 1 (C43_agree_iff_partial)."
  },
  {
   "property": "C44",
   "status": "proved",
   "theorems": [
    "SampleFlow.C44_chain",
    "SampleFlow.C44_samples"
   ],
   "note": ""
  },
  {
   "property": "C45",
   "status": "proved",
   "theorems": [
    "SampleFlow.C45_same_as_metropolisHastings",
    "SampleFlow.C45_violation_zero_probability"
   ],
   "note": "As stated, for likelihoods not treated as zero probability; also proved: it differs for -inf (C45_violation_zero_probability)."
  },
  {
   "property": "C46",
   "status": "partial",
   "theorems": [
    "SampleFlow.C46_violation_concrete",
    "SampleFlow.C46_violation",
    "SampleFlow.C46_no_delays_partial"
   ],
   "note": "False of the code: an out-of-bounds read in every delayed stage (C46_violation). Proved for max_delays = 0."
  },
  {
   "property": "C47",
   "status": "partial",
   "theorems": [
    "SampleFlow.C47_transition_sum",
    "SampleFlow.C47_detailed_balance_partial",
    "SampleFlow.C47_stationary_partial",
    "SampleFlow.C47_violation",
    "SampleFlow.C47_second_stage_partial",
    "SampleFlow.C47_violation_third_stage"
   ],
   "note": "Detailed balance proved for max_delays=1 under the condition on the first-stage proposals stated in the theorem; false in general (C47_violation, C47_violation_third_stage)."
  },
  {
   "property": "C48",
   "status": "proved",
   "theorems": [
    "SampleFlow.C48_samples"
   ],
   "note": ""
  },
  {
   "property": "C49",
   "status": "partial",
   "theorems": [
    "SampleFlow.C49_in_range_partial",
    "SampleFlow.C49_partners_partial",
    "SampleFlow.C49_violation",
    "SampleFlow.C49_violation_three_chains"
   ],
   "note": "Partner indices are in range and the first is another chain; the second partner can be the first one or the chain itself (C49_violation_*)."
  },
  {
   "property": "C50",
   "status": "proved",
   "theorems": [
    "SampleFlow.DEAsync.C50_async_same_as_sync",
    "SampleFlow.DEAsync.C50_async_prefix"
   ],
   "note": ""
  },
  {
   "property": "C51",
   "status": "proved",
   "theorems": [
    "SampleFlow.C51_generations"
   ],
   "note": ""
  },
  {
   "property": "C52",
   "status": "partial",
   "theorems": [
    "SampleFlow.C52_nonnegative_update_partial",
    "SampleFlow.C52_violation_negative_update",
    "SampleFlow.C52_violation_dice"
   ],
   "note": "False of the code for negative updates and for unsigned arithmetic; exact behaviour for nonnegative updates proved."
  },
  {
   "property": "C53",
   "status": "proved",
   "theorems": [
    "SampleFlow.C53_consumer_state_range",
    "SampleFlow.C53_consumer_state_metropolisHastings",
    "SampleFlow.C53_consumer_state_delayedRejection",
    "SampleFlow.C53_consumer_state_differentialEvaluation",
    "SampleFlow.C53_diagnostics"
   ],
   "note": ""
  },
  {
   "property": "C54",
   "status": "proved",
   "theorems": [
    "SampleFlow.Disconnect.C54_no_deadlock",
    "SampleFlow.Disconnect.C54_every_schedule_finite"
   ],
   "note": ""
  },
  {
   "property": "C55",
   "status": "proved",
   "theorems": [
    "SampleFlow.DEAsync.C55_no_deadlock",
    "SampleFlow.DEAsync.C55_every_schedule_finite",
    "SampleFlow.DEAsync.C55_completes"
   ],
   "note": ""
  },
  {
   "property": "C56",
   "status": "proved",
   "theorems": [
    "SampleFlow.DEAsync.C56_no_data_race",
    "SampleFlow.DEAsync.C56_writes_are_recorded",
    "SampleFlow.DEAsync.C56_reads_are_recorded"
   ],
   "note": ""
  },
  {
   "property": "C57",
   "status": "proved",
   "theorems": [
    "SampleFlow.C57_metropolisHastings",
    "SampleFlow.C57_delayedRejection",
    "SampleFlow.C57_differentialEvaluation"
   ],
   "note": ""
  },
  {
   "property": "C58",
   "status": "proved",
   "theorems": [
    "SampleFlow.Async.C58_every_return_is_final",
    "SampleFlow.Async.C58_consumed_everything",
    "SampleFlow.Async.C58_mean",
    "SampleFlow.Async.C58_covariance",
    "SampleFlow.Async.C58_count",
    "SampleFlow.Async.C58_histogram",
    "SampleFlow.Async.C58_same_as_synchronous",
    "SampleFlow.Async.C58_same_results"
   ],
   "note": ""
  },
  {
   "property": "C59",
   "status": "proved",
   "theorems": [
    "SampleFlow.C59_metropolis_never_nan",
    "SampleFlow.C59_metropolis_nan_start",
    "SampleFlow.C59_delayedRejection_never_nan",
    "SampleFlow.C59_delayedRejection_nan_start",
    "SampleFlow.C59_delayedRejection_nan_blocks_step",
    "SampleFlow.C59_differentialEvaluation",
    "SampleFlow.C59_maxProb_nan_first",
    "SampleFlow.C59_maxProb_nan_later",
    "SampleFlow.C59_ideal_doubles"
   ],
   "note": ""
  },
  {
   "property": "C60",
   "status": "partial",
   "theorems": [
    "SampleFlow.C60_delayedRejection_partial",
    "SampleFlow.C60_differentialEvaluation_partial",
    "SampleFlow.C60_violation_delayedRejection",
    "SampleFlow.C60_violation_differentialEvaluation"
   ],
   "note": "False of the code: `ratio >= u` accepts a ratio of 0 if the random number is exactly 0 (C60_violation_*). Proved for runs in which no random number is exactly 0."
  },
  {
   "property": "C61",
   "status": "proved",
   "theorems": [
    "SampleFlow.Exc.C61_exception",
    "SampleFlow.Exc.C61_no_exception",
    "SampleFlow.Exc.C61_exception_iff",
    "SampleFlow.Exc.C61_asynchronous_lost",
    "SampleFlow.Exc.C61_range",
    "SampleFlow.Exc.C61_metropolis_hastings",
    "SampleFlow.Exc.C61_delayed_rejection",
    "SampleFlow.Exc.C61_differential_evaluation",
    "SampleFlow.Exc.C61_differential_evaluation_async"
   ],
   "note": ""
  },
  {
   "property": "C62",
   "status": "proved",
   "theorems": [
    "SampleFlow.C62_total_probability",
    "SampleFlow.C62_mean_square",
    "SampleFlow.C62_mean_in_probability",
    "SampleFlow.C62_histogram",
    "SampleFlow.C62_covariance",
    "SampleFlow.C62_distribution_converges",
    "SampleFlow.C62_probability_converges",
    "SampleFlow.C62_finds_maximum"
   ],
   "note": ""
  },
  {
   "property": "C63",
   "status": "proved",
   "theorems": [
    "SampleFlow.C63_exact",
    "SampleFlow.C63_mean_in_range",
    "SampleFlow.C63_mean_constant",
    "SampleFlow.C63_mean_error",
    "SampleFlow.C63_variance_nonneg",
    "SampleFlow.C63_covariance_symmetric",
    "SampleFlow.C63_covariance_error"
   ],
   "note": ""
  },
  {
   "property": "C64",
   "status": "partial",
   "theorems": [
    "SampleFlow.C64_memory_irrelevant_partial",
    "SampleFlow.C64_violation_memory_visible",
    "SampleFlow.C64_violation_nan"
   ],
   "note": "False of the code: from the second sample on the old content is cancelled only up to rounding, and a NaN never disappears (C64_violation_*). Proved if the difference of the first product and the content is a machine number."
  },
  {
   "property": "C65",
   "status": "proved",
   "theorems": [
    "SampleFlow.C65_consumes_filtered",
    "SampleFlow.C65_choice_by_position",
    "SampleFlow.C65_burn_in_and_thinning"
   ],
   "note": ""
  },
  {
   "property": "C66",
   "status": "proved",
   "theorems": [
    "SampleFlow.C66_independent_chains",
    "SampleFlow.C66_stationary"
   ],
   "note": ""
  },
  {
   "property": "C67",
   "status": "partial",
   "theorems": [
    "SampleFlow.C67_first_and_last_partial",
    "SampleFlow.C67_violation_middle_chain"
   ],
   "note": "False of the code: with three chains the middle chain is not distributed according to the target after a generation with crossover, since one partner is the chain itself (C67_violation_middle_chain, C49). Proved: the first and the last chain, individually, keep the target distribution."
  },
  {
   "property": "C68",
   "status": "proved",
   "theorems": [
    "SampleFlow.C68_variable",
    "SampleFlow.C68_statement",
    "SampleFlow.C68_named_statement",
    "SampleFlow.C68_forgotten_filter"
   ],
   "note": ""
  },
  {
   "property": "C69",
   "status": "proved",
   "theorems": [
    "SampleFlow.Async.C69_flush_waits",
    "SampleFlow.Async.C69_unfinished_is_queued",
    "SampleFlow.Async.C69_no_deadlock",
    "SampleFlow.Async.C69_terminates",
    "SampleFlow.Async.C69_always_completes",
    "SampleFlow.Async.C69_never_duplicated",
    "SampleFlow.Async.C69_asynchronous_exceptions_are_isolated",
    "SampleFlow.Async.C69_asynchronous_exactly_once",
    "SampleFlow.Async.C69_reported_are_synchronous",
    "SampleFlow.Async.C69_synchronous_exceptions_are_reported",
    "SampleFlow.Async.C69_asynchronous_exceptions_are_lost",
    "SampleFlow.Async.C69_sample_lost_silently"
   ],
   "note": ""
  },
  {
   "property": "C70",
   "status": "partial",
   "theorems": [
    "SampleFlow.C70_five_faces_partial",
    "SampleFlow.C70_empty_bin_partial",
    "SampleFlow.C70_violation_bottom"
   ],
   "note": "False of the code: instead of the bottom of a box a triangle is written (C70_violation_bottom). Proved: the other five faces are right, and all six for bins without samples."
  },
  {
   "property": "C71",
   "status": "proved",
   "theorems": [
    "SampleFlow.C71_metropolisHastings",
    "SampleFlow.C71_delayedRejection",
    "SampleFlow.C71_differentialEvaluation",
    "SampleFlow.C71_proposals",
    "SampleFlow.C71_adaptive_metropolis"
   ],
   "note": ""
  },
  {
   "property": "C72",
   "status": "proved",
   "theorems": [
    "SampleFlow.C72_mean_keeps_nan",
    "SampleFlow.C72_covariance_keeps_nan",
    "SampleFlow.C72_mean_componentwise",
    "SampleFlow.C72_covariance_componentwise"
   ],
   "note": ""
  },
  {
   "property": "C73",
   "status": "proved",
   "theorems": [
    "SampleFlow.C73_total_probability",
    "SampleFlow.C73_distribution_converges",
    "SampleFlow.C73_mean_square",
    "SampleFlow.C73_mean_in_probability",
    "SampleFlow.C73_histogram",
    "SampleFlow.C73_covariance",
    "SampleFlow.C73_forgets"
   ],
   "note": ""
  },
  {
   "property": "C74",
   "status": "proved",
   "theorems": [
    "SampleFlow.C74_double_points",
    "SampleFlow.C74_caveat_overflow",
    "SampleFlow.C74_double_histogram",
    "SampleFlow.C74_caveat_overflow_counts",
    "SampleFlow.C74_exact",
    "SampleFlow.C74_points",
    "SampleFlow.C74_accuracy",
    "SampleFlow.C74_subdivision",
    "SampleFlow.C74_counts",
    "SampleFlow.C74_one_bin",
    "SampleFlow.C74_histogram",
    "SampleFlow.C74_pairs",
    "SampleFlow.C74_caveat_underflow"
   ],
   "note": ""
  },
  {
   "property": "C75",
   "status": "partial",
   "theorems": [
    "SampleFlow.C75_copy_partial",
    "SampleFlow.C75_copy_pair_partial",
    "SampleFlow.C75_between_partial",
    "SampleFlow.C75_quiet_partial",
    "SampleFlow.C75_violation_torn_copy"
   ],
   "note": "Proved: copies made while nobody else uses the original; under concurrency each single count is between the counts before and after. The moment-in-time part is false of the code: the copy constructors (histogram.impl.h 309, pair_histogram.impl.h 381) read o.bins without locking o.mutex; C75_violation_torn_copy shows a copy with counts the original never had (and by the C++ standard it is a data race)."
  },
  {
   "property": "C76",
   "status": "proved",
   "theorems": [
    "SampleFlow.C76_general_covariance",
    "SampleFlow.C76_mean",
    "SampleFlow.C76_histogram",
    "SampleFlow.C76_covariance",
    "SampleFlow.C76_general_mean",
    "SampleFlow.C76_general_histogram"
   ],
   "note": ""
  },
  {
   "property": "C77",
   "status": "partial",
   "theorems": [
    "SampleFlow.C77_covariance_partial",
    "SampleFlow.C77_strong_histogram_partial",
    "SampleFlow.C77_strong_covariance_partial",
    "SampleFlow.C77_no_failure",
    "SampleFlow.C77_total_probability",
    "SampleFlow.C77_mean_square_partial",
    "SampleFlow.C77_histogram_partial",
    "SampleFlow.C77_strong_mean_partial",
    "SampleFlow.C77_violation"
   ],
   "note": "Proved if q1 is symmetric and q1(x,y1) q2(x,y1,y) = q1(y,y1) q2(y,y1,x).  False for proposals that are only symmetric, as the comments in the code assume (C77_violation).  Missing: more than one delay."
  },
  {
   "property": "C78",
   "status": "proved",
   "theorems": [
    "SampleFlow.Async.C78_same_order",
    "SampleFlow.Async.C78_same_samples",
    "SampleFlow.Async.C78_path_stream",
    "SampleFlow.Async.C78_direct",
    "SampleFlow.Async.C78_order_lost_behind_async"
   ],
   "note": ""
  },
  {
   "property": "C79",
   "status": "proved",
   "theorems": [
    "SampleFlow.Dim.C79_sample_types",
    "SampleFlow.Dim.C79_mean_fault_iff",
    "SampleFlow.Dim.C79_covariance_fault_iff",
    "SampleFlow.Dim.C79_autoCovarianceTrace_fault_iff",
    "SampleFlow.Dim.C79_autoCovarianceMatrix_fault_iff",
    "SampleFlow.Dim.C79_mean_value",
    "SampleFlow.Dim.C79_covariance_value",
    "SampleFlow.Dim.C79_autoCovarianceTrace_value",
    "SampleFlow.Dim.C79_autoCovarianceMatrix_value",
    "SampleFlow.Dim.C79_averageCosine_fault_iff",
    "SampleFlow.Dim.C79_averageCosine_value",
    "SampleFlow.Dim.C79_averageCosine_smaller_sample"
   ],
   "note": ""
  },
  {
   "property": "C80",
   "status": "partial",
   "theorems": [
    "SampleFlow.C80_mean_square_partial",
    "SampleFlow.C80_violation_limit",
    "SampleFlow.C80_violation"
   ],
   "note": "Proved for runs without crossover (at most crossover_gap generations).  False with crossover (C80_violation)."
  },
  {
   "property": "C81",
   "status": "partial",
   "theorems": [
    "SampleFlow.Connect.C81_suffix_partial",
    "SampleFlow.Connect.C81_after_return_partial",
    "SampleFlow.Connect.C81_no_race_partial",
    "SampleFlow.Connect.C81_terminates_partial",
    "SampleFlow.Connect.C81_violation_race",
    "SampleFlow.Connect.C81_violation_race_first",
    "SampleFlow.Connect.C81_violation_two_connections"
   ],
   "note": "The code has the data race (C81_violation_*). Proved: which samples are received under every schedule, provided the race has no effect (C81_suffix_partial, C81_after_return_partial); no race if nothing is connected while samples are issued."
  },
  {
   "property": "C82",
   "status": "proved",
   "theorems": [
    "SampleFlow.LagNumbers.C82_acceptance_ratio",
    "SampleFlow.LagNumbers.C82_average_cosine",
    "SampleFlow.LagNumbers.C82_auto_covariance_matrix",
    "SampleFlow.LagNumbers.C82_auto_covariance_trace",
    "SampleFlow.LagNumbers.C82_acceptance_ratio_strong",
    "SampleFlow.LagNumbers.C82_average_cosine_strong",
    "SampleFlow.LagNumbers.C82_auto_covariance_matrix_strong",
    "SampleFlow.LagNumbers.C82_auto_covariance_trace_strong"
   ],
   "note": ""
  },
  {
   "property": "C83",
   "status": "partial",
   "theorems": [
    "SampleFlow.C83_exact",
    "SampleFlow.C83_error_partial",
    "SampleFlow.C83_violation_negative",
    "SampleFlow.C83_violation_cancellation"
   ],
   "note": "Proved: the error bound relative to the size of the samples, for every lag. The claims about the variance are false in the code (C83_violation_negative, C83_violation_cancellation)."
  },
  {
   "property": "C84",
   "status": "partial",
   "theorems": [
    "SampleFlow.Reentrant.C84_replay",
    "SampleFlow.Reentrant.C84_bookkeeping",
    "SampleFlow.Reentrant.C84_samples",
    "SampleFlow.Reentrant.C84_delivery",
    "SampleFlow.Reentrant.C84_delivery_nested",
    "SampleFlow.Reentrant.C84_receivers",
    "SampleFlow.Reentrant.C84_no_self_disconnect",
    "SampleFlow.Reentrant.C84_violation_self_disconnect",
    "SampleFlow.Reentrant.C84_violation_cycle",
    "SampleFlow.Reentrant.C84_ok_partial"
   ],
   "note": "Proved: everything but the last sentence, which is false in the code (C84_no_self_disconnect, C84_violation_self_disconnect)."
  },
  {
   "property": "C85",
   "status": "proved",
   "theorems": [
    "SampleFlow.Equilibrium.C85_error_of_mean",
    "SampleFlow.Equilibrium.C85_shape",
    "SampleFlow.Equilibrium.C85_trace_bounds_matrix",
    "SampleFlow.Equilibrium.C85_decay",
    "SampleFlow.Equilibrium.C85_error_limit",
    "SampleFlow.Equilibrium.C85_error_of_thinned_mean",
    "SampleFlow.Equilibrium.C85_thinning",
    "SampleFlow.Equilibrium.C85_caveat_no_decay"
   ],
   "note": "Real arithmetic, finite targets. C85_caveat_no_decay: without the reachability premise the auto-covariances need not go to zero."
  },
  {
   "property": "C86",
   "status": "proved",
   "theorems": [
    "SampleFlow.Locks.C86_no_deadlock",
    "SampleFlow.Locks.C86_ready_goes",
    "SampleFlow.Locks.C86_terminates",
    "SampleFlow.Locks.C86_all_calls_return",
    "SampleFlow.Locks.C86_mutual_exclusion",
    "SampleFlow.Locks.C86_flush_complete",
    "SampleFlow.Locks.C86_flush_waits",
    "SampleFlow.Locks.C86_no_flush_in_own_task",
    "SampleFlow.Locks.C86_no_disconnect_in_own_consume",
    "SampleFlow.Locks.C86_violation_crossing",
    "SampleFlow.Locks.C86_violation_own_task"
   ],
   "note": "Layered networks. Outside of these: C86_violation_crossing, C86_violation_own_task, C86_no_flush_in_own_task, C86_no_disconnect_in_own_consume."
  },
  {
   "property": "C87",
   "status": "proved",
   "theorems": [
    "SampleFlow.Races.C87_no_data_race",
    "SampleFlow.Races.C87_violation_copy_histogram",
    "SampleFlow.Races.C87_violation_copy_pair_histogram",
    "SampleFlow.Races.C87_violation_connect",
    "SampleFlow.Races.C87_violation_assertion",
    "SampleFlow.Races.C87_violation_streams",
    "SampleFlow.Races.C87_violation_action"
   ],
   "note": "Under the conditions named in the statement; that each of them is necessary is shown by the C87_violation_* theorems."
  },
  {
   "property": "C88",
   "status": "proved",
   "theorems": [
    "SampleFlow.C88_mean",
    "SampleFlow.C88_covariance",
    "SampleFlow.C88_histogram",
    "SampleFlow.C88_finds_maximum",
    "SampleFlow.C88_mean_strong",
    "SampleFlow.C88_histogram_strong",
    "SampleFlow.C88_covariance_strong",
    "SampleFlow.C88_general_mean",
    "SampleFlow.C88_general_mean_strong",
    "SampleFlow.C88_general_histogram_strong",
    "SampleFlow.C88_general_covariance",
    "SampleFlow.C88_schedules_exist"
   ],
   "note": ""
  },
  {
   "property": "C89",
   "status": "partial",
   "theorems": [
    "SampleFlow.C89_mean_in_range_partial",
    "SampleFlow.C89_infinite_then_nan",
    "SampleFlow.C89_covariance_finite_partial",
    "SampleFlow.C89_double_arithmetic",
    "SampleFlow.C89_double_mean_partial",
    "SampleFlow.C89_double_covariance_partial",
    "SampleFlow.C89_double_infinite",
    "SampleFlow.C89_violation_overflow",
    "SampleFlow.C89_violation_covariance_overflow",
    "SampleFlow.C89_violation_covariance_underflow"
   ],
   "note": "The statement for all finite samples is false (`C89_violation_overflow`, `C89_violation_covariance_overflow`); proved for samples up to half the largest double (MeanValue) and up to 2^509 (CovarianceMatrix), for the general format under the corresponding bounds."
  },
  {
   "property": "C90",
   "status": "partial",
   "theorems": [
    "SampleFlow.C90_counts",
    "SampleFlow.C90_counts_debug",
    "SampleFlow.C90_one_bin",
    "SampleFlow.C90_right_bin_partial",
    "SampleFlow.C90_exact_samples",
    "SampleFlow.C90_pairs_partial",
    "SampleFlow.C90_violation_pair_assertion",
    "SampleFlow.C90_violation_neighbour_bin",
    "SampleFlow.C90_violation_pair"
   ],
   "note": "False for types with more bits than double: the bin found is that of the rounded sample (`C90_violation_neighbour_bin`), and PairHistogram can fail an assertion (`C90_violation_pair`). Proved: exactly one bin, the right one up to this rounding, exact for samples that are doubles; no failure in Histogram and, without assertions, in PairHistogram."
  },
  {
   "property": "C91",
   "status": "partial",
   "theorems": [
    "SampleFlow.C91_exact",
    "SampleFlow.C91_error_partial",
    "SampleFlow.C91_nan_sample",
    "SampleFlow.C91_violation_zero_sample",
    "SampleFlow.C91_infinite_sample",
    "SampleFlow.C91_violation_overflow",
    "SampleFlow.C91_violation_underflow",
    "SampleFlow.C91_violation_above_one"
   ],
   "note": "False for zero samples (NaN), for samples of sizes from 10^77 (0 instead of 1) or below 10^-81 (infinite), and in the strict form \"at most 1\" (`C91_violation_*`). Proved: error and range bounds for nonzero samples in arithmetic without overflow and underflow; NaN and infinities in every format."
  },
  {
   "property": "C92",
   "status": "partial",
   "theorems": [
    "SampleFlow.C92_exact",
    "SampleFlow.C92_error_partial",
    "SampleFlow.C92_violation_negative",
    "SampleFlow.C92_violation_cancellation"
   ],
   "note": "False: the code cancels catastrophically for samples whose mean is large compared to their spread (`C92_violation_*`), and contains uninitialised memory (C26). Proved: the error is at most u max(B_i,B_j)^2 (8n+120) for samples of size B, if the memory is zero; no out-of-bounds access in any arithmetic; the exact program is that of C26."
  },
  {
   "property": "C93",
   "status": "partial",
   "theorems": [
    "SampleFlow.C93_trace_keeps_nan",
    "SampleFlow.C93_matrix_keeps_nan",
    "SampleFlow.C93_matrix_componentwise",
    "SampleFlow.C93_trace_infinite",
    "SampleFlow.C93_matrix_infinite",
    "SampleFlow.C93_double_finite_partial",
    "SampleFlow.C93_double_trace_finite_partial",
    "SampleFlow.C93_violation_overflow",
    "SampleFlow.C93_violation_overflow_example"
   ],
   "note": "The last sentence is false for samples of size 2^512 and more (`C93_violation_overflow`). Proved: NaN and infinities are never hidden and never spread (all arithmetics, all formats); the matrices are finite for samples up to 2^509 if the uninitialised memory is zero, the trace for samples of up to 2^20 components up to 2^490. Not settled: the range between these bounds and 2^512."
  },
  {
   "property": "C94",
   "status": "proved",
   "theorems": [
    "SampleFlow.Graph.C94_terminates",
    "SampleFlow.Graph.C94_connection_streams",
    "SampleFlow.Graph.C94_upstream_only",
    "SampleFlow.Graph.C94_one_copy_per_path",
    "SampleFlow.Graph.C94_circle_sample",
    "SampleFlow.Graph.C94_circle_flush"
   ],
   "note": "Synchronous mode, one thread. Circles are a violation of an unwritten rule; the theorems say that they never work."
  },
  {
   "property": "C95",
   "status": "proved",
   "theorems": [
    "SampleFlow.C95_mean",
    "SampleFlow.C95_mean_strong",
    "SampleFlow.C95_histogram",
    "SampleFlow.C95_covariance",
    "SampleFlow.C95_accuracy",
    "SampleFlow.C95_rounding",
    "SampleFlow.C95_rounded_mean",
    "SampleFlow.C95_rounded_mean_strong",
    "SampleFlow.C95_rounded_covariance",
    "SampleFlow.C95_caveat_rare_states"
   ],
   "note": "First with exact consumers, then with the rounding errors of C63 (C95_rounded_*). The caveat is a consequence of the statement, not a violation: its epsilon is at least 1/N."
  },
  {
   "property": "C96",
   "status": "partial",
   "theorems": [
    "SampleFlow.C96_up_to_word_size_partial",
    "SampleFlow.C96_violation_many_bins",
    "SampleFlow.C96_violation_lost_samples"
   ],
   "note": "Holds for up to 2^32 bins (C96_up_to_word_size_partial); violated by the code for more."
  },
  {
   "property": "C97",
   "status": "proved",
   "theorems": [
    "SampleFlow.C97_double_mean",
    "SampleFlow.C97_double_covariance"
   ],
   "note": "C97_double_mean, C97_double_covariance; for larger samples the results overflow, see C89."
  },
  {
   "property": "C98",
   "status": "partial",
   "theorems": [
    "SampleFlow.C98_constant_partial",
    "SampleFlow.C98_two_samples_partial",
    "SampleFlow.C98_update_partial",
    "SampleFlow.C98_violation_ignored",
    "SampleFlow.C98_violation_unbounded",
    "SampleFlow.C98_violation_undefined"
   ],
   "note": "Holds for equal samples, for two ascending samples and for every single update (C98_constant_partial, C98_two_samples_partial, C98_update_partial); violated by the code in general."
  },
  {
   "property": "C99",
   "status": "proved",
   "theorems": [
    "SampleFlow.C99_first_stage",
    "SampleFlow.C99_second_stage_accepted",
    "SampleFlow.C99_second_stage_rejected",
    "SampleFlow.C99_first_probability",
    "SampleFlow.C99_move_probability",
    "SampleFlow.C99_double"
   ],
   "note": "For up to two proposals per sample (max_delays <= 1) and without the undefined behaviour of line 183 (C46). Assumptions on std::exp: monotone, not negative, exp(0) = 1, absolute error delta for negative arguments."
  },
  {
   "property": "C100",
   "status": "proved",
   "theorems": [
    "SampleFlow.C100_accuracy",
    "SampleFlow.C100_uphill",
    "SampleFlow.C100_into_zero",
    "SampleFlow.C100_mean",
    "SampleFlow.C100_double",
    "SampleFlow.C100_double_ratio"
   ],
   "note": "Assumptions on std::exp and std::log: relative error delta before the final rounding. Finite state spaces for the long run."
  },
  {
   "property": "C101",
   "status": "partial",
   "theorems": [
    "SampleFlow.C101_words_partial",
    "SampleFlow.C101_violation",
    "SampleFlow.C101_ends_iff",
    "SampleFlow.C101_count_partial"
   ],
   "note": "Holds if n_samples + n_chains <= 2^b (C101_words_partial, C101_count_partial); violated otherwise for every power of two of chains (C101_violation, C101_ends_iff)."
  },
  {
   "property": "C102",
   "status": "proved",
   "theorems": [
    "SampleFlow.C102_accuracy",
    "SampleFlow.C102_into_zero",
    "SampleFlow.C102_out_of_zero",
    "SampleFlow.C102_within_zero",
    "SampleFlow.C102_double"
   ],
   "note": "The decision of one task, for the values the user's functions return; the chain itself is C66, C67, C80."
  }
 ]
}