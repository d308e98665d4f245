{
 "claims": [
  {
   "property": "C01",
   "status": "proved",
   "theorems": [
    "Txstatsd.C01_normalize_eq_spec",
    "Txstatsd.C01_alphabet"
   ],
   "note": ""
  },
  {
   "property": "C02",
   "status": "proved",
   "theorems": [
    "Txstatsd.C02_idempotent",
    "Txstatsd.C02_fixes_legal"
   ],
   "note": ""
  },
  {
   "property": "C03",
   "status": "proved",
   "theorems": [
    "Txstatsd.C03_parse_iff",
    "Txstatsd.C03_dispatch",
    "Txstatsd.C03_reject"
   ],
   "note": ""
  },
  {
   "property": "C04",
   "status": "proved",
   "theorems": [
    "Txstatsd.C04_rebuild_roundtrip",
    "Txstatsd.C04_rebuild_text"
   ],
   "note": ""
  },
  {
   "property": "C05",
   "status": "proved",
   "theorems": [
    "Txstatsd.C05_unknown_type",
    "Txstatsd.C05_builtin_before_plugin"
   ],
   "note": ""
  },
  {
   "property": "C06",
   "status": "proved",
   "theorems": [
    "Txstatsd.C06_integers",
    "Txstatsd.C06_fractions",
    "Txstatsd.C06_rate_text"
   ],
   "note": ""
  },
  {
   "property": "C07",
   "status": "proved",
   "theorems": [
    "Txstatsd.C07_counter_section",
    "Txstatsd.C07_count_unique",
    "Txstatsd.C07_exact_sum",
    "Txstatsd.C07_integer_sum"
   ],
   "note": ""
  },
  {
   "property": "C08",
   "status": "proved",
   "theorems": [
    "Txstatsd.C08_conservation",
    "Txstatsd.C08_exact_balance",
    "Txstatsd.C08_idle_zero"
   ],
   "note": ""
  },
  {
   "property": "C09",
   "status": "proved",
   "theorems": [
    "Txstatsd.C09_other_keys",
    "Txstatsd.C09_other_types",
    "Txstatsd.C09_reported"
   ],
   "note": ""
  },
  {
   "property": "C10",
   "status": "proved",
   "theorems": [
    "Txstatsd.C10_counter_timer",
    "Txstatsd.C10_gauge_meter",
    "Txstatsd.C10_gauge_meter_colon"
   ],
   "note": ""
  },
  {
   "property": "C11",
   "status": "proved",
   "theorems": [
    "Txstatsd.C11_no_rate",
    "Txstatsd.C11_bad_rate"
   ],
   "note": ""
  },
  {
   "property": "C12",
   "status": "proved",
   "theorems": [
    "Txstatsd.C12_timer_section",
    "Txstatsd.C12_ordered",
    "Txstatsd.C12_keep_90"
   ],
   "note": ""
  },
  {
   "property": "C13",
   "status": "proved",
   "theorems": [
    "Txstatsd.C13_stored_since_flush",
    "Txstatsd.C13_empty_after_flush"
   ],
   "note": ""
  },
  {
   "property": "C14",
   "status": "proved",
   "theorems": [
    "Txstatsd.C14_last_reading"
   ],
   "note": ""
  },
  {
   "property": "C15",
   "status": "partial",
   "theorems": [
    "Txstatsd.C15_backlog",
    "Txstatsd.C15_once_partial",
    "Txstatsd.C15_refuted"
   ],
   "note": "False of the code as users expect it: the deque of gauge readings is never emptied (processor.py:201-203, 326-331), so every reading is emitted again by every flush. C15_backlog states what the code does; C15_refuted is the counterexample; C15_once_partial is the case of a single reading."
  },
  {
   "property": "C16",
   "status": "proved",
   "theorems": [
    "Txstatsd.C16_report",
    "Txstatsd.C16_nothing_lost",
    "Txstatsd.C16_stored",
    "Txstatsd.C16_flush"
   ],
   "note": ""
  },
  {
   "property": "C17",
   "status": "proved",
   "theorems": [
    "Txstatsd.C17_flush_counts"
   ],
   "note": ""
  },
  {
   "property": "C18",
   "status": "proved",
   "theorems": [
    "Txstatsd.C18_receive_counts"
   ],
   "note": ""
  },
  {
   "property": "C19",
   "status": "proved",
   "theorems": [
    "Txstatsd.C19_subsecond",
    "Txstatsd.C19_whole_second"
   ],
   "note": ""
  },
  {
   "property": "C20",
   "status": "proved",
   "theorems": [
    "Txstatsd.C20_timestamp_and_prefix"
   ],
   "note": ""
  },
  {
   "property": "C21",
   "status": "proved",
   "theorems": [
    "Txstatsd.C21_listing"
   ],
   "note": ""
  },
  {
   "property": "C22",
   "status": "proved",
   "theorems": [
    "Txstatsd.C22_conservation",
    "Txstatsd.C22_exact_balance",
    "Txstatsd.C22_at_rest"
   ],
   "note": ""
  },
  {
   "property": "C23",
   "status": "proved",
   "theorems": [
    "Txstatsd.C23_uninterrupted",
    "Txstatsd.C23_terminates",
    "Txstatsd.C23_no_abort",
    "Txstatsd.C23_new_counter_aborts"
   ],
   "note": ""
  },
  {
   "property": "C24",
   "status": "partial",
   "theorems": [
    "Txstatsd.C24_missed",
    "Txstatsd.C24_wiped",
    "Txstatsd.C24_read",
    "Txstatsd.C24_balance",
    "Txstatsd.C24_twice_refuted",
    "Txstatsd.C24_receive_partial",
    "Txstatsd.C24_refuted"
   ],
   "note": "False of the code: a message handled while flush_metrics_summary is emitting the receive statistics is wiped by the final clear without having been reported (processor.py:359-372). C24_refuted is a concrete schedule; C24_receive_partial proves the balance for schedules in which nothing arrives and no other flush advances during that loop. C24_missed counts the messages lost when messages of known types do arrive during the loop. In every schedule: counts are stored or wiped (C24_wiped), and what is reported is what flushes read (C24_read), so C24_balance. C24_twice_refuted: counts can also be reported twice, when a flush that has read them fails because a new type arrived."
  },
  {
   "property": "C25",
   "status": "proved",
   "theorems": [
    "Txstatsd.C25_latest"
   ],
   "note": "Readings are those whose first field parses as a float; the sample rate is ignored by this processor."
  },
  {
   "property": "C26",
   "status": "proved",
   "theorems": [
    "Txstatsd.C26_poison",
    "Txstatsd.C26_survives",
    "Txstatsd.C26_refuted"
   ],
   "note": "C26_poison and C26_survives (exact arithmetic, no plugins) prove the statement; C26_refuted shows that the expectation named in it fails."
  },
  {
   "property": "C27",
   "status": "proved",
   "theorems": [
    "Txstatsd.C27_names"
   ],
   "note": ""
  },
  {
   "property": "C28",
   "status": "partial",
   "theorems": [
    "Txstatsd.C28_listing_partial",
    "Txstatsd.C28_refuted"
   ],
   "note": "The expectation is false of the code: C28_refuted. C28_listing_partial says exactly what the inherited get_metric_names does with the gauge dict (processor.py:117)."
  },
  {
   "property": "C29",
   "status": "proved",
   "theorems": [
    "Txstatsd.C29_report",
    "Txstatsd.C29_flush"
   ],
   "note": "Exact arithmetic for the values; sqrt is uninterpreted, the draws of the reservoir arbitrary. C29_flush places the report in the flush of a processor."
  },
  {
   "property": "C30",
   "status": "proved",
   "theorems": [
    "Txstatsd.C30_transparent",
    "Txstatsd.C30_process",
    "Txstatsd.C30_out_lines",
    "Txstatsd.C30_logger"
   ],
   "note": ""
  },
  {
   "property": "C31",
   "status": "proved",
   "theorems": [
    "Txstatsd.C31_variance",
    "Txstatsd.C31_nonnegative",
    "Txstatsd.C31_marker_refuted"
   ],
   "note": "Exact arithmetic. The claimed failure for negative values is C31_marker_refuted; C31_variance gives the exact condition under which the result is right."
  },
  {
   "property": "C32",
   "status": "proved",
   "theorems": [
    "Txstatsd.C32_percentiles"
   ],
   "note": ""
  },
  {
   "property": "C33",
   "status": "proved",
   "theorems": [
    "Txstatsd.C33_bins",
    "Txstatsd.C33_sturges",
    "Txstatsd.C33_equal_values"
   ],
   "note": ""
  },
  {
   "property": "C34",
   "status": "proved",
   "theorems": [
    "Txstatsd.C34_extremes",
    "Txstatsd.C34_mean"
   ],
   "note": ""
  },
  {
   "property": "C35",
   "status": "proved",
   "theorems": [
    "Txstatsd.C35_positions"
   ],
   "note": ""
  },
  {
   "property": "C36",
   "status": "proved",
   "theorems": [
    "Txstatsd.C36_outcomes",
    "Txstatsd.C36_uniform",
    "Txstatsd.C36_subsets",
    "Txstatsd.C36_kept"
   ],
   "note": "The draws are the residues r_k < k, taken as equally likely; C164 has the bias of randint(1, maxint) % k."
  },
  {
   "property": "C37",
   "status": "proved",
   "theorems": [
    "Txstatsd.C37_top",
    "Txstatsd.C37_errors"
   ],
   "note": "Exact arithmetic over an ordered field with any positive exp satisfying exp(a+b)=exp(a)exp(b); Real.exp is one (realExp)."
  },
  {
   "property": "C38",
   "status": "proved",
   "theorems": [
    "Txstatsd.C38_rescale",
    "Txstatsd.C38_landmark_free"
   ],
   "note": ""
  },
  {
   "property": "C39",
   "status": "proved",
   "theorems": [
    "Txstatsd.C39_weights",
    "Txstatsd.C39_hull",
    "Txstatsd.C39_constant",
    "Txstatsd.C39_idle",
    "Txstatsd.C39_alphas"
   ],
   "note": ""
  },
  {
   "property": "C40",
   "status": "proved",
   "theorems": [
    "Txstatsd.C40_window",
    "Txstatsd.C40_value",
    "Txstatsd.C40_no_hashes"
   ],
   "note": ""
  },
  {
   "property": "C41",
   "status": "proved",
   "theorems": [
    "Txstatsd.C41_set_only",
    "Txstatsd.C41_monotone",
    "Txstatsd.C41_windows",
    "Txstatsd.C41_flush"
   ],
   "note": ""
  },
  {
   "property": "C42",
   "status": "proved",
   "theorems": [
    "Txstatsd.C42_hash",
    "Txstatsd.C42_zeros",
    "Txstatsd.C42_zeros_unique",
    "Txstatsd.C42_add",
    "Txstatsd.C42_no_buckets",
    "Txstatsd.C42_one_bucket",
    "Txstatsd.C42_reporter"
   ],
   "note": ""
  },
  {
   "property": "C43",
   "status": "partial",
   "theorems": [
    "Txstatsd.C43_empty_window_partial",
    "Txstatsd.C43_refuted"
   ],
   "note": "Refuted: the full statement is false of the code. C43_refuted gives a counter that saw nothing and reports 1; C43_empty_window_partial shows every empty window is estimated as 1."
  },
  {
   "property": "C44",
   "status": "proved",
   "theorems": [
    "Txstatsd.C44_flush",
    "Txstatsd.C44_reset",
    "Txstatsd.C44_accepted"
   ],
   "note": ""
  },
  {
   "property": "C45",
   "status": "proved",
   "theorems": [
    "Txstatsd.C45_malformed",
    "Txstatsd.C45_counted"
   ],
   "note": ""
  },
  {
   "property": "C46",
   "status": "proved",
   "theorems": [
    "Txstatsd.C46_above",
    "Txstatsd.C46_below",
    "Txstatsd.C46_between",
    "Txstatsd.C46_exclusive",
    "Txstatsd.C46_nan",
    "Txstatsd.C46_build",
    "Txstatsd.C46_build_fresh"
   ],
   "note": ""
  },
  {
   "property": "C47",
   "status": "proved",
   "theorems": [
    "Txstatsd.C47_route",
    "Txstatsd.C47_calls",
    "Txstatsd.C47_first_exception",
    "Txstatsd.C47_no_rules",
    "Txstatsd.C47_inert_raises"
   ],
   "note": "Regular expressions of rewrite rules are arbitrary functions. Rules are Sound: no character class in patterns, no redirect without a service (C47_inert_raises shows what that does), substitution that does not raise."
  },
  {
   "property": "C48",
   "status": "proved",
   "theorems": [
    "Txstatsd.C48_drop",
    "Txstatsd.C48_dropped",
    "Txstatsd.C48_unmatched"
   ],
   "note": ""
  },
  {
   "property": "C49",
   "status": "proved",
   "theorems": [
    "Txstatsd.C49_condition",
    "Txstatsd.C49_not",
    "Txstatsd.C49_depth"
   ],
   "note": ""
  },
  {
   "property": "C50",
   "status": "partial",
   "theorems": [
    "Txstatsd.C50_original_type",
    "Txstatsd.C50_redirect_type_partial",
    "Txstatsd.C50_refuted"
   ],
   "note": "False of the code: rebuild_message ignores its type argument (processor.py:69-70), so a redirect after set_metric_type sends the original type (C50_refuted). C50_original_type states what is sent for every rule list; C50_redirect_type_partial is the case without set_metric_type."
  },
  {
   "property": "C51",
   "status": "proved",
   "theorems": [
    "Txstatsd.C51_write",
    "Txstatsd.C51_not_doubled",
    "Txstatsd.C51_stream",
    "Txstatsd.C51_empty"
   ],
   "note": "The receiver is Twisted's LineReceiver with a handler that returns None; MAX_LENGTH (16384) bounds the lines. The server's own TCP handler returns a true value: see C80."
  },
  {
   "property": "C52",
   "status": "partial",
   "theorems": [
    "Txstatsd.C52_resume_raises",
    "Txstatsd.C52_flow_partial",
    "Txstatsd.C52_stuck",
    "Txstatsd.C52_refuted",
    "Txstatsd.C52_reconnect",
    "Txstatsd.C52_unconnected"
   ],
   "note": "False of the code: resumeProducing calls the log module (router.py:142-150). C52_refuted is the counterexample, C52_stuck what happens in every schedule, C52_flow_partial the case without a pause."
  },
  {
   "property": "C53",
   "status": "proved",
   "theorems": [
    "Txstatsd.C53_path_like",
    "Txstatsd.C53_plain",
    "Txstatsd.C53_class",
    "Txstatsd.C53_literal",
    "Txstatsd.C53_prefix"
   ],
   "note": ""
  },
  {
   "property": "C54",
   "status": "proved",
   "theorems": [
    "Txstatsd.C54_rules",
    "Txstatsd.C54_lines",
    "Txstatsd.C54_count",
    "Txstatsd.C54_faults",
    "Txstatsd.C54_raises"
   ],
   "note": ""
  },
  {
   "property": "C55",
   "status": "proved",
   "theorems": [
    "Txstatsd.C55_owner",
    "Txstatsd.C55_set_only"
   ],
   "note": ""
  },
  {
   "property": "C56",
   "status": "proved",
   "theorems": [
    "Txstatsd.C56_add"
   ],
   "note": ""
  },
  {
   "property": "C57",
   "status": "proved",
   "theorems": [
    "Txstatsd.C57_remove",
    "Txstatsd.C57_restore"
   ],
   "note": ""
  },
  {
   "property": "C58",
   "status": "partial",
   "theorems": [
    "Txstatsd.C58_walk_partial",
    "Txstatsd.C58_complete",
    "Txstatsd.C58_empty",
    "Txstatsd.C58_refuted"
   ],
   "note": "False with one replica per node: the walk of get_nodes skips its last entry (C58_refuted). C58_walk_partial describes the walk for any replica count; C58_complete proves the full listing for two or more replicas (the default is 1024)."
  },
  {
   "property": "C59",
   "status": "proved",
   "theorems": [
    "Txstatsd.C59_sharding",
    "Txstatsd.C59_errors"
   ],
   "note": "Names are ASCII; the sharded client's errors (empty ring, index error of a bad metric line) are C59_errors."
  },
  {
   "property": "C60",
   "status": "proved",
   "theorems": [
    "Txstatsd.C60_queue",
    "Txstatsd.C60_bound"
   ],
   "note": ""
  },
  {
   "property": "C61",
   "status": "proved",
   "theorems": [
    "Txstatsd.C61_order",
    "Txstatsd.C61_conserved",
    "Txstatsd.C61_drained",
    "Txstatsd.C61_callback_overtakes_refuted",
    "Txstatsd.C61_destination"
   ],
   "note": ""
  },
  {
   "property": "C62",
   "status": "proved",
   "theorems": [
    "Txstatsd.C62_callbacks",
    "Txstatsd.C62_once"
   ],
   "note": ""
  },
  {
   "property": "C63",
   "status": "proved",
   "theorems": [
    "Txstatsd.C63_sends",
    "Txstatsd.C63_unresolved",
    "Txstatsd.C63_result"
   ],
   "note": ""
  },
  {
   "property": "C64",
   "status": "proved",
   "theorems": [
    "Txstatsd.C64_qualified",
    "Txstatsd.C64_cases",
    "Txstatsd.C64_injective"
   ],
   "note": ""
  },
  {
   "property": "C65",
   "status": "proved",
   "theorems": [
    "Txstatsd.C65_accepted",
    "Txstatsd.C65_counts"
   ],
   "note": "Counters by integers, exact up to 2^53; floats of gauges, meters and timings are printed by an arbitrary function whose texts are numbers. Unsampled calls (rates: C66, C67, C70)."
  },
  {
   "property": "C66",
   "status": "proved",
   "theorems": [
    "Txstatsd.C66_sampling",
    "Txstatsd.C66_no_connection"
   ],
   "note": ""
  },
  {
   "property": "C67",
   "status": "partial",
   "theorems": [
    "Txstatsd.C67_own_rate_partial",
    "Txstatsd.C67_first_rate",
    "Txstatsd.C67_refuted",
    "Txstatsd.C67_kind_refuted"
   ],
   "note": "False of the code as users expect it (C67_refuted, C67_kind_refuted): the cached object keeps the rate and class of the first call for a name. C67_first_rate states what the code does; C67_own_rate_partial proves the expectation for histories in which the calls for the name agree in kind and rate."
  },
  {
   "property": "C68",
   "status": "proved",
   "theorems": [
    "Txstatsd.C68_loss"
   ],
   "note": ""
  },
  {
   "property": "C69",
   "status": "proved",
   "theorems": [
    "Txstatsd.C69_tiling"
   ],
   "note": "Exact arithmetic; Metrics (not ExtendedMetrics), unsampled calls."
  },
  {
   "property": "C70",
   "status": "partial",
   "theorems": [
    "Txstatsd.C70_text",
    "Txstatsd.C70_plain_rate_partial",
    "Txstatsd.C70_exponent",
    "Txstatsd.C70_refuted"
   ],
   "note": "False of the code (C70_refuted): a rate that prints as 1e-05 is read as 1. C70_exponent states what the server reads; C70_plain_rate_partial proves the expectation for rates printed as digits and dots."
  },
  {
   "property": "C71",
   "status": "partial",
   "theorems": [
    "Txstatsd.C71_long_partial",
    "Txstatsd.C71_long_kept_partial",
    "Txstatsd.C71_file_wins",
    "Txstatsd.C71_unknown",
    "Txstatsd.C71_refuted"
   ],
   "note": "Refuted: an option given by its short name is overwritten by the file (C71_refuted, C71_file_wins). Partial theorems: options given by their long names win."
  },
  {
   "property": "C72",
   "status": "proved",
   "theorems": [
    "Txstatsd.C72_first",
    "Txstatsd.C72_difference",
    "Txstatsd.C72_sum",
    "Txstatsd.C72_new_key",
    "Txstatsd.C72_failure"
   ],
   "note": ""
  },
  {
   "property": "C73",
   "status": "proved",
   "theorems": [
    "Txstatsd.C73_meminfo",
    "Txstatsd.C73_meminfo_error",
    "Txstatsd.C73_meminfo_lines",
    "Txstatsd.C73_connections"
   ],
   "note": ""
  },
  {
   "property": "C74",
   "status": "proved",
   "theorems": [
    "Txstatsd.C74_assertion",
    "Txstatsd.C74_ok",
    "Txstatsd.C74_late",
    "Txstatsd.C74_one_per_round"
   ],
   "note": ""
  },
  {
   "property": "C75",
   "status": "proved",
   "theorems": [
    "Txstatsd.C75_calls",
    "Txstatsd.C75_each_once",
    "Txstatsd.C75_failure"
   ],
   "note": ""
  },
  {
   "property": "C76",
   "status": "partial",
   "theorems": [
    "Txstatsd.C76_threshold",
    "Txstatsd.C76_sound_partial",
    "Txstatsd.C76_lax",
    "Txstatsd.C76_refuted"
   ],
   "note": "The threshold theorem is the statement; the check a reader would expect (both in seconds) is refuted (C76_refuted), with C76_sound_partial and C76_lax. Exact arithmetic."
  },
  {
   "property": "C77",
   "status": "proved",
   "theorems": [
    "Txstatsd.C77_datagrams",
    "Txstatsd.C77_line"
   ],
   "note": "At the level of the calls of datagramReceived and lineReceived. Over a TCP stream only the first ordinary line reaches lineReceived: see C80."
  },
  {
   "property": "C78",
   "status": "partial",
   "theorems": [
    "Txstatsd.C78_owner",
    "Txstatsd.C78_first",
    "Txstatsd.C78_other_names_partial",
    "Txstatsd.C78_count_partial",
    "Txstatsd.C78_refuted"
   ],
   "note": "Refuted: C78_refuted (an SLI message under a name first used with pd is not counted). C78_owner says who gets the message, C78_first who builds the metric; what holds of the isolation is C78_other_names_partial and C78_count_partial."
  },
  {
   "property": "C79",
   "status": "proved",
   "theorems": [
    "Txstatsd.C79_low_percentage"
   ],
   "note": ""
  },
  {
   "property": "C80",
   "status": "partial",
   "theorems": [
    "Txstatsd.C80_first_line_only",
    "Txstatsd.C80_too_long",
    "Txstatsd.C80_single_line_partial",
    "Txstatsd.C80_refuted"
   ],
   "note": "False of the code (protocol.py:64-71 with Twisted 11.1-15.4, whose LineReceiver and reactor behaviour on a true return value is modelled in Model/Tcp.lean): C80_refuted is the counterexample, C80_first_line_only what happens for every stream and chunking, C80_single_line_partial the case of one line per connection."
  },
  {
   "property": "C81",
   "status": "partial",
   "theorems": [
    "Txstatsd.C81_server_rejects",
    "Txstatsd.C81_client_sends",
    "Txstatsd.C81_plugin_type_partial",
    "Txstatsd.C81_refuted"
   ],
   "note": "Refuted: C81_refuted. C81_client_sends and C81_server_rejects describe the two ends in general; C81_plugin_type_partial is what works."
  },
  {
   "property": "C82",
   "status": "proved",
   "theorems": [
    "Txstatsd.C82_rule",
    "Txstatsd.C82_not_a_rule",
    "Txstatsd.C82_senseless",
    "Txstatsd.C82_conditions",
    "Txstatsd.C82_unique",
    "Txstatsd.C82_order"
   ],
   "note": ""
  },
  {
   "property": "C83",
   "status": "partial",
   "theorems": [
    "Txstatsd.C83_callable_partial",
    "Txstatsd.C83_metric_rule",
    "Txstatsd.C83_refuted"
   ],
   "note": "Refuted: C83_refuted (rule of kind metric). C83_callable_partial covers all other kinds."
  },
  {
   "property": "C84",
   "status": "proved",
   "theorems": [
    "Txstatsd.C84_server"
   ],
   "note": ""
  },
  {
   "property": "C85",
   "status": "partial",
   "theorems": [
    "Txstatsd.C85_period",
    "Txstatsd.C85_whole_seconds_partial",
    "Txstatsd.C85_zero",
    "Txstatsd.C85_refuted"
   ],
   "note": "Refuted for intervals that are not whole seconds (C85_refuted); proved for whole seconds."
  },
  {
   "property": "C86",
   "status": "partial",
   "theorems": [
    "Txstatsd.C86_port",
    "Txstatsd.C86_ports",
    "Txstatsd.C86_count",
    "Txstatsd.C86_all_partial",
    "Txstatsd.C86_default",
    "Txstatsd.C86_refuted"
   ],
   "note": "Refuted: with two hosts and no ports only the first is connected to (C86_refuted); the exact number of connections is C86_count."
  },
  {
   "property": "C87",
   "status": "proved",
   "theorems": [
    "Txstatsd.C87_report",
    "Txstatsd.C87_total",
    "Txstatsd.C87_ambiguous"
   ],
   "note": "C87_ambiguous shows the stated exception is real."
  },
  {
   "property": "C88",
   "status": "partial",
   "theorems": [
    "Txstatsd.C88_configurable_partial",
    "Txstatsd.C88_only",
    "Txstatsd.C88_default",
    "Txstatsd.C88_refuted"
   ],
   "note": "Refuted on the default processor (C88_refuted, C88_default); proved on the configurable one."
  },
  {
   "property": "C89",
   "status": "proved",
   "theorems": [
    "Txstatsd.C89_loadavg",
    "Txstatsd.C89_loadavg_error",
    "Txstatsd.C89_netdev",
    "Txstatsd.C89_netdev_alias",
    "Txstatsd.C89_netdev_error"
   ],
   "note": "From the lines of the file (splitlines is not modelled)."
  },
  {
   "property": "C90",
   "status": "partial",
   "theorems": [
    "Txstatsd.C90_since",
    "Txstatsd.C90_ages",
    "Txstatsd.C90_delay_partial",
    "Txstatsd.C90_refuted"
   ],
   "note": "Refuted after a late answer (C90_refuted); proved while none was late. C90_since says in every run what the delay is counted from, C90_ages which outstanding probes it covers. Times are exact rationals."
  },
  {
   "property": "C91",
   "status": "partial",
   "theorems": [
    "Txstatsd.C91_stop_partial",
    "Txstatsd.C91_refuted",
    "Txstatsd.C91_stop_aborts",
    "Txstatsd.C91_start_aborts",
    "Txstatsd.C91_left_running"
   ],
   "note": "Refuted for tasks without report function (C91_refuted, C91_left_running); proved when all have one."
  },
  {
   "property": "C92",
   "status": "proved",
   "theorems": [
    "Txstatsd.C92_processed_once",
    "Txstatsd.C92_no_loss"
   ],
   "note": ""
  },
  {
   "property": "C93",
   "status": "partial",
   "theorems": [
    "Txstatsd.C93_dump_partial",
    "Txstatsd.C93_compliant",
    "Txstatsd.C93_again",
    "Txstatsd.C93_refuted"
   ],
   "note": "Refuted with the default options (C93_refuted); C93_dump_partial holds without statsd-compliance, C93_compliant says what happens with it."
  },
  {
   "property": "C94",
   "status": "partial",
   "theorems": [
    "Txstatsd.C94_two_lines",
    "Txstatsd.C94_one_line_partial",
    "Txstatsd.C94_refuted"
   ],
   "note": "Refuted (C94_refuted): several lines in a datagram are one bad message (C94_two_lines); a single message with white space around is read (C94_one_line_partial)."
  },
  {
   "property": "C95",
   "status": "partial",
   "theorems": [
    "Txstatsd.C95_groups",
    "Txstatsd.C95_always",
    "Txstatsd.C95_inspector",
    "Txstatsd.C95_known_partial",
    "Txstatsd.C95_refuted"
   ],
   "note": "Refuted for misspelt names (C95_refuted); C95_groups/always/inspector say exactly what is scheduled."
  },
  {
   "property": "C96",
   "status": "proved",
   "theorems": [
    "Txstatsd.C96_reserved",
    "Txstatsd.C96_accepted"
   ],
   "note": ""
  },
  {
   "property": "C97",
   "status": "partial",
   "theorems": [
    "Txstatsd.C97_conserved",
    "Txstatsd.C97_limit",
    "Txstatsd.C97_limit_refuted",
    "Txstatsd.C97_lost_forever",
    "Txstatsd.C97_lost_refuted",
    "Txstatsd.C97_stranded_refuted",
    "Txstatsd.C97_undisturbed_partial",
    "Txstatsd.C97_delivered_partial"
   ],
   "note": "Refuted as stated (C97_limit_refuted, C97_lost_refuted, C97_stranded_refuted); conservation, the bound limit + threads and permanence of the loss are proved for all interleavings; the _partial theorems need that no write overlaps a call in the reactor's thread."
  },
  {
   "property": "C98",
   "status": "partial",
   "theorems": [
    "Txstatsd.C98_count",
    "Txstatsd.C98_expectation",
    "Txstatsd.C98_bias_partial",
    "Txstatsd.C98_refuted"
   ],
   "note": "Refuted as stated (C98_refuted): random() <= rate lets one value too many through; the exact expectation and the bound 1/(rN) on the bias are proved."
  },
  {
   "property": "C99",
   "status": "partial",
   "theorems": [
    "Txstatsd.C99_history",
    "Txstatsd.C99_backlog",
    "Txstatsd.C99_latest",
    "Txstatsd.C99_colon_refuted"
   ],
   "note": "Refuted without the condition on names (C99_colon_refuted); for legal names the reports are proved to act exactly as their messages (C99_history), with the latest value and the ever growing backlog of the default processor."
  },
  {
   "property": "C100",
   "status": "partial",
   "theorems": [
    "Txstatsd.C100_memory_refuted",
    "Txstatsd.C100_memory_swapped",
    "Txstatsd.C100_process_partial",
    "Txstatsd.C100_counters_partial",
    "Txstatsd.C100_more_fields",
    "Txstatsd.C100_cpu_partial",
    "Txstatsd.C100_percpu_partial"
   ],
   "note": "Refuted for the two memory metrics (C100_memory_refuted: psutil's order is resident size first); all other names are proved right."
  },
  {
   "property": "C101",
   "status": "partial",
   "theorems": [
    "Txstatsd.C101_repeated",
    "Txstatsd.C101_once_partial",
    "Txstatsd.C101_refuted"
   ],
   "note": "Refuted when a report's group is listed more than once (C101_refuted); holds when it runs once per reading."
  },
  {
   "property": "C102",
   "status": "proved",
   "theorems": [
    "Txstatsd.C102_timers",
    "Txstatsd.C102_counts"
   ],
   "note": ""
  },
  {
   "property": "C103",
   "status": "proved",
   "theorems": [
    "Txstatsd.C103_configurable",
    "Txstatsd.C103_default"
   ],
   "note": ""
  },
  {
   "property": "C104",
   "status": "proved",
   "theorems": [
    "Txstatsd.C104_timers"
   ],
   "note": ""
  },
  {
   "property": "C105",
   "status": "proved",
   "theorems": [
    "Txstatsd.C105_default",
    "Txstatsd.C105_configurable"
   ],
   "note": ""
  },
  {
   "property": "C106",
   "status": "proved",
   "theorems": [
    "Txstatsd.C106_uninterrupted",
    "Txstatsd.C106_terminates",
    "Txstatsd.C106_no_abort",
    "Txstatsd.C106_new_name_aborts"
   ],
   "note": ""
  },
  {
   "property": "C107",
   "status": "proved",
   "theorems": [
    "Txstatsd.C107_reading_aborts"
   ],
   "note": ""
  },
  {
   "property": "C108",
   "status": "proved",
   "theorems": [
    "Txstatsd.C108_doubles",
    "Txstatsd.C108_std_dev",
    "Txstatsd.C108_running_mean",
    "Txstatsd.C108_survives"
   ],
   "note": ""
  },
  {
   "property": "C109",
   "status": "proved",
   "theorems": [
    "Txstatsd.C109_percentiles"
   ],
   "note": ""
  },
  {
   "property": "C110",
   "status": "proved",
   "theorems": [
    "Txstatsd.C110_mean",
    "Txstatsd.C110_timer_section",
    "Txstatsd.C110_mean_at_most_upper_refuted"
   ],
   "note": "All parts are proved; the further claim 'the mean does not exceed the greatest duration' is refuted in doubles (C110_mean_at_most_upper_refuted)."
  },
  {
   "property": "C111",
   "status": "proved",
   "theorems": [
    "Txstatsd.C111_bins"
   ],
   "note": ""
  },
  {
   "property": "C112",
   "status": "partial",
   "theorems": [
    "Txstatsd.C112_total_partial",
    "Txstatsd.C112_unsampled",
    "Txstatsd.C112_count_partial",
    "Txstatsd.C112_total_exact_refuted"
   ],
   "note": "The full statement (the reported count is the sum) is false in double arithmetic: C112_total_exact_refuted. The _partial theorems bound the error; they assume that the contributions value * (1 / rate) are finite doubles with a sum of sizes at most 2^1000."
  },
  {
   "property": "C113",
   "status": "proved",
   "theorems": [
    "Txstatsd.C113_path",
    "Txstatsd.C113_unknown",
    "Txstatsd.C113_status",
    "Txstatsd.C113_list",
    "Txstatsd.C113_metrics",
    "Txstatsd.C113_methods",
    "Txstatsd.C113_port",
    "Txstatsd.C113_timers",
    "Txstatsd.C113_default"
   ],
   "note": "The traversal of the resource tree is modelled after twisted.web 11.1-15.4; bodies are kept as the data given to json.dumps. C113_methods and C113_unknown hold for every view of the processor."
  },
  {
   "property": "C114",
   "status": "partial",
   "theorems": [
    "Txstatsd.C114_page_partial",
    "Txstatsd.C114_refuted"
   ],
   "note": "C114_page_partial gives the exact answer in every case of a history with finite durations and completed flushes; the claim that it is always 200 is refuted (C114_refuted: one duration). Held values are those of the reservoir, all of the period if there are at most 1028."
  },
  {
   "property": "C115",
   "status": "proved",
   "theorems": [
    "Txstatsd.C115_default",
    "Txstatsd.C115_configurable",
    "Txstatsd.C115_start"
   ],
   "note": "Exact arithmetic for the durations; monotone clock. Threshold of C76."
  },
  {
   "property": "C116",
   "status": "partial",
   "theorems": [
    "Txstatsd.C116_shape",
    "Txstatsd.C116_value",
    "Txstatsd.C116_special",
    "Txstatsd.C116_close",
    "Txstatsd.C116_exact",
    "Txstatsd.C116_accepted",
    "Txstatsd.C116_decimal",
    "Txstatsd.C116_idempotent",
    "Txstatsd.C116_monotone",
    "Txstatsd.C116_refuted"
   ],
   "note": "That every double survives the text is refuted (C116_refuted, computed with the doubles of binary64); the other theorems are the part that holds."
  },
  {
   "property": "C117",
   "status": "proved",
   "theorems": [
    "Txstatsd.C117_rate",
    "Txstatsd.C117_small"
   ],
   "note": ""
  },
  {
   "property": "C118",
   "status": "proved",
   "theorems": [
    "Txstatsd.C118_reading",
    "Txstatsd.C118_self"
   ],
   "note": ""
  },
  {
   "property": "C119",
   "status": "proved",
   "theorems": [
    "Txstatsd.C119_served",
    "Txstatsd.C119_no_loss",
    "Txstatsd.C119_copies_refuted"
   ],
   "note": ""
  },
  {
   "property": "C120",
   "status": "proved",
   "theorems": [
    "Txstatsd.C120_shared",
    "Txstatsd.C120_mirrored"
   ],
   "note": ""
  },
  {
   "property": "C121",
   "status": "partial",
   "theorems": [
    "Txstatsd.C121_fate",
    "Txstatsd.C121_only_writes",
    "Txstatsd.C121_ready",
    "Txstatsd.C121_stopped",
    "Txstatsd.C121_recovers",
    "Txstatsd.C121_persists_partial",
    "Txstatsd.C121_counted_refuted",
    "Txstatsd.C121_persists_refuted"
   ],
   "note": "That every line not sent is counted, and that a started service always tries to connect, are refuted by witnesses; the rest is proved of every history."
  },
  {
   "property": "C122",
   "status": "proved",
   "theorems": [
    "Txstatsd.C122_sli",
    "Txstatsd.C122_counts"
   ],
   "note": ""
  },
  {
   "property": "C123",
   "status": "proved",
   "theorems": [
    "Txstatsd.C123_distinct",
    "Txstatsd.C123_silent"
   ],
   "note": ""
  },
  {
   "property": "C124",
   "status": "partial",
   "theorems": [
    "Txstatsd.C124_ready",
    "Txstatsd.C124_errors",
    "Txstatsd.C124_fired_once_refuted",
    "Txstatsd.C124_fired_once_partial",
    "Txstatsd.C124_harmless",
    "Txstatsd.C124_hello_twice"
   ],
   "note": "The expected companion, that no Deferred is fired twice, is false for UDP redirects to IP addresses: C124_fired_once_refuted; C124_errors says exactly when; C124_fired_once_partial holds without them. The readiness itself is proved in full (C124_ready)."
  },
  {
   "property": "C125",
   "status": "proved",
   "theorems": [
    "Txstatsd.C125_whole",
    "Txstatsd.C125_moderate",
    "Txstatsd.C125_schedule",
    "Txstatsd.C125_integers",
    "Txstatsd.C125_service",
    "Txstatsd.C125_rules",
    "Txstatsd.C125_shared"
   ],
   "note": ""
  },
  {
   "property": "C126",
   "status": "proved",
   "theorems": [
    "Txstatsd.C126_timers",
    "Txstatsd.C126_counts"
   ],
   "note": ""
  },
  {
   "property": "C127",
   "status": "proved",
   "theorems": [
    "Txstatsd.C127_report",
    "Txstatsd.C127_timers"
   ],
   "note": ""
  },
  {
   "property": "C128",
   "status": "proved",
   "theorems": [
    "Txstatsd.C128_default",
    "Txstatsd.C128_configurable"
   ],
   "note": ""
  },
  {
   "property": "C129",
   "status": "proved",
   "theorems": [
    "Txstatsd.C129_plugin_life"
   ],
   "note": ""
  },
  {
   "property": "C130",
   "status": "proved",
   "theorems": [
    "Txstatsd.C130_sli",
    "Txstatsd.C130_counts"
   ],
   "note": ""
  },
  {
   "property": "C131",
   "status": "proved",
   "theorems": [
    "Txstatsd.C131_distinct"
   ],
   "note": ""
  },
  {
   "property": "C132",
   "status": "partial",
   "theorems": [
    "Txstatsd.C132_names_partial",
    "Txstatsd.C132_refuted"
   ],
   "note": "Refuted for prefixes that end in a dot; proved for all others."
  },
  {
   "property": "C133",
   "status": "partial",
   "theorems": [
    "Txstatsd.C133_never_raises",
    "Txstatsd.C133_no_room",
    "Txstatsd.C133_top",
    "Txstatsd.C133_ties",
    "Txstatsd.C133_move_partial",
    "Txstatsd.C133_order_refuted"
   ],
   "note": "Order of equal times refuted (underflow); never raises and keeps the highest aged priorities for all histories."
  },
  {
   "property": "C134",
   "status": "partial",
   "theorems": [
    "Txstatsd.C134_numbers",
    "Txstatsd.C134_percentiles",
    "Txstatsd.C134_report_refuted",
    "Txstatsd.C134_timer",
    "Txstatsd.C134_report_type_error_partial"
   ],
   "note": "report of a histogram never returns; all numbers, percentiles and timer accessors proved."
  },
  {
   "property": "C135",
   "status": "partial",
   "theorems": [
    "Txstatsd.C135_sends_partial",
    "Txstatsd.C135_raises",
    "Txstatsd.C135_refuted",
    "Txstatsd.C135_server",
    "Txstatsd.C135_refused",
    "Txstatsd.C135_unconnected",
    "Txstatsd.C135_counted"
   ],
   "note": "Refuted for byte strings with bytes above 127 (C135_refuted, C135_raises); proved for all mixtures of unicode and ASCII byte strings (C135_sends_partial), and for the server's side."
  },
  {
   "property": "C136",
   "status": "partial",
   "theorems": [
    "Txstatsd.C136_level0",
    "Txstatsd.C136_half_partial",
    "Txstatsd.C136_paired",
    "Txstatsd.C136_unseen",
    "Txstatsd.C136_refuted"
   ],
   "note": "Refuted for items in which every byte occurs an even number of times (C136_refuted, C136_paired, C136_unseen); the chance of one half is proved for all other items (C136_half_partial). Tables are pairs of arbitrary 32-bit tables; random.randint(0, 0xFFFFFFFE) leaves out one value."
  },
  {
   "property": "C137",
   "status": "proved",
   "theorems": [
    "Txstatsd.C137_one_byte",
    "Txstatsd.C137_suffix",
    "Txstatsd.C137_bound"
   ],
   "note": ""
  },
  {
   "property": "C138",
   "status": "proved",
   "theorems": [
    "Txstatsd.C138_hull",
    "Txstatsd.C138_constant",
    "Txstatsd.C138_idle",
    "Txstatsd.C138_zero_interval",
    "Txstatsd.C138_alphas"
   ],
   "note": ""
  },
  {
   "property": "C139",
   "status": "proved",
   "theorems": [
    "Txstatsd.C139_tiling",
    "Txstatsd.C139_lines",
    "Txstatsd.C139_lines_exact",
    "Txstatsd.C139_lines_mono",
    "Txstatsd.C139_status_sound",
    "Txstatsd.C139_status_complete"
   ],
   "note": ""
  },
  {
   "property": "C140",
   "status": "proved",
   "theorems": [
    "Txstatsd.C140_value",
    "Txstatsd.C140_whole",
    "Txstatsd.C140_windows",
    "Txstatsd.C140_flush"
   ],
   "note": ""
  },
  {
   "property": "C141",
   "status": "partial",
   "theorems": [
    "Txstatsd.C141_one_thread",
    "Txstatsd.C141_service",
    "Txstatsd.C141_loop_partial",
    "Txstatsd.C141_after_stop",
    "Txstatsd.C141_restart_refuted",
    "Txstatsd.C141_dump"
   ],
   "note": "A stopped and restarted inspector never inspects again (C141_restart_refuted)."
  },
  {
   "property": "C142",
   "status": "partial",
   "theorems": [
    "Txstatsd.C142_lines",
    "Txstatsd.C142_alone",
    "Txstatsd.C142_memory_partial",
    "Txstatsd.C142_load_partial",
    "Txstatsd.C142_missing",
    "Txstatsd.C142_traffic",
    "Txstatsd.C142_stuck",
    "Txstatsd.C142_names",
    "Txstatsd.C142_pools",
    "Txstatsd.C142_recovery_refuted"
   ],
   "note": "The counter reports end for good at their first failure (C142_recovery_refuted)."
  },
  {
   "property": "C143",
   "status": "partial",
   "theorems": [
    "Txstatsd.C143_text",
    "Txstatsd.C143_unambiguous",
    "Txstatsd.C143_status_default",
    "Txstatsd.C143_status_configurable",
    "Txstatsd.C143_names",
    "Txstatsd.C143_timer_partial",
    "Txstatsd.C143_refuted"
   ],
   "note": "A timer that lost an infinite duration from its reservoir shows Infinity, which is not JSON (C143_refuted)."
  },
  {
   "property": "C144",
   "status": "proved",
   "theorems": [
    "Txstatsd.C144_shortest",
    "Txstatsd.C144_roundtrip",
    "Txstatsd.C144_injective",
    "Txstatsd.C144_shape",
    "Txstatsd.C144_special"
   ],
   "note": ""
  },
  {
   "property": "C145",
   "status": "proved",
   "theorems": [
    "Txstatsd.C145_receive",
    "Txstatsd.C145_flush",
    "Txstatsd.C145_configurable",
    "Txstatsd.C145_status",
    "Txstatsd.C145_status_configurable",
    "Txstatsd.C145_within"
   ],
   "note": "Exact arithmetic (Rounding with Exact); default processor with plugins whose names are not the server's own (Quiet)."
  },
  {
   "property": "C146",
   "status": "proved",
   "theorems": [
    "Txstatsd.C146_first_decides",
    "Txstatsd.C146_never",
    "Txstatsd.C146_consistent",
    "Txstatsd.C146_sli"
   ],
   "note": "Arguments are numbers or texts; tuples and objects with their own formatting are not modelled."
  },
  {
   "property": "C147",
   "status": "proved",
   "theorems": [
    "Txstatsd.C147_gauge",
    "Txstatsd.C147_counter"
   ],
   "note": "The reporters as such; inside the configurable processor see C28."
  },
  {
   "property": "C148",
   "status": "proved",
   "theorems": [
    "Txstatsd.C148_timers",
    "Txstatsd.C148_counters",
    "Txstatsd.C148_counters_near",
    "Txstatsd.C148_counters_whole",
    "Txstatsd.C148_gauges",
    "Txstatsd.C148_listing",
    "Txstatsd.C148_repeated",
    "Txstatsd.C148_counters_refuted",
    "Txstatsd.C148_gauges_refuted",
    "Txstatsd.C148_repeated_refuted",
    "Txstatsd.C148_meters",
    "Txstatsd.C148_metersC"
   ],
   "note": "C148_counters_refuted, C148_gauges_refuted and C148_repeated_refuted mark where the statement ends: counts in doubles, the order of gauge readings, repetitions on the default processor."
  },
  {
   "property": "C149",
   "status": "proved",
   "theorems": [
    "Txstatsd.C149_total",
    "Txstatsd.C149_one",
    "Txstatsd.C149_one_refuted",
    "Txstatsd.C149_latest",
    "Txstatsd.C149_meters",
    "Txstatsd.C149_timers",
    "Txstatsd.C149_gauges"
   ],
   "note": "C149_one_refuted: \"/x\" and \"-x\" are one counter at the server but two names for the ring."
  },
  {
   "property": "C150",
   "status": "proved",
   "theorems": [
    "Txstatsd.C150_receive",
    "Txstatsd.C150_flush",
    "Txstatsd.C150_page",
    "Txstatsd.C150_page_configurable"
   ],
   "note": ""
  },
  {
   "property": "C151",
   "status": "proved",
   "theorems": [
    "Txstatsd.C151_value",
    "Txstatsd.C151_values",
    "Txstatsd.C151_alike",
    "Txstatsd.C151_missed",
    "Txstatsd.C151_met",
    "Txstatsd.C151_level",
    "Txstatsd.C151_run_short",
    "Txstatsd.C151_run_long"
   ],
   "note": ""
  },
  {
   "property": "C152",
   "status": "proved",
   "theorems": [
    "Txstatsd.C152_long",
    "Txstatsd.C152_short",
    "Txstatsd.C152_above",
    "Txstatsd.C152_below",
    "Txstatsd.C152_million",
    "Txstatsd.C152_reports"
   ],
   "note": ""
  },
  {
   "property": "C153",
   "status": "partial",
   "theorems": [
    "Txstatsd.C153_draws",
    "Txstatsd.C153_choices",
    "Txstatsd.C153_fresh",
    "Txstatsd.C153_two",
    "Txstatsd.C153_refuted",
    "Txstatsd.C153_refuted_function",
    "Txstatsd.C153_partial"
   ],
   "note": "refuted: equal tables can be drawn; hash(data) draws a new table for every call"
  },
  {
   "property": "C154",
   "status": "proved",
   "theorems": [
    "Txstatsd.C154_certain",
    "Txstatsd.C154_newer",
    "Txstatsd.C154_equal",
    "Txstatsd.C154_decay",
    "Txstatsd.C154_five_minutes",
    "Txstatsd.C154_two"
   ],
   "note": ""
  },
  {
   "property": "C155",
   "status": "partial",
   "theorems": [
    "Txstatsd.C155_share_partial",
    "Txstatsd.C155_pair",
    "Txstatsd.C155_order",
    "Txstatsd.C155_first",
    "Txstatsd.C155_default_partial",
    "Txstatsd.C155_refuted"
   ],
   "note": "Exact equality of the chances is refuted (ties go to the node that comes first); proved up to (c - 1) * replicas / positions."
  },
  {
   "property": "C156",
   "status": "partial",
   "theorems": [
    "Txstatsd.C156_times",
    "Txstatsd.C156_on_time",
    "Txstatsd.C156_zero",
    "Txstatsd.C156_one_flush_per_call",
    "Txstatsd.C156_errors",
    "Txstatsd.C156_stopped_partial",
    "Txstatsd.C156_refuted"
   ],
   "note": "Refuted as stated: C156_refuted sends a datapoint after stopService, from a flush that had begun. C156_stopped_partial has the part that holds: no flush begins while stopped."
  },
  {
   "property": "C157",
   "status": "proved",
   "theorems": [
    "Txstatsd.C157_load_configurable",
    "Txstatsd.C157_memory",
    "Txstatsd.C157_memory_configurable",
    "Txstatsd.C157_load",
    "Txstatsd.C157_traffic"
   ],
   "note": ""
  },
  {
   "property": "C158",
   "status": "proved",
   "theorems": [
    "Txstatsd.C158_mean",
    "Txstatsd.C158_seldom",
    "Txstatsd.C158_percentile_above",
    "Txstatsd.C158_percentile_below"
   ],
   "note": ""
  },
  {
   "property": "C159",
   "status": "proved",
   "theorems": [
    "Txstatsd.C159_seldom"
   ],
   "note": ""
  },
  {
   "property": "C160",
   "status": "partial",
   "theorems": [
    "Txstatsd.C160_percent_configurable",
    "Txstatsd.C160_memory_configurable",
    "Txstatsd.C160_connections_configurable",
    "Txstatsd.C160_alone",
    "Txstatsd.C160_process",
    "Txstatsd.C160_process_configurable",
    "Txstatsd.C160_percent",
    "Txstatsd.C160_percent_exact",
    "Txstatsd.C160_memory",
    "Txstatsd.C160_connections_partial",
    "Txstatsd.C160_connections_last",
    "Txstatsd.C160_connections_none",
    "Txstatsd.C160_io",
    "Txstatsd.C160_connections_refuted"
   ],
   "note": "The claim about states of connections is refuted (C160_connections_refuted): a state that no connection is in is not reported, so its gauge keeps the old number. Proved for states that some connection is in; what is shown in every other case is C160_connections_last and C160_connections_none; all other parts are proved in full."
  },
  {
   "property": "C161",
   "status": "proved",
   "theorems": [
    "Txstatsd.C161_process",
    "Txstatsd.C161_process_configurable",
    "Txstatsd.C161_memory",
    "Txstatsd.C161_times",
    "Txstatsd.C161_on_time",
    "Txstatsd.C161_stopped",
    "Txstatsd.C161_errors"
   ],
   "note": ""
  },
  {
   "property": "C162",
   "status": "partial",
   "theorems": [
    "Txstatsd.C162_one_at_a_time_partial",
    "Txstatsd.C162_outcomes",
    "Txstatsd.C162_arrival",
    "Txstatsd.C162_times",
    "Txstatsd.C162_stopped_partial",
    "Txstatsd.C162_refuted",
    "Txstatsd.C162_stopped_refuted"
   ],
   "note": "C162_refuted, C162_stopped_refuted: a start while a result is awaited makes the function overlap itself, and a later stop cancels only one of the planned calls"
  },
  {
   "property": "C163",
   "status": "proved",
   "theorems": [
    "Txstatsd.C163_process",
    "Txstatsd.C163_machine"
   ],
   "note": ""
  },
  {
   "property": "C164",
   "status": "partial",
   "theorems": [
    "Txstatsd.C164_outcomes",
    "Txstatsd.C164_close",
    "Txstatsd.C164_positions_partial",
    "Txstatsd.C164_seldom",
    "Txstatsd.C164_refuted"
   ],
   "note": "Exact equality of the chances is refuted for 64-bit ints (C164_refuted); C164_close bounds the difference for every question about the held positions, C164_positions_partial and C164_seldom are its consequences. The draws are taken as independent and uniform on 1..maxint."
  },
  {
   "property": "C165",
   "status": "partial",
   "theorems": [
    "Txstatsd.C165_reads",
    "Txstatsd.C165_declared",
    "Txstatsd.C165_options",
    "Txstatsd.C165_operands",
    "Txstatsd.C165_unknown_long",
    "Txstatsd.C165_unknown_short",
    "Txstatsd.C165_missing",
    "Txstatsd.C165_all",
    "Txstatsd.C165_wins_partial",
    "Txstatsd.C165_abbreviation_partial",
    "Txstatsd.C165_refuted"
   ],
   "note": "Refuted for abbreviations of config and of the carbon-cache options (C165_refuted), which usage.Options gathers both as parameter and as method; everything else is proved. getopt is modelled from Python's source, the gathering from Twisted's; leaving the program on --help and --version is an error in the model."
  },
  {
   "property": "C166",
   "status": "partial",
   "theorems": [
    "Txstatsd.C166_reads",
    "Txstatsd.C166_last",
    "Txstatsd.C166_headless",
    "Txstatsd.C166_garbage",
    "Txstatsd.C166_indented",
    "Txstatsd.C166_rejected",
    "Txstatsd.C166_routing",
    "Txstatsd.C166_start",
    "Txstatsd.C166_absent",
    "Txstatsd.C166_file_wins",
    "Txstatsd.C166_plain_partial",
    "Txstatsd.C166_refuted"
   ],
   "note": "A value of one line is not always read as written (C166_refuted: the text after a first ; that follows white space is a comment, and a pair of quotes is empty); C166_plain_partial says exactly which values are."
  },
  {
   "property": "C167",
   "status": "partial",
   "theorems": [
    "Txstatsd.C167_wiped",
    "Txstatsd.C167_missed",
    "Txstatsd.C167_partial",
    "Txstatsd.C167_read",
    "Txstatsd.C167_apart",
    "Txstatsd.C167_refuted"
   ],
   "note": "False of the code as C24 is, and also because a counter that a client sends can be reported under the name of a receive count (C167_refuted). Proved: C167_wiped (every schedule), C167_read (every schedule, if names do not collide), C167_missed (what is missed, exactly), C167_partial (nothing is missed if nothing arrives meanwhile), C167_apart (when names cannot collide)."
  },
  {
   "property": "C168",
   "status": "partial",
   "theorems": [
    "Txstatsd.C168_life",
    "Txstatsd.C168_first",
    "Txstatsd.C168_wait",
    "Txstatsd.C168_next_partial",
    "Txstatsd.C168_stuck",
    "Txstatsd.C168_refuted"
   ],
   "note": "Refuted for draws more than 1/j standard deviations (about 8.4) below the mean (C168_refuted, C168_stuck); proved for draws within Z standard deviations with e(1 - jZ) >= 1, that is, up to Z = 5.28. Factor, jitter and largest delay are Twisted's defaults, which the factory inherits; times are exact."
  },
  {
   "property": "C169",
   "status": "proved",
   "theorems": [
    "Txstatsd.C169_options",
    "Txstatsd.C169_creates",
    "Txstatsd.C169_parts",
    "Txstatsd.C169_once",
    "Txstatsd.C169_kind",
    "Txstatsd.C169_reports",
    "Txstatsd.C169_given",
    "Txstatsd.C169_listens",
    "Txstatsd.C169_wiring",
    "Txstatsd.C169_default",
    "Txstatsd.C169_example",
    "Txstatsd.C169_no_loss"
   ],
   "note": ""
  },
  {
   "property": "C170",
   "status": "partial",
   "theorems": [
    "Txstatsd.C170_sent",
    "Txstatsd.C170_failures",
    "Txstatsd.C170_walkers",
    "Txstatsd.C170_levels_partial",
    "Txstatsd.C170_levels_refuted"
   ],
   "note": "proved: what the client writes, its failures, and that the counts make up a walker's position, exactly, at every moment. C170_levels_partial: the counts for the process's size make up the sum of the sizes reported. The expectation that the size shown is the one last reported is false: C170_levels_refuted"
  },
  {
   "property": "C171",
   "status": "partial",
   "theorems": [
    "Txstatsd.C171_io_partial",
    "Txstatsd.C171_cpu_partial",
    "Txstatsd.C171_traffic_partial",
    "Txstatsd.C171_refuted",
    "Txstatsd.C171_twice_refuted"
   ],
   "note": "C171_io_partial, C171_cpu_partial and C171_traffic_partial: each completed flush shows the difference between the last two reports. That the differences add up, and that none is shown twice, is false: C171_refuted, C171_twice_refuted"
  },
  {
   "property": "C172",
   "status": "partial",
   "theorems": [
    "Txstatsd.C172_default",
    "Txstatsd.C172_configurable",
    "Txstatsd.C172_rules",
    "Txstatsd.C172_prefix",
    "Txstatsd.C172_dot_partial",
    "Txstatsd.C172_names",
    "Txstatsd.C172_counts",
    "Txstatsd.C172_dot_refuted"
   ],
   "note": "The expectation that no name begins with a dot is refuted by C172_dot_refuted (empty prefix without compliance); C172_dot_partial has the part that holds. Rules are assumed to be sound, as in C119. Everything else is proved."
  },
  {
   "property": "C173",
   "status": "partial",
   "theorems": [
    "Txstatsd.C173_created_partial",
    "Txstatsd.C173_createdC_partial",
    "Txstatsd.C173_default_partial",
    "Txstatsd.C173_configurable_partial",
    "Txstatsd.C173_shipped_partial",
    "Txstatsd.C173_shippedC_partial",
    "Txstatsd.C173_default_refuted",
    "Txstatsd.C173_configurable_refuted",
    "Txstatsd.C173_shipped_refuted",
    "Txstatsd.C173_shippedC_refuted"
   ],
   "note": "Refuted in general by C173_default_refuted, C173_configurable_refuted, C173_shipped_refuted and C173_shippedC_refuted; the other theorems have the conditions under which it holds: C173_default_partial and C173_configurable_partial for any plugins while they are unused, C173_shipped_partial and C173_shippedC_partial for the two plugins that come with the program, used in any way. C173_created_partial and C173_createdC_partial need no hypothesis about labels, since C175 gives it."
  },
  {
   "property": "C174",
   "status": "partial",
   "theorems": [
    "Txstatsd.C174_counts",
    "Txstatsd.C174_balance",
    "Txstatsd.C174_gauges",
    "Txstatsd.C174_everything_partial",
    "Txstatsd.C174_everythingC_partial",
    "Txstatsd.C174_shipped_partial",
    "Txstatsd.C174_shippedC_partial",
    "Txstatsd.C174_begun_partial",
    "Txstatsd.C174_begun_refuted",
    "Txstatsd.C174_counts_refuted",
    "Txstatsd.C174_created_partial"
   ],
   "note": "That flushes always have different timestamps is refuted by C174_begun_refuted, and that carbon keeps every count in any case by C174_counts_refuted; the conditions under which it does are in the other theorems. How carbon stores points is an assumption, stated as carbonKeeps. C174_shipped_partial, C174_shippedC_partial and C174_created_partial say the same with the shipped plugins in use."
  },
  {
   "property": "C175",
   "status": "proved",
   "theorems": [
    "Txstatsd.C175_labels",
    "Txstatsd.C175_patterns",
    "Txstatsd.C175_conditions",
    "Txstatsd.C175_metric",
    "Txstatsd.C175_created",
    "Txstatsd.C175_counts",
    "Txstatsd.C175_countsC"
   ],
   "note": ""
  },
  {
   "property": "C176",
   "status": "proved",
   "theorems": [
    "Txstatsd.C176_total",
    "Txstatsd.C176_whole",
    "Txstatsd.C176_calls",
    "Txstatsd.C176_programs",
    "Txstatsd.C176_one",
    "Txstatsd.C176_points",
    "Txstatsd.C176_pointsC"
   ],
   "note": ""
  }
 ]
}