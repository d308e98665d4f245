{
 "C15": {
  "status": "partial",
  "note": "False of the code as users expect it: the deque of gauge readings is never emptied (processor.py:201-203, 326-331), so every reading is emitted again by every flush. C15_backlog states what the code does; C15_refuted is the counterexample; C15_once_partial is the case of a single reading."
 },
 "C24": {
  "status": "partial",
  "note": "False of the code: a message handled while flush_metrics_summary is emitting the receive statistics is wiped by the final clear without having been reported (processor.py:359-372). C24_refuted is a concrete schedule; C24_receive_partial proves the balance for schedules in which nothing arrives and no other flush advances during that loop. C24_missed counts the messages lost when messages of known types do arrive during the loop. In every schedule: counts are stored or wiped (C24_wiped), and what is reported is what flushes read (C24_read), so C24_balance. C24_twice_refuted: counts can also be reported twice, when a flush that has read them fails because a new type arrived."
 },
 "C31": {
  "note": "Exact arithmetic. The claimed failure for negative values is C31_marker_refuted; C31_variance gives the exact condition under which the result is right."
 },
 "C36": {
  "note": "The draws are the residues r_k < k, taken as equally likely; C164 has the bias of randint(1, maxint) % k."
 },
 "C37": {
  "note": "Exact arithmetic over an ordered field with any positive exp satisfying exp(a+b)=exp(a)exp(b); Real.exp is one (realExp)."
 },
 "C58": {
  "status": "partial",
  "note": "False with one replica per node: the walk of get_nodes skips its last entry (C58_refuted). C58_walk_partial describes the walk for any replica count; C58_complete proves the full listing for two or more replicas (the default is 1024)."
 },
 "C59": {
  "note": "Names are ASCII; the sharded client's errors (empty ring, index error of a bad metric line) are C59_errors."
 },
 "C25": {
  "note": "Readings are those whose first field parses as a float; the sample rate is ignored by this processor."
 },
 "C26": {
  "note": "C26_poison and C26_survives (exact arithmetic, no plugins) prove the statement; C26_refuted shows that the expectation named in it fails."
 },
 "C28": {
  "status": "partial",
  "note": "The expectation is false of the code: C28_refuted. C28_listing_partial says exactly what the inherited get_metric_names does with the gauge dict (processor.py:117)."
 },
 "C29": {
  "note": "Exact arithmetic for the values; sqrt is uninterpreted, the draws of the reservoir arbitrary. C29_flush places the report in the flush of a processor."
 },
 "C65": {
  "note": "Counters by integers, exact up to 2^53; floats of gauges, meters and timings are printed by an arbitrary function whose texts are numbers. Unsampled calls (rates: C66, C67, C70)."
 },
 "C67": {
  "status": "partial",
  "note": "False of the code as users expect it (C67_refuted, C67_kind_refuted): the cached object keeps the rate and class of the first call for a name. C67_first_rate states what the code does; C67_own_rate_partial proves the expectation for histories in which the calls for the name agree in kind and rate."
 },
 "C69": {
  "note": "Exact arithmetic; Metrics (not ExtendedMetrics), unsampled calls."
 },
 "C70": {
  "status": "partial",
  "note": "False of the code (C70_refuted): a rate that prints as 1e-05 is read as 1. C70_exponent states what the server reads; C70_plain_rate_partial proves the expectation for rates printed as digits and dots."
 },
 "C50": {
  "status": "partial",
  "note": "False of the code: rebuild_message ignores its type argument (processor.py:69-70), so a redirect after set_metric_type sends the original type (C50_refuted). C50_original_type states what is sent for every rule list; C50_redirect_type_partial is the case without set_metric_type."
 },
 "C51": {
  "note": "The receiver is Twisted's LineReceiver with a handler that returns None; MAX_LENGTH (16384) bounds the lines. The server's own TCP handler returns a true value: see C80."
 },
 "C52": {
  "status": "partial",
  "note": "False of the code: resumeProducing calls the log module (router.py:142-150). C52_refuted is the counterexample, C52_stuck what happens in every schedule, C52_flow_partial the case without a pause."
 },
 "C47": {
  "note": "Regular expressions of rewrite rules are arbitrary functions. Rules are Sound: no character class in patterns, no redirect without a service (C47_inert_raises shows what that does), substitution that does not raise."
 },
 "C77": {
  "note": "At the level of the calls of datagramReceived and lineReceived. Over a TCP stream only the first ordinary line reaches lineReceived: see C80."
 },
 "C80": {
  "status": "partial",
  "note": "False of the code (protocol.py:64-71 with Twisted 11.1-15.4, whose LineReceiver and reactor behaviour on a true return value is modelled in Model/Tcp.lean): C80_refuted is the counterexample, C80_first_line_only what happens for every stream and chunking, C80_single_line_partial the case of one line per connection."
 },
 "C43": {
  "status": "partial",
  "note": "Refuted: the full statement is false of the code. C43_refuted gives a counter that saw nothing and reports 1; C43_empty_window_partial shows every empty window is estimated as 1."
 },
 "C78": {
  "status": "partial",
  "note": "Refuted: C78_refuted (an SLI message under a name first used with pd is not counted). C78_owner says who gets the message, C78_first who builds the metric; what holds of the isolation is C78_other_names_partial and C78_count_partial."
 },
 "C81": {
  "status": "partial",
  "note": "Refuted: C81_refuted. C81_client_sends and C81_server_rejects describe the two ends in general; C81_plugin_type_partial is what works."
 },
 "C83": {
  "status": "partial",
  "note": "Refuted: C83_refuted (rule of kind metric). C83_callable_partial covers all other kinds."
 },
 "C71": {
  "status": "partial",
  "note": "Refuted: an option given by its short name is overwritten by the file (C71_refuted, C71_file_wins). Partial theorems: options given by their long names win."
 },
 "C76": {
  "note": "The threshold theorem is the statement; the check a reader would expect (both in seconds) is refuted (C76_refuted), with C76_sound_partial and C76_lax. Exact arithmetic."
 },
 "C85": {
  "status": "partial",
  "note": "Refuted for intervals that are not whole seconds (C85_refuted); proved for whole seconds."
 },
 "C86": {
  "status": "partial",
  "note": "Refuted: with two hosts and no ports only the first is connected to (C86_refuted); the exact number of connections is C86_count."
 },
 "C88": {
  "status": "partial",
  "note": "Refuted on the default processor (C88_refuted, C88_default); proved on the configurable one."
 },
 "C90": {
  "status": "partial",
  "note": "Refuted after a late answer (C90_refuted); proved while none was late. C90_since says in every run what the delay is counted from, C90_ages which outstanding probes it covers. Times are exact rationals."
 },
 "C91": {
  "status": "partial",
  "note": "Refuted for tasks without report function (C91_refuted, C91_left_running); proved when all have one."
 },
 "C87": {
  "note": "C87_ambiguous shows the stated exception is real."
 },
 "C89": {
  "note": "From the lines of the file (splitlines is not modelled)."
 },
 "C93": {
  "status": "partial",
  "note": "Refuted with the default options (C93_refuted); C93_dump_partial holds without statsd-compliance, C93_compliant says what happens with it."
 },
 "C94": {
  "status": "partial",
  "note": "Refuted (C94_refuted): several lines in a datagram are one bad message (C94_two_lines); a single message with white space around is read (C94_one_line_partial)."
 },
 "C95": {
  "status": "partial",
  "note": "Refuted for misspelt names (C95_refuted); C95_groups/always/inspector say exactly what is scheduled."
 },
 "C97": {
  "status": "partial",
  "note": "Refuted as stated (C97_limit_refuted, C97_lost_refuted, C97_stranded_refuted); conservation, the bound limit + threads and permanence of the loss are proved for all interleavings; the _partial theorems need that no write overlaps a call in the reactor's thread."
 },
 "C98": {
  "status": "partial",
  "note": "Refuted as stated (C98_refuted): random() <= rate lets one value too many through; the exact expectation and the bound 1/(rN) on the bias are proved."
 },
 "C99": {
  "status": "partial",
  "note": "Refuted without the condition on names (C99_colon_refuted); for legal names the reports are proved to act exactly as their messages (C99_history), with the latest value and the ever growing backlog of the default processor."
 },
 "C100": {
  "status": "partial",
  "note": "Refuted for the two memory metrics (C100_memory_refuted: psutil's order is resident size first); all other names are proved right."
 },
 "C101": {
  "status": "partial",
  "note": "Refuted when a report's group is listed more than once (C101_refuted); holds when it runs once per reading."
 },
 "C110": {
  "note": "All parts are proved; the further claim 'the mean does not exceed the greatest duration' is refuted in doubles (C110_mean_at_most_upper_refuted)."
 },
 "C112": {
  "status": "partial",
  "note": "The full statement (the reported count is the sum) is false in double arithmetic: C112_total_exact_refuted. The _partial theorems bound the error; they assume that the contributions value * (1 / rate) are finite doubles with a sum of sizes at most 2^1000."
 },
 "C113": {
  "note": "The traversal of the resource tree is modelled after twisted.web 11.1-15.4; bodies are kept as the data given to json.dumps. C113_methods and C113_unknown hold for every view of the processor."
 },
 "C114": {
  "status": "partial",
  "note": "C114_page_partial gives the exact answer in every case of a history with finite durations and completed flushes; the claim that it is always 200 is refuted (C114_refuted: one duration). Held values are those of the reservoir, all of the period if there are at most 1028."
 },
 "C115": {
  "note": "Exact arithmetic for the durations; monotone clock. Threshold of C76."
 },
 "C116": {
  "status": "partial",
  "note": "That every double survives the text is refuted (C116_refuted, computed with the doubles of binary64); the other theorems are the part that holds."
 },
 "C121": {
  "status": "partial",
  "note": "That every line not sent is counted, and that a started service always tries to connect, are refuted by witnesses; the rest is proved of every history."
 },
 "C124": {
  "status": "partial",
  "note": "The expected companion, that no Deferred is fired twice, is false for UDP redirects to IP addresses: C124_fired_once_refuted; C124_errors says exactly when; C124_fired_once_partial holds without them. The readiness itself is proved in full (C124_ready)."
 },
 "C132": {
  "status": "partial",
  "note": "Refuted for prefixes that end in a dot; proved for all others."
 },
 "C133": {
  "status": "partial",
  "note": "Order of equal times refuted (underflow); never raises and keeps the highest aged priorities for all histories."
 },
 "C134": {
  "status": "partial",
  "note": "report of a histogram never returns; all numbers, percentiles and timer accessors proved."
 },
 "C135": {
  "status": "partial",
  "note": "Refuted for byte strings with bytes above 127 (C135_refuted, C135_raises); proved for all mixtures of unicode and ASCII byte strings (C135_sends_partial), and for the server's side."
 },
 "C136": {
  "status": "partial",
  "note": "Refuted for items in which every byte occurs an even number of times (C136_refuted, C136_paired, C136_unseen); the chance of one half is proved for all other items (C136_half_partial). Tables are pairs of arbitrary 32-bit tables; random.randint(0, 0xFFFFFFFE) leaves out one value."
 },
 "C141": {
  "status": "partial",
  "note": "A stopped and restarted inspector never inspects again (C141_restart_refuted)."
 },
 "C142": {
  "status": "partial",
  "note": "The counter reports end for good at their first failure (C142_recovery_refuted)."
 },
 "C143": {
  "status": "partial",
  "note": "A timer that lost an infinite duration from its reservoir shows Infinity, which is not JSON (C143_refuted)."
 },
 "C145": {
  "status": "proved",
  "note": "Exact arithmetic (Rounding with Exact); default processor with plugins whose names are not the server's own (Quiet)."
 },
 "C146": {
  "status": "proved",
  "note": "Arguments are numbers or texts; tuples and objects with their own formatting are not modelled."
 },
 "C147": {
  "status": "proved",
  "note": "The reporters as such; inside the configurable processor see C28."
 },
 "C148": {
  "note": "C148_counters_refuted, C148_gauges_refuted and C148_repeated_refuted mark where the statement ends: counts in doubles, the order of gauge readings, repetitions on the default processor."
 },
 "C149": {
  "note": "C149_one_refuted: \"/x\" and \"-x\" are one counter at the server but two names for the ring."
 },
 "C153": {
  "status": "partial",
  "note": "refuted: equal tables can be drawn; hash(data) draws a new table for every call"
 },
 "C155": {
  "status": "partial",
  "note": "Exact equality of the chances is refuted (ties go to the node that comes first); proved up to (c - 1) * replicas / positions."
 },
 "C156": {
  "status": "partial",
  "note": "Refuted as stated: C156_refuted sends a datapoint after stopService, from a flush that had begun. C156_stopped_partial has the part that holds: no flush begins while stopped."
 },
 "C160": {
  "status": "partial",
  "note": "The claim about states of connections is refuted (C160_connections_refuted): a state that no connection is in is not reported, so its gauge keeps the old number. Proved for states that some connection is in; what is shown in every other case is C160_connections_last and C160_connections_none; all other parts are proved in full."
 },
 "C162": {
  "status": "partial",
  "note": "C162_refuted, C162_stopped_refuted: a start while a result is awaited makes the function overlap itself, and a later stop cancels only one of the planned calls"
 },
 "C164": {
  "status": "partial",
  "note": "Exact equality of the chances is refuted for 64-bit ints (C164_refuted); C164_close bounds the difference for every question about the held positions, C164_positions_partial and C164_seldom are its consequences. The draws are taken as independent and uniform on 1..maxint."
 },
 "C165": {
  "status": "partial",
  "note": "Refuted for abbreviations of config and of the carbon-cache options (C165_refuted), which usage.Options gathers both as parameter and as method; everything else is proved. getopt is modelled from Python's source, the gathering from Twisted's; leaving the program on --help and --version is an error in the model."
 },
 "C166": {
  "status": "partial",
  "note": "A value of one line is not always read as written (C166_refuted: the text after a first ; that follows white space is a comment, and a pair of quotes is empty); C166_plain_partial says exactly which values are."
 },
 "C167": {
  "status": "partial",
  "note": "False of the code as C24 is, and also because a counter that a client sends can be reported under the name of a receive count (C167_refuted). Proved: C167_wiped (every schedule), C167_read (every schedule, if names do not collide), C167_missed (what is missed, exactly), C167_partial (nothing is missed if nothing arrives meanwhile), C167_apart (when names cannot collide)."
 },
 "C168": {
  "status": "partial",
  "note": "Refuted for draws more than 1/j standard deviations (about 8.4) below the mean (C168_refuted, C168_stuck); proved for draws within Z standard deviations with e(1 - jZ) >= 1, that is, up to Z = 5.28. Factor, jitter and largest delay are Twisted's defaults, which the factory inherits; times are exact."
 },
 "C170": {
  "status": "partial",
  "note": "proved: what the client writes, its failures, and that the counts make up a walker's position, exactly, at every moment. C170_levels_partial: the counts for the process's size make up the sum of the sizes reported. The expectation that the size shown is the one last reported is false: C170_levels_refuted"
 },
 "C171": {
  "status": "partial",
  "note": "C171_io_partial, C171_cpu_partial and C171_traffic_partial: each completed flush shows the difference between the last two reports. That the differences add up, and that none is shown twice, is false: C171_refuted, C171_twice_refuted"
 },
 "C172": {
  "status": "partial",
  "note": "The expectation that no name begins with a dot is refuted by C172_dot_refuted (empty prefix without compliance); C172_dot_partial has the part that holds. Rules are assumed to be sound, as in C119. Everything else is proved."
 },
 "C173": {
  "status": "partial",
  "note": "Refuted in general by C173_default_refuted, C173_configurable_refuted, C173_shipped_refuted and C173_shippedC_refuted; the other theorems have the conditions under which it holds: C173_default_partial and C173_configurable_partial for any plugins while they are unused, C173_shipped_partial and C173_shippedC_partial for the two plugins that come with the program, used in any way. C173_created_partial and C173_createdC_partial need no hypothesis about labels, since C175 gives it."
 },
 "C174": {
  "status": "partial",
  "note": "That flushes always have different timestamps is refuted by C174_begun_refuted, and that carbon keeps every count in any case by C174_counts_refuted; the conditions under which it does are in the other theorems. How carbon stores points is an assumption, stated as carbonKeeps. C174_shipped_partial, C174_shippedC_partial and C174_created_partial say the same with the shipped plugins in use."
 }
}