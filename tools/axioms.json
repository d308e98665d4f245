{
"C153_draws": ["propext", "Classical.choice", "Quot.sound"],
"C161_times": ["propext", "Classical.choice", "Quot.sound"],
"C172_prefix": ["propext", "Classical.choice", "Quot.sound"],
"C58_empty": ["propext", "Classical.choice", "Quot.sound"],
"C95_refuted": ["propext", "Quot.sound"],
"C151_level": ["propext", "Classical.choice", "Quot.sound"],
"C88_default": ["propext"],
"C133_no_room": ["propext", "Classical.choice", "Quot.sound"],
"C90_ages": ["propext", "Classical.choice", "Quot.sound"],
"C110_timer_section": ["propext", "Classical.choice", "Quot.sound"],
"C176_programs": ["propext", "Classical.choice", "Quot.sound"],
"C16_nothing_lost": ["propext", "Classical.choice", "Quot.sound"],
"C166_routing": ["propext", "Quot.sound"],
"C93_compliant": ["propext", "Classical.choice", "Quot.sound"],
"C145_configurable": ["propext", "Classical.choice", "Quot.sound"],
"C60_queue": ["propext", "Quot.sound"],
"C172_dot_partial": ["propext", "Classical.choice", "Quot.sound"],
"C160_percent_exact": ["propext", "Classical.choice", "Quot.sound"],
"C146_never": ["propext", "Classical.choice", "Quot.sound"],
"C57_remove": ["propext", "Classical.choice", "Quot.sound"],
"C174_everything_partial": ["propext", "Classical.choice", "Quot.sound"],
"C54_faults": ["propext", "Classical.choice", "Quot.sound"],
"C96_reserved": ["propext", "Quot.sound"],
"C33_equal_values": ["propext", "Classical.choice", "Quot.sound"],
"C117_small": ["propext", "Classical.choice", "Quot.sound"],
"C70_plain_rate_partial": ["propext", "Classical.choice", "Quot.sound"],
"C166_file_wins": ["propext", "Classical.choice", "Quot.sound"],
"C168_next_partial": ["propext", "Classical.choice", "Quot.sound"],
"C23_new_counter_aborts": ["propext", "Classical.choice", "Quot.sound"],
"C16_stored": ["propext", "Classical.choice", "Quot.sound"],
"C161_stopped": ["propext", "Classical.choice", "Quot.sound"],
"C22_at_rest": ["propext", "Classical.choice", "Quot.sound"],
"C116_idempotent": ["propext", "Classical.choice", "Quot.sound"],
"C161_on_time": ["propext", "Classical.choice", "Quot.sound"],
"C45_malformed": ["propext", "Classical.choice", "Quot.sound"],
"C134_percentiles": ["propext", "Classical.choice", "Quot.sound"],
"C148_metersC": ["propext", "Classical.choice", "Quot.sound"],
"C61_order": ["propext", "Classical.choice", "Quot.sound"],
"C13_empty_after_flush": ["propext", "Classical.choice", "Quot.sound"],
"C130_sli": ["propext", "Classical.choice", "Quot.sound"],
"C72_new_key": ["propext", "Classical.choice", "Quot.sound"],
"C121_fate": ["propext", "Classical.choice", "Quot.sound"],
"C44_flush": ["propext", "Classical.choice", "Quot.sound"],
"C161_process_configurable": ["propext", "Classical.choice", "Quot.sound"],
"C75_failure": ["propext", "Quot.sound"],
"C112_total_partial": ["propext", "Classical.choice", "Quot.sound"],
"C67_refuted": ["propext", "Classical.choice", "Quot.sound"],
"C165_operands": ["propext", "Quot.sound"],
"C154_equal": ["propext", "Classical.choice", "Quot.sound"],
"C155_first": ["propext", "Classical.choice", "Quot.sound"],
"C157_load": ["propext", "Classical.choice", "Quot.sound"],
"C58_refuted": ["propext", "Quot.sound"],
"C157_load_configurable": ["propext", "Classical.choice", "Quot.sound"],
"C176_whole": ["propext", "Classical.choice", "Quot.sound"],
"C112_count_partial": ["propext", "Classical.choice", "Quot.sound"],
"C76_threshold": ["propext", "Classical.choice", "Quot.sound"],
"C116_decimal": ["propext", "Classical.choice", "Quot.sound"],
"C125_schedule": ["propext", "Classical.choice", "Quot.sound"],
"C176_one": ["propext", "Classical.choice", "Quot.sound"],
"C52_reconnect": [],
"C153_partial": ["propext", "Classical.choice", "Quot.sound"],
"C46_nan": ["propext", "Classical.choice", "Quot.sound"],
"C66_no_connection": ["propext", "Classical.choice", "Quot.sound"],
"C51_not_doubled": ["propext", "Classical.choice", "Quot.sound"],
"C100_percpu_partial": ["propext", "Classical.choice", "Quot.sound"],
"C101_repeated": ["propext", "Classical.choice", "Quot.sound"],
"C142_load_partial": ["propext", "Classical.choice", "Quot.sound"],
"C103_default": ["propext", "Classical.choice", "Quot.sound"],
"C40_value": ["propext", "Classical.choice", "Quot.sound"],
"C105_default": ["propext", "Classical.choice", "Quot.sound"],
"C85_zero": ["propext", "Classical.choice", "Quot.sound"],
"C114_page_partial": ["propext", "Classical.choice", "Quot.sound"],
"C82_unique": ["propext", "Quot.sound"],
"C10_gauge_meter": ["propext", "Classical.choice", "Quot.sound"],
"C132_refuted": ["propext", "Classical.choice", "Quot.sound"],
"C89_loadavg": ["propext", "Classical.choice", "Quot.sound"],
"C174_everythingC_partial": ["propext", "Classical.choice", "Quot.sound"],
"C149_latest": ["propext", "Classical.choice", "Quot.sound"],
"C42_one_bucket": ["propext", "Classical.choice", "Quot.sound"],
"C136_paired": ["propext", "Classical.choice", "Quot.sound"],
"C21_listing": ["propext", "Classical.choice", "Quot.sound"],
"C43_refuted": ["propext", "Classical.choice", "Quot.sound"],
"C142_recovery_refuted": ["propext", "Classical.choice", "Quot.sound"],
"C149_timers": ["propext", "Classical.choice", "Quot.sound"],
"C70_text": ["propext", "Classical.choice", "Quot.sound"],
"C65_counts": ["propext", "Classical.choice", "Quot.sound"],
"C168_wait": ["propext", "Classical.choice", "Quot.sound"],
"C116_special": ["propext", "Classical.choice", "Quot.sound"],
"C135_unconnected": ["propext"],
"C51_stream": ["propext", "Classical.choice", "Quot.sound"],
"C86_port": ["propext", "Classical.choice", "Quot.sound"],
"C124_harmless": ["propext"],
"C59_errors": ["propext", "Classical.choice", "Quot.sound"],
"C163_machine": ["propext", "Classical.choice", "Quot.sound"],
"C119_served": ["propext", "Classical.choice", "Quot.sound"],
"C62_once": ["propext", "Quot.sound"],
"C89_netdev_alias": ["propext"],
"C139_tiling": ["propext", "Classical.choice", "Quot.sound"],
"C106_uninterrupted": ["propext", "Classical.choice", "Quot.sound"],
"C71_unknown": ["propext", "Quot.sound"],
"C142_alone": ["propext", "Classical.choice", "Quot.sound"],
"C17_flush_counts": ["propext", "Classical.choice", "Quot.sound"],
"C24_refuted": ["propext", "Classical.choice", "Quot.sound"],
"C125_rules": ["propext", "Classical.choice", "Quot.sound"],
"C74_ok": ["propext", "Classical.choice", "Quot.sound"],
"C67_kind_refuted": ["propext", "Classical.choice", "Quot.sound"],
"C127_report": ["propext", "Classical.choice", "Quot.sound"],
"C149_one": ["propext", "Classical.choice", "Quot.sound"],
"C19_subsecond": ["propext", "Classical.choice", "Quot.sound"],
"C24_read": ["propext", "Classical.choice", "Quot.sound"],
"C46_build": ["propext", "Classical.choice", "Quot.sound"],
"C78_owner": ["propext", "Classical.choice", "Quot.sound"],
"C02_fixes_legal": ["propext", "Classical.choice", "Quot.sound"],
"C155_refuted": ["propext", "Classical.choice", "Quot.sound"],
"C124_errors": ["propext", "Classical.choice", "Quot.sound"],
"C108_running_mean": ["propext", "Classical.choice", "Quot.sound"],
"C03_reject": ["propext", "Classical.choice", "Quot.sound"],
"C161_errors": ["propext", "Classical.choice", "Quot.sound"],
"C165_wins_partial": ["propext", "Quot.sound"],
"C138_constant": ["propext", "Classical.choice", "Quot.sound"],
"C121_recovers": ["propext", "Quot.sound"],
"C145_within": ["propext", "Classical.choice", "Quot.sound"],
"C99_latest": ["propext", "Classical.choice", "Quot.sound"],
"C114_refuted": ["propext", "Classical.choice", "Quot.sound"],
"C142_lines": ["propext", "Quot.sound"],
"C88_only": ["propext", "Quot.sound"],
"C87_total": ["propext", "Classical.choice", "Quot.sound"],
"C23_terminates": ["propext", "Classical.choice", "Quot.sound"],
"C38_landmark_free": ["propext", "Classical.choice", "Quot.sound"],
"C160_process": ["propext", "Classical.choice", "Quot.sound"],
"C162_stopped_refuted": ["propext", "Classical.choice", "Quot.sound"],
"C140_flush": ["propext", "Classical.choice", "Quot.sound"],
"C156_zero": ["propext", "Classical.choice", "Quot.sound"],
"C97_limit": ["propext", "Classical.choice", "Quot.sound"],
"C115_default": ["propext", "Classical.choice", "Quot.sound"],
"C164_outcomes": ["propext", "Classical.choice", "Quot.sound"],
"C135_sends_partial": ["propext", "Classical.choice", "Quot.sound"],
"C73_meminfo_lines": ["propext", "Classical.choice", "Quot.sound"],
"C59_sharding": ["propext", "Classical.choice", "Quot.sound"],
"C87_ambiguous": ["propext", "Quot.sound"],
"C119_copies_refuted": ["propext", "Classical.choice", "Quot.sound"],
"C165_refuted": ["propext", "Quot.sound"],
"C173_configurable_refuted": ["propext", "Classical.choice", "Quot.sound"],
"C97_lost_refuted": ["propext"],
"C113_timers": ["propext", "Classical.choice", "Quot.sound"],
"C152_above": ["propext", "Classical.choice", "Quot.sound"],
"C60_bound": ["propext", "Classical.choice", "Quot.sound"],
"C174_begun_refuted": ["propext", "Classical.choice", "Quot.sound"],
"C61_callback_overtakes_refuted": ["propext", "Classical.choice", "Quot.sound"],
"C168_refuted": ["propext", "Classical.choice", "Quot.sound"],
"C152_below": ["propext", "Classical.choice", "Quot.sound"],
"C148_listing": ["propext", "Classical.choice", "Quot.sound"],
"C63_result": ["propext", "Quot.sound"],
"C113_port": ["propext", "Classical.choice", "Quot.sound"],
"C73_connections": ["propext", "Quot.sound"],
"C29_report": ["propext", "Classical.choice", "Quot.sound"],
"C154_decay": ["propext", "Classical.choice", "Quot.sound"],
"C09_reported": ["propext", "Classical.choice", "Quot.sound"],
"C65_accepted": ["propext", "Classical.choice", "Quot.sound"],
"C99_backlog": ["propext", "Classical.choice", "Quot.sound"],
"C125_integers": ["propext", "Classical.choice", "Quot.sound"],
"C142_missing": ["propext", "Classical.choice", "Quot.sound"],
"C31_variance": ["propext", "Classical.choice", "Quot.sound"],
"C160_connections_last": ["propext", "Classical.choice", "Quot.sound"],
"C110_mean": ["propext", "Classical.choice", "Quot.sound"],
"C74_assertion": ["propext", "Classical.choice", "Quot.sound"],
"C10_gauge_meter_colon": ["propext", "Classical.choice", "Quot.sound"],
"C87_report": ["propext", "Quot.sound"],
"C141_restart_refuted": ["propext", "Classical.choice", "Quot.sound"],
"C168_stuck": ["propext", "Classical.choice", "Quot.sound"],
"C165_reads": ["propext", "Quot.sound"],
"C172_configurable": ["propext", "Classical.choice", "Quot.sound"],
"C148_gauges_refuted": ["propext", "Classical.choice", "Quot.sound"],
"C162_outcomes": ["propext", "Classical.choice", "Quot.sound"],
"C97_stranded_refuted": ["propext"],
"C150_page_configurable": ["propext", "Classical.choice", "Quot.sound"],
"C86_count": ["propext", "Classical.choice", "Quot.sound"],
"C24_twice_refuted": ["propext", "Classical.choice", "Quot.sound"],
"C39_hull": ["propext", "Classical.choice", "Quot.sound"],
"C78_refuted": ["propext", "Classical.choice", "Quot.sound"],
"C112_total_exact_refuted": ["propext", "Classical.choice", "Quot.sound"],
"C74_late": ["propext", "Classical.choice", "Quot.sound"],
"C100_cpu_partial": ["propext", "Quot.sound"],
"C47_first_exception": ["propext", "Classical.choice", "Quot.sound"],
"C83_metric_rule": ["propext", "Classical.choice", "Quot.sound"],
"C76_lax": ["propext", "Classical.choice", "Quot.sound"],
"C154_two": ["propext", "Classical.choice", "Quot.sound"],
"C32_percentiles": ["propext", "Classical.choice", "Quot.sound"],
"C122_counts": ["propext", "Classical.choice", "Quot.sound"],
"C63_sends": ["propext", "Quot.sound"],
"C148_counters_whole": ["propext", "Classical.choice", "Quot.sound"],
"C154_certain": ["propext", "Classical.choice", "Quot.sound"],
"C111_bins": ["propext", "Classical.choice", "Quot.sound"],
"C09_other_keys": ["propext", "Classical.choice", "Quot.sound"],
"C175_labels": ["propext", "Classical.choice", "Quot.sound"],
"C136_unseen": ["propext", "Classical.choice", "Quot.sound"],
"C136_level0": ["propext", "Classical.choice", "Quot.sound"],
"C41_set_only": ["propext", "Classical.choice", "Quot.sound"],
"C69_tiling": ["propext", "Classical.choice", "Quot.sound"],
"C26_poison": ["propext", "Classical.choice", "Quot.sound"],
"C169_kind": ["propext", "Classical.choice", "Quot.sound"],
"C06_fractions": ["propext", "Classical.choice", "Quot.sound"],
"C126_timers": ["propext", "Classical.choice", "Quot.sound"],
"C144_roundtrip": ["propext", "Classical.choice", "Quot.sound"],
"C96_accepted": ["propext", "Quot.sound"],
"C123_silent": ["propext", "Classical.choice", "Quot.sound"],
"C47_route": ["propext", "Classical.choice", "Quot.sound"],
"C130_counts": ["propext", "Classical.choice", "Quot.sound"],
"C98_expectation": ["propext", "Classical.choice", "Quot.sound"],
"C42_hash": ["propext", "Classical.choice", "Quot.sound"],
"C53_literal": ["propext"],
"C28_listing_partial": ["propext", "Classical.choice", "Quot.sound"],
"C55_set_only": ["propext", "Classical.choice", "Quot.sound"],
"C172_rules": ["propext", "Classical.choice", "Quot.sound"],
"C94_two_lines": ["propext", "Classical.choice", "Quot.sound"],
"C36_kept": ["propext", "Classical.choice", "Quot.sound"],
"C150_page": ["propext", "Classical.choice", "Quot.sound"],
"C82_conditions": ["propext", "Classical.choice", "Quot.sound"],
"C82_senseless": ["propext", "Classical.choice", "Quot.sound"],
"C41_flush": ["propext", "Classical.choice", "Quot.sound"],
"C66_sampling": ["propext", "Classical.choice", "Quot.sound"],
"C115_start": ["propext", "Classical.choice", "Quot.sound"],
"C121_persists_refuted": [],
"C107_reading_aborts": ["propext", "Classical.choice", "Quot.sound"],
"C169_wiring": ["propext", "Classical.choice", "Quot.sound"],
"C152_million": ["propext", "Classical.choice", "Quot.sound"],
"C174_counts_refuted": ["propext", "Classical.choice", "Quot.sound"],
"C61_destination": ["propext", "Classical.choice", "Quot.sound"],
"C158_percentile_below": ["propext", "Classical.choice", "Quot.sound"],
"C18_receive_counts": ["propext", "Classical.choice", "Quot.sound"],
"C143_refuted": ["propext", "Classical.choice", "Quot.sound"],
"C162_refuted": ["propext", "Classical.choice", "Quot.sound"],
"C139_lines_mono": ["propext", "Classical.choice", "Quot.sound"],
"C64_qualified": ["propext", "Classical.choice", "Quot.sound"],
"C49_not": ["propext", "Quot.sound"],
"C174_gauges": ["propext", "Classical.choice", "Quot.sound"],
"C141_one_thread": ["propext", "Classical.choice", "Quot.sound"],
"C95_always": ["propext", "Quot.sound"],
"C04_rebuild_roundtrip": ["propext", "Classical.choice", "Quot.sound"],
"C143_text": ["propext", "Classical.choice", "Quot.sound"],
"C68_loss": ["propext", "Classical.choice", "Quot.sound"],
"C39_idle": ["propext", "Quot.sound"],
"C86_all_partial": ["propext"],
"C106_terminates": ["propext", "Classical.choice", "Quot.sound"],
"C37_errors": ["propext", "Classical.choice", "Quot.sound"],
"C89_netdev": ["propext", "Classical.choice", "Quot.sound"],
"C64_injective": ["propext", "Classical.choice", "Quot.sound"],
"C57_restore": ["propext", "Classical.choice", "Quot.sound"],
"C51_write": ["propext", "Classical.choice", "Quot.sound"],
"C173_shippedC_refuted": ["propext", "Classical.choice", "Quot.sound"],
"C113_status": ["propext", "Classical.choice", "Quot.sound"],
"C160_alone": ["propext", "Classical.choice", "Quot.sound"],
"C52_stuck": ["propext", "Quot.sound"],
"C02_idempotent": ["propext", "Classical.choice", "Quot.sound"],
"C90_refuted": ["propext", "Classical.choice", "Quot.sound"],
"C175_countsC": ["propext", "Classical.choice", "Quot.sound"],
"C173_default_refuted": ["propext", "Classical.choice", "Quot.sound"],
"C176_calls": ["propext", "Classical.choice", "Quot.sound"],
"C35_positions": ["propext", "Classical.choice", "Quot.sound"],
"C166_rejected": ["propext", "Quot.sound"],
"C166_refuted": ["propext", "Quot.sound"],
"C134_timer": ["propext", "Classical.choice", "Quot.sound"],
"C70_exponent": ["propext", "Classical.choice", "Quot.sound"],
"C01_alphabet": ["propext", "Classical.choice", "Quot.sound"],
"C125_shared": ["propext", "Classical.choice", "Quot.sound"],
"C164_close": ["propext", "Classical.choice", "Quot.sound"],
"C141_service": ["propext", "Classical.choice", "Quot.sound"],
"C97_lost_forever": ["propext", "Classical.choice", "Quot.sound"],
"C48_dropped": ["propext", "Classical.choice", "Quot.sound"],
"C115_configurable": ["propext", "Classical.choice", "Quot.sound"],
"C125_service": ["propext", "Classical.choice", "Quot.sound"],
"C166_start": ["propext", "Classical.choice", "Quot.sound"],
"C85_period": ["propext", "Classical.choice", "Quot.sound"],
"C161_memory": ["propext", "Classical.choice", "Quot.sound"],
"C128_configurable": ["propext", "Classical.choice", "Quot.sound"],
"C97_undisturbed_partial": ["propext", "Classical.choice", "Quot.sound"],
"C71_long_partial": ["propext", "Quot.sound"],
"C119_no_loss": ["propext", "Classical.choice", "Quot.sound"],
"C85_refuted": ["propext", "Classical.choice", "Quot.sound"],
"C67_first_rate": ["propext", "Classical.choice", "Quot.sound"],
"C43_empty_window_partial": ["propext", "Classical.choice", "Quot.sound"],
"C138_zero_interval": ["propext", "Classical.choice", "Quot.sound"],
"C15_backlog": ["propext", "Classical.choice", "Quot.sound"],
"C108_doubles": ["propext", "Classical.choice", "Quot.sound"],
"C163_process": ["propext", "Classical.choice", "Quot.sound"],
"C93_again": ["propext"],
"C156_times": ["propext", "Classical.choice", "Quot.sound"],
"C172_counts": ["propext", "Classical.choice", "Quot.sound"],
"C153_choices": ["propext", "Classical.choice", "Quot.sound"],
"C101_refuted": ["propext", "Classical.choice", "Quot.sound"],
"C67_own_rate_partial": ["propext", "Classical.choice", "Quot.sound"],
"C52_flow_partial": ["propext", "Classical.choice", "Quot.sound"],
"C133_never_raises": ["propext", "Classical.choice", "Quot.sound"],
"C175_patterns": ["propext", "Classical.choice", "Quot.sound"],
"C167_wiped": ["propext", "Classical.choice", "Quot.sound"],
"C97_conserved": ["propext", "Classical.choice", "Quot.sound"],
"C173_shipped_partial": ["propext", "Classical.choice", "Quot.sound"],
"C144_special": ["propext", "Classical.choice", "Quot.sound"],
"C160_connections_partial": ["propext", "Classical.choice", "Quot.sound"],
"C50_original_type": ["propext", "Classical.choice", "Quot.sound"],
"C176_pointsC": ["propext", "Classical.choice", "Quot.sound"],
"C44_accepted": ["propext", "Classical.choice", "Quot.sound"],
"C91_stop_partial": ["propext", "Quot.sound"],
"C137_bound": ["propext", "Classical.choice", "Quot.sound"],
"C13_stored_since_flush": ["propext", "Classical.choice", "Quot.sound"],
"C102_counts": ["propext", "Classical.choice", "Quot.sound"],
"C157_traffic": ["propext", "Classical.choice", "Quot.sound"],
"C169_listens": ["propext", "Classical.choice", "Quot.sound"],
"C160_connections_configurable": ["propext", "Classical.choice", "Quot.sound"],
"C110_mean_at_most_upper_refuted": ["propext", "Classical.choice", "Quot.sound"],
"C72_difference": ["propext", "Classical.choice", "Quot.sound"],
"C121_persists_partial": ["propext", "Quot.sound"],
"C148_repeated_refuted": ["propext", "Classical.choice", "Quot.sound"],
"C10_counter_timer": ["propext", "Classical.choice", "Quot.sound"],
"C05_unknown_type": ["propext", "Classical.choice", "Quot.sound"],
"C144_injective": ["propext", "Classical.choice", "Quot.sound"],
"C143_names": ["propext", "Classical.choice", "Quot.sound"],
"C150_flush": ["propext", "Classical.choice", "Quot.sound"],
"C166_reads": ["propext", "Classical.choice", "Quot.sound"],
"C125_whole": ["propext", "Classical.choice", "Quot.sound"],
"C152_long": ["propext", "Classical.choice", "Quot.sound"],
"C135_refuted": ["propext"],
"C100_memory_refuted": ["propext"],
"C03_parse_iff": ["propext", "Classical.choice", "Quot.sound"],
"C80_first_line_only": ["propext", "Classical.choice", "Quot.sound"],
"C36_outcomes": ["propext", "Classical.choice", "Quot.sound"],
"C72_sum": ["propext", "Classical.choice", "Quot.sound"],
"C36_uniform": ["propext", "Classical.choice", "Quot.sound"],
"C52_resume_raises": [],
"C16_report": ["propext", "Classical.choice", "Quot.sound"],
"C166_headless": ["propext", "Classical.choice", "Quot.sound"],
"C30_logger": ["propext"],
"C172_default": ["propext", "Classical.choice", "Quot.sound"],
"C99_history": ["propext", "Classical.choice", "Quot.sound"],
"C08_exact_balance": ["propext", "Classical.choice", "Quot.sound"],
"C171_io_partial": ["propext", "Classical.choice", "Quot.sound"],
"C61_drained": ["propext", "Classical.choice", "Quot.sound"],
"C116_value": ["propext", "Classical.choice", "Quot.sound"],
"C151_alike": ["propext", "Classical.choice", "Quot.sound"],
"C28_refuted": ["propext", "Classical.choice", "Quot.sound"],
"C97_limit_refuted": ["propext"],
"C173_shippedC_partial": ["propext", "Classical.choice", "Quot.sound"],
"C51_empty": ["propext"],
"C145_flush": ["propext", "Classical.choice", "Quot.sound"],
"C40_no_hashes": ["propext", "Classical.choice", "Quot.sound"],
"C169_once": ["propext", "Classical.choice", "Quot.sound"],
"C155_share_partial": ["propext", "Classical.choice", "Quot.sound"],
"C33_sturges": ["propext", "Classical.choice", "Quot.sound"],
"C133_move_partial": ["propext", "Classical.choice", "Quot.sound"],
"C121_counted_refuted": ["propext", "Quot.sound"],
"C128_default": ["propext", "Classical.choice", "Quot.sound"],
"C45_counted": ["propext", "Classical.choice", "Quot.sound"],
"C124_fired_once_refuted": ["propext"],
"C172_names": ["propext", "Classical.choice", "Quot.sound"],
"C162_stopped_partial": ["propext", "Classical.choice", "Quot.sound"],
"C167_apart": ["propext", "Classical.choice", "Quot.sound"],
"C142_pools": ["propext", "Quot.sound"],
"C85_whole_seconds_partial": ["propext", "Classical.choice", "Quot.sound"],
"C156_stopped_partial": ["propext", "Classical.choice", "Quot.sound"],
"C50_redirect_type_partial": ["propext", "Classical.choice", "Quot.sound"],
"C144_shape": ["propext", "Classical.choice", "Quot.sound"],
"C141_loop_partial": ["propext", "Classical.choice", "Quot.sound"],
"C162_times": ["propext", "Classical.choice", "Quot.sound"],
"C93_refuted": ["propext", "Classical.choice", "Quot.sound"],
"C135_raises": ["propext", "Classical.choice", "Quot.sound"],
"C157_memory_configurable": ["propext", "Classical.choice", "Quot.sound"],
"C75_each_once": ["propext", "Quot.sound"],
"C153_refuted_function": ["propext", "Classical.choice", "Quot.sound"],
"C158_percentile_above": ["propext", "Classical.choice", "Quot.sound"],
"C24_wiped": ["propext", "Classical.choice", "Quot.sound"],
"C93_dump_partial": ["propext", "Classical.choice", "Quot.sound"],
"C108_std_dev": ["propext", "Classical.choice", "Quot.sound"],
"C171_twice_refuted": ["propext", "Classical.choice", "Quot.sound"],
"C158_mean": ["propext", "Classical.choice", "Quot.sound"],
"C145_receive": ["propext", "Classical.choice", "Quot.sound"],
"C55_owner": ["propext", "Classical.choice", "Quot.sound"],
"C54_lines": ["propext", "Quot.sound"],
"C54_raises": ["propext", "Classical.choice", "Quot.sound"],
"C24_receive_partial": ["propext", "Classical.choice", "Quot.sound"],
"C135_server": ["propext", "Classical.choice", "Quot.sound"],
"C142_memory_partial": ["propext", "Classical.choice", "Quot.sound"],
"C149_one_refuted": ["propext", "Classical.choice", "Quot.sound"],
"C145_status_configurable": ["propext", "Classical.choice", "Quot.sound"],
"C151_missed": ["propext", "Classical.choice", "Quot.sound"],
"C146_consistent": ["propext", "Classical.choice", "Quot.sound"],
"C124_ready": ["propext", "Classical.choice", "Quot.sound"],
"C143_status_default": ["propext", "Classical.choice", "Quot.sound"],
"C139_status_sound": ["propext", "Classical.choice", "Quot.sound"],
"C164_seldom": ["propext", "Classical.choice", "Quot.sound"],
"C123_distinct": ["propext", "Classical.choice", "Quot.sound"],
"C53_class": ["propext", "Quot.sound"],
"C146_first_decides": ["propext", "Classical.choice", "Quot.sound"],
"C82_not_a_rule": ["propext", "Classical.choice", "Quot.sound"],
"C75_calls": ["propext", "Quot.sound"],
"C122_sli": ["propext", "Classical.choice", "Quot.sound"],
"C53_plain": ["propext", "Classical.choice", "Quot.sound"],
"C27_names": ["propext", "Classical.choice", "Quot.sound"],
"C95_known_partial": ["propext", "Quot.sound"],
"C124_hello_twice": ["propext", "Quot.sound"],
"C116_accepted": ["propext", "Classical.choice", "Quot.sound"],
"C132_names_partial": ["propext", "Classical.choice", "Quot.sound"],
"C49_depth": ["propext", "Classical.choice", "Quot.sound"],
"C48_unmatched": ["propext", "Classical.choice", "Quot.sound"],
"C153_fresh": ["propext", "Classical.choice", "Quot.sound"],
"C169_options": ["propext", "Quot.sound"],
"C89_loadavg_error": ["propext", "Classical.choice", "Quot.sound"],
"C53_path_like": ["propext", "Classical.choice", "Quot.sound"],
"C80_refuted": ["propext", "Quot.sound"],
"C155_pair": ["propext", "Classical.choice", "Quot.sound"],
"C144_shortest": ["propext", "Classical.choice", "Quot.sound"],
"C165_unknown_short": ["propext", "Quot.sound"],
"C100_counters_partial": ["propext"],
"C56_add": ["propext", "Classical.choice", "Quot.sound"],
"C38_rescale": ["propext", "Classical.choice", "Quot.sound"],
"C118_reading": ["propext", "Classical.choice", "Quot.sound"],
"C139_status_complete": ["propext", "Classical.choice", "Quot.sound"],
"C24_balance": ["propext", "Classical.choice", "Quot.sound"],
"C42_add": ["propext", "Quot.sound"],
"C169_default": ["propext", "Classical.choice", "Quot.sound"],
"C136_half_partial": ["propext", "Classical.choice", "Quot.sound"],
"C169_example": ["propext", "Classical.choice", "Quot.sound"],
"C47_calls": ["propext", "Classical.choice", "Quot.sound"],
"C172_dot_refuted": ["propext", "Classical.choice", "Quot.sound"],
"C30_process": ["propext", "Classical.choice", "Quot.sound"],
"C30_transparent": ["propext", "Classical.choice", "Quot.sound"],
"C167_missed": ["propext", "Classical.choice", "Quot.sound"],
"C81_refuted": ["propext", "Classical.choice", "Quot.sound"],
"C160_connections_none": ["propext", "Classical.choice", "Quot.sound"],
"C61_conserved": ["propext", "Classical.choice", "Quot.sound"],
"C78_first": ["propext", "Classical.choice", "Quot.sound"],
"C149_gauges": ["propext", "Classical.choice", "Quot.sound"],
"C33_bins": ["propext", "Classical.choice", "Quot.sound"],
"C76_refuted": ["propext", "Classical.choice", "Quot.sound"],
"C173_default_partial": ["propext", "Classical.choice", "Quot.sound"],
"C100_process_partial": ["propext", "Quot.sound"],
"C158_seldom": ["propext", "Classical.choice", "Quot.sound"],
"C06_integers": ["propext", "Classical.choice", "Quot.sound"],
"C71_refuted": ["propext", "Classical.choice", "Quot.sound"],
"C121_ready": ["propext", "Quot.sound"],
"C149_meters": ["propext", "Classical.choice", "Quot.sound"],
"C162_arrival": ["propext", "Classical.choice", "Quot.sound"],
"C174_created_partial": ["propext", "Classical.choice", "Quot.sound"],
"C121_stopped": ["propext", "Quot.sound"],
"C173_created_partial": ["propext", "Classical.choice", "Quot.sound"],
"C139_lines_exact": ["propext", "Classical.choice", "Quot.sound"],
"C62_callbacks": ["propext", "Quot.sound"],
"C135_refused": ["propext", "Classical.choice", "Quot.sound"],
"C102_timers": ["propext", "Classical.choice", "Quot.sound"],
"C81_client_sends": ["propext", "Classical.choice", "Quot.sound"],
"C54_count": ["propext", "Classical.choice", "Quot.sound"],
"C138_alphas": ["propext", "Classical.choice", "Quot.sound"],
"C147_gauge": ["propext", "Quot.sound"],
"C106_no_abort": ["propext", "Classical.choice", "Quot.sound"],
"C133_top": ["propext", "Classical.choice", "Quot.sound"],
"C106_new_name_aborts": ["propext", "Classical.choice", "Quot.sound"],
"C46_between": ["propext", "Classical.choice", "Quot.sound"],
"C171_traffic_partial": ["propext", "Classical.choice", "Quot.sound"],
"C167_read": ["propext", "Classical.choice", "Quot.sound"],
"C12_timer_section": ["propext", "Classical.choice", "Quot.sound"],
"C141_dump": ["propext", "Classical.choice", "Quot.sound"],
"C11_bad_rate": ["propext", "Classical.choice", "Quot.sound"],
"C88_refuted": ["propext", "Quot.sound"],
"C07_exact_sum": ["propext", "Classical.choice", "Quot.sound"],
"C71_file_wins": ["propext", "Classical.choice", "Quot.sound"],
"C05_builtin_before_plugin": ["propext", "Classical.choice", "Quot.sound"],
"C174_balance": ["propext", "Classical.choice", "Quot.sound"],
"C133_ties": ["propext", "Classical.choice", "Quot.sound"],
"C91_stop_aborts": ["propext"],
"C129_plugin_life": ["propext", "Classical.choice", "Quot.sound"],
"C15_refuted": ["propext", "Classical.choice", "Quot.sound"],
"C39_weights": ["propext", "Classical.choice", "Quot.sound"],
"C169_no_loss": ["propext", "Classical.choice", "Quot.sound"],
"C176_points": ["propext", "Classical.choice", "Quot.sound"],
"C76_sound_partial": ["propext", "Classical.choice", "Quot.sound"],
"C113_unknown": ["propext", "Classical.choice", "Quot.sound"],
"C148_counters_refuted": ["propext", "Classical.choice", "Quot.sound"],
"C15_once_partial": ["propext", "Classical.choice", "Quot.sound"],
"C95_groups": ["propext", "Quot.sound"],
"C30_out_lines": ["propext", "Classical.choice", "Quot.sound"],
"C48_drop": ["propext", "Classical.choice", "Quot.sound"],
"C07_integer_sum": ["propext", "Classical.choice", "Quot.sound"],
"C149_total": ["propext", "Classical.choice", "Quot.sound"],
"C164_refuted": ["propext", "Classical.choice", "Quot.sound"],
"C19_whole_second": ["propext", "Classical.choice", "Quot.sound"],
"C91_refuted": ["propext"],
"C98_refuted": ["propext", "Classical.choice", "Quot.sound"],
"C95_inspector": ["propext", "Quot.sound"],
"C170_failures": ["propext", "Classical.choice", "Quot.sound"],
"C133_order_refuted": ["propext", "Classical.choice", "Quot.sound"],
"C105_configurable": ["propext", "Classical.choice", "Quot.sound"],
"C25_latest": ["propext", "Classical.choice", "Quot.sound"],
"C73_meminfo_error": ["propext", "Classical.choice", "Quot.sound"],
"C90_delay_partial": ["propext", "Classical.choice", "Quot.sound"],
"C151_run_long": ["propext", "Classical.choice", "Quot.sound"],
"C29_flush": ["propext", "Classical.choice", "Quot.sound"],
"C47_no_rules": ["propext", "Classical.choice", "Quot.sound"],
"C86_default": [],
"C52_unconnected": [],
"C117_rate": ["propext", "Classical.choice", "Quot.sound"],
"C98_bias_partial": ["propext", "Classical.choice", "Quot.sound"],
"C142_traffic": ["propext", "Classical.choice", "Quot.sound"],
"C160_connections_refuted": ["propext", "Classical.choice", "Quot.sound"],
"C64_cases": ["propext", "Classical.choice", "Quot.sound"],
"C113_methods": ["propext", "Classical.choice", "Quot.sound"],
"C22_exact_balance": ["propext", "Classical.choice", "Quot.sound"],
"C91_start_aborts": ["propext"],
"C89_netdev_error": ["propext", "Classical.choice", "Quot.sound"],
"C169_parts": ["propext", "Classical.choice", "Quot.sound"],
"C143_timer_partial": ["propext", "Classical.choice", "Quot.sound"],
"C52_refuted": ["propext", "Quot.sound"],
"C136_refuted": ["propext", "Classical.choice", "Quot.sound"],
"C42_no_buckets": ["propext", "Quot.sound"],
"C152_short": ["propext", "Classical.choice", "Quot.sound"],
"C113_path": ["propext", "Classical.choice", "Quot.sound"],
"C160_process_configurable": ["propext", "Classical.choice", "Quot.sound"],
"C23_no_abort": ["propext", "Classical.choice", "Quot.sound"],
"C14_last_reading": ["propext", "Classical.choice", "Quot.sound"],
"C70_refuted": ["propext", "Classical.choice", "Quot.sound"],
"C98_count": ["propext", "Classical.choice", "Quot.sound"],
"C22_conservation": ["propext", "Classical.choice", "Quot.sound"],
"C169_given": ["propext", "Quot.sound"],
"C142_names": ["propext", "Classical.choice", "Quot.sound"],
"C148_timers": ["propext", "Classical.choice", "Quot.sound"],
"C81_plugin_type_partial": ["propext", "Classical.choice", "Quot.sound"],
"C39_alphas": ["propext", "Classical.choice", "Quot.sound"],
"C100_memory_swapped": ["propext"],
"C104_timers": ["propext", "Classical.choice", "Quot.sound"],
"C148_counters": ["propext", "Classical.choice", "Quot.sound"],
"C164_positions_partial": ["propext", "Classical.choice", "Quot.sound"],
"C160_memory_configurable": ["propext", "Classical.choice", "Quot.sound"],
"C121_only_writes": ["propext", "Quot.sound"],
"C42_reporter": ["propext", "Classical.choice", "Quot.sound"],
"C31_nonnegative": ["propext", "Classical.choice", "Quot.sound"],
"C135_counted": ["propext", "Classical.choice", "Quot.sound"],
"C140_whole": ["propext", "Classical.choice", "Quot.sound"],
"C131_distinct": ["propext", "Classical.choice", "Quot.sound"],
"C173_shipped_refuted": ["propext", "Classical.choice", "Quot.sound"],
"C120_mirrored": ["propext", "Classical.choice", "Quot.sound"],
"C168_life": ["propext", "Classical.choice", "Quot.sound"],
"C78_other_names_partial": ["propext", "Classical.choice", "Quot.sound"],
"C154_newer": ["propext", "Classical.choice", "Quot.sound"],
"C103_configurable": ["propext", "Classical.choice", "Quot.sound"],
"C23_uninterrupted": ["propext", "Classical.choice", "Quot.sound"],
"C11_no_rate": ["propext", "Classical.choice", "Quot.sound"],
"C127_timers": ["propext", "Classical.choice", "Quot.sound"],
"C166_indented": ["propext", "Classical.choice", "Quot.sound"],
"C165_all": ["propext"],
"C165_abbreviation_partial": ["propext", "Classical.choice", "Quot.sound"],
"C06_rate_text": ["propext", "Classical.choice", "Quot.sound"],
"C156_on_time": ["propext", "Classical.choice", "Quot.sound"],
"C156_refuted": ["propext", "Classical.choice", "Quot.sound"],
"C175_metric": ["propext", "Classical.choice", "Quot.sound"],
"C42_zeros_unique": ["propext", "Classical.choice", "Quot.sound"],
"C46_exclusive": ["propext", "Classical.choice", "Quot.sound"],
"C155_default_partial": ["propext", "Classical.choice", "Quot.sound"],
"C160_percent_configurable": ["propext", "Classical.choice", "Quot.sound"],
"C20_timestamp_and_prefix": ["propext", "Classical.choice", "Quot.sound"],
"C86_refuted": ["propext"],
"C143_status_configurable": ["propext", "Classical.choice", "Quot.sound"],
"C46_build_fresh": ["propext", "Quot.sound"],
"C84_server": ["propext", "Classical.choice", "Quot.sound"],
"C12_keep_90": ["propext", "Classical.choice", "Quot.sound"],
"C39_constant": ["propext", "Classical.choice", "Quot.sound"],
"C151_value": ["propext", "Classical.choice", "Quot.sound"],
"C160_memory": ["propext", "Classical.choice", "Quot.sound"],
"C162_one_at_a_time_partial": ["propext", "Classical.choice", "Quot.sound"],
"C174_begun_partial": ["propext", "Classical.choice", "Quot.sound"],
"C151_run_short": ["propext", "Classical.choice", "Quot.sound"],
"C151_values": ["propext", "Classical.choice", "Quot.sound"],
"C147_counter": ["propext", "Classical.choice", "Quot.sound"],
"C148_counters_near": ["propext", "Classical.choice", "Quot.sound"],
"C83_callable_partial": ["propext", "Classical.choice", "Quot.sound"],
"C170_sent": ["propext", "Classical.choice", "Quot.sound"],
"C92_processed_once": ["propext", "Classical.choice", "Quot.sound"],
"C118_self": ["propext", "Classical.choice", "Quot.sound"],
"C160_percent": ["propext", "Classical.choice", "Quot.sound"],
"C171_refuted": ["propext", "Classical.choice", "Quot.sound"],
"C126_counts": ["propext", "Classical.choice", "Quot.sound"],
"C86_ports": ["propext", "Classical.choice", "Quot.sound"],
"C04_rebuild_text": ["propext", "Classical.choice", "Quot.sound"],
"C99_colon_refuted": ["propext", "Classical.choice", "Quot.sound"],
"C175_created": ["propext", "Classical.choice", "Quot.sound"],
"C165_options": ["propext", "Quot.sound"],
"C113_default": ["propext", "Classical.choice", "Quot.sound"],
"C49_condition": ["propext", "Classical.choice", "Quot.sound"],
"C169_reports": ["propext", "Classical.choice", "Quot.sound"],
"C134_report_type_error_partial": ["propext", "Classical.choice", "Quot.sound"],
"C41_monotone": ["propext", "Classical.choice", "Quot.sound"],
"C26_refuted": ["propext", "Classical.choice", "Quot.sound"],
"C16_flush": ["propext", "Classical.choice", "Quot.sound"],
"C150_receive": ["propext", "Classical.choice", "Quot.sound"],
"C54_rules": ["propext", "Classical.choice", "Quot.sound"],
"C174_counts": ["propext", "Classical.choice", "Quot.sound"],
"C152_reports": ["propext", "Classical.choice", "Quot.sound"],
"C140_windows": ["propext", "Classical.choice", "Quot.sound"],
"C109_percentiles": ["propext", "Classical.choice", "Quot.sound"],
"C79_low_percentage": ["propext", "Classical.choice", "Quot.sound"],
"C08_idle_zero": ["propext", "Classical.choice", "Quot.sound"],
"C176_total": ["propext", "Classical.choice", "Quot.sound"],
"C166_absent": ["propext", "Quot.sound"],
"C116_refuted": ["propext", "Classical.choice", "Quot.sound"],
"C148_gauges": ["propext", "Classical.choice", "Quot.sound"],
"C174_shippedC_partial": ["propext", "Classical.choice", "Quot.sound"],
"C116_close": ["propext", "Classical.choice", "Quot.sound"],
"C26_survives": ["propext", "Classical.choice", "Quot.sound"],
"C82_rule": ["propext", "Classical.choice", "Quot.sound"],
"C167_partial": ["propext", "Classical.choice", "Quot.sound"],
"C142_stuck": ["propext", "Classical.choice", "Quot.sound"],
"C113_list": ["propext", "Classical.choice", "Quot.sound"],
"C166_garbage": ["propext", "Classical.choice", "Quot.sound"],
"C50_refuted": ["propext", "Quot.sound"],
"C63_unresolved": ["propext"],
"C73_meminfo": ["propext", "Classical.choice", "Quot.sound"],
"C42_zeros": ["propext", "Classical.choice", "Quot.sound"],
"C91_left_running": [],
"C165_declared": ["propext", "Classical.choice", "Quot.sound"],
"C174_shipped_partial": ["propext", "Classical.choice", "Quot.sound"],
"C72_first": ["propext", "Classical.choice", "Quot.sound"],
"C171_cpu_partial": ["propext", "Classical.choice", "Quot.sound"],
"C01_normalize_eq_spec": ["propext", "Classical.choice", "Quot.sound"],
"C151_met": ["propext", "Classical.choice", "Quot.sound"],
"C113_metrics": ["propext", "Classical.choice", "Quot.sound"],
"C12_ordered": ["propext", "Classical.choice", "Quot.sound"],
"C81_server_rejects": ["propext", "Classical.choice", "Quot.sound"],
"C80_single_line_partial": ["propext", "Classical.choice", "Quot.sound"],
"C166_plain_partial": ["propext", "Classical.choice", "Quot.sound"],
"C137_suffix": ["propext", "Classical.choice", "Quot.sound"],
"C37_top": ["propext", "Classical.choice", "Quot.sound"],
"C58_complete": ["propext", "Classical.choice", "Quot.sound"],
"C154_five_minutes": ["propext", "Classical.choice", "Quot.sound"],
"C94_one_line_partial": ["propext", "Classical.choice", "Quot.sound"],
"C170_walkers": ["propext", "Classical.choice", "Quot.sound"],
"C82_order": ["propext", "Classical.choice", "Quot.sound"],
"C165_unknown_long": ["propext", "Classical.choice", "Quot.sound"],
"C08_conservation": ["propext", "Classical.choice", "Quot.sound"],
"C134_numbers": ["propext", "Classical.choice", "Quot.sound"],
"C159_seldom": ["propext", "Classical.choice", "Quot.sound"],
"C77_line": ["propext"],
"C156_errors": ["propext", "Classical.choice", "Quot.sound"],
"C90_since": ["propext", "Classical.choice", "Quot.sound"],
"C175_counts": ["propext", "Classical.choice", "Quot.sound"],
"C169_creates": ["propext", "Classical.choice", "Quot.sound"],
"C78_count_partial": ["propext", "Classical.choice", "Quot.sound"],
"C71_long_kept_partial": ["propext", "Quot.sound"],
"C116_shape": ["propext", "Classical.choice", "Quot.sound"],
"C155_order": ["propext", "Classical.choice", "Quot.sound"],
"C72_failure": ["propext", "Classical.choice", "Quot.sound"],
"C53_prefix": ["propext", "Quot.sound"],
"C167_refuted": ["propext", "Classical.choice", "Quot.sound"],
"C34_mean": ["propext", "Classical.choice", "Quot.sound"],
"C124_fired_once_partial": ["propext", "Classical.choice", "Quot.sound"],
"C46_below": ["propext", "Classical.choice", "Quot.sound"],
"C58_walk_partial": ["propext", "Classical.choice", "Quot.sound"],
"C166_last": ["propext", "Classical.choice", "Quot.sound"],
"C31_marker_refuted": ["propext", "Classical.choice", "Quot.sound"],
"C120_shared": ["propext", "Classical.choice", "Quot.sound"],
"C173_configurable_partial": ["propext", "Classical.choice", "Quot.sound"],
"C157_memory": ["propext", "Classical.choice", "Quot.sound"],
"C161_process": ["propext", "Classical.choice", "Quot.sound"],
"C139_lines": ["propext", "Classical.choice", "Quot.sound"],
"C170_levels_refuted": ["propext", "Classical.choice", "Quot.sound"],
"C148_meters": ["propext", "Classical.choice", "Quot.sound"],
"C143_unambiguous": ["propext", "Classical.choice", "Quot.sound"],
"C47_inert_raises": ["propext", "Classical.choice", "Quot.sound"],
"C148_repeated": ["propext", "Classical.choice", "Quot.sound"],
"C138_hull": ["propext", "Classical.choice", "Quot.sound"],
"C44_reset": ["propext", "Classical.choice", "Quot.sound"],
"C07_count_unique": ["propext", "Classical.choice", "Quot.sound"],
"C116_monotone": ["propext", "Classical.choice", "Quot.sound"],
"C140_value": ["propext", "Classical.choice", "Quot.sound"],
"C116_exact": ["propext", "Classical.choice", "Quot.sound"],
"C138_idle": ["propext", "Classical.choice", "Quot.sound"],
"C92_no_loss": ["propext", "Classical.choice", "Quot.sound"],
"C112_unsampled": ["propext", "Classical.choice", "Quot.sound"],
"C77_datagrams": ["propext", "Quot.sound"],
"C153_two": ["propext", "Classical.choice", "Quot.sound"],
"C09_other_types": ["propext", "Classical.choice", "Quot.sound"],
"C160_io": ["propext", "Classical.choice", "Quot.sound"],
"C101_once_partial": ["propext", "Classical.choice", "Quot.sound"],
"C175_conditions": ["propext", "Classical.choice", "Quot.sound"],
"C153_refuted": ["propext", "Classical.choice", "Quot.sound"],
"C40_window": ["propext", "Classical.choice", "Quot.sound"],
"C173_createdC_partial": ["propext", "Classical.choice", "Quot.sound"],
"C137_one_byte": ["propext", "Classical.choice", "Quot.sound"],
"C46_above": ["propext", "Classical.choice", "Quot.sound"],
"C03_dispatch": ["propext", "Classical.choice", "Quot.sound"],
"C141_after_stop": ["propext", "Classical.choice", "Quot.sound"],
"C41_windows": ["propext", "Classical.choice", "Quot.sound"],
"C94_refuted": ["propext", "Classical.choice", "Quot.sound"],
"C170_levels_partial": ["propext", "Classical.choice", "Quot.sound"],
"C24_missed": ["propext", "Classical.choice", "Quot.sound"],
"C88_configurable_partial": ["propext"],
"C83_refuted": ["propext", "Classical.choice", "Quot.sound"],
"C168_first": ["propext", "Classical.choice", "Quot.sound"],
"C36_subsets": ["propext", "Classical.choice", "Quot.sound"],
"C80_too_long": ["propext", "Classical.choice", "Quot.sound"],
"C165_missing": ["propext", "Quot.sound"],
"C07_counter_section": ["propext", "Classical.choice", "Quot.sound"],
"C108_survives": ["propext", "Classical.choice", "Quot.sound"],
"C134_report_refuted": ["propext", "Classical.choice", "Quot.sound"],
"C74_one_per_round": ["propext", "Classical.choice", "Quot.sound"],
"C156_one_flush_per_call": ["propext", "Classical.choice", "Quot.sound"],
"C145_status": ["propext", "Classical.choice", "Quot.sound"],
"C34_extremes": ["propext", "Classical.choice", "Quot.sound"],
"C97_delivered_partial": ["propext", "Classical.choice", "Quot.sound"],
"C146_sli": ["propext", "Classical.choice", "Quot.sound"],
"C125_moderate": ["propext", "Classical.choice", "Quot.sound"],
"C100_more_fields": ["propext"]}
