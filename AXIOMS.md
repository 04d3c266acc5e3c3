# Axioms each manifest theorem depends on

Output of `#print axioms`, grouped. All names are in namespace `P2P`.

## Classical.choice, Quot.sound, propext (458)

`C02_integer_language`, `C02_integer_otherwise_error`, `C02_integer_range`, `C04_dict_roundtrip`, `C04_slice_roundtrip`, `C05_dict_before_payload`, `C06_dict_language`, `C06_dict_truncated`, `C06_dict_truncated_completed`, `C06_last_key_wins`, `C06_otherwise_error`, `C07_list_language`, `C07_otherwise_error`, `C08_dict_whole`, `C08_dict_leftover_nil_nil`, `C08_dict_nil_nil_only_leftover`, `C08_nil_nil_iff`, `C08_otherwise_error`, `C09_decoders_terminate`, `C09_progress`, `C10_integer_no_panic`, `C10_dict_no_panic`, `C10_slice_no_panic`, `C10_nolimit_no_panic`, `C10_only_runtime_panics`, `C10_nolimit_exact`, `C10_dict_exact`, `C10_slice_exact`, `C10_string_exact`, `C10_exact_examples`, `C100_runs`, `C100_main_log`, `C100_after_boot`, `C100_run_log`, `C100_run_keeps_up`, `C100_read_log`, `C100_read_then_taken`, `C100_close_log`, `C100_tells`, `C100_cleaned`, `C100_deaf`, `C100_main_moves`, `C100_example_orderly`, `C100_example_race`, `C100_example_died`, `C101_crawler`, `C101_history`, `C101_datagrams`, `C101_bootstrap_first`, `C101_what_ends_it`, `C101_closed`, `C101_contacts`, `C101_pending`, `C101_table`, `C101_files`, `C101_no_directory`, `C101_starts`, `C101_handler_runs`, `C101_all_done`, `C101_runs`, `C102_listens`, `C102_reads_on`, `C102_delivered`, `C102_handled`, `C102_query_answered`, `C102_announced`, `C102_honest_peer`, `C102_fair_runs`, `C102_example`, `C103_signal_ends`, `C103_ends_anytime`, `C103_files`, `C103_stays`, `C103_repaired`, `C103_end_loses`, `C103_same_ids`, `C103_example`, `C104_decode_depth`, `C104_datagram`, `C104_peer_message`, `C104_fits`, `C104_deep_file`, `C104_some_file_is_too_deep`, `C105_loser_dies`, `C106_append_any`, `C108_dies_late`, `C108_sizes`, `C108_dies`, `C108_no_server_workers`, `C108_no_download_workers`, `C108_no_queue`, `C108_halt_for_ever`, `C108_reads_102`, `C108_example`, `C109_bounded`, `C109_in_use`, `C109_accounted`, `C109_allocations`, `C109_allocates_when_empty`, `C109_default`, `C11_prefix_free`, `C11_unambiguous`, `C110_one_piece_spared`, `C110_failed`, `C110_waiting`, `C110_complete`, `C110_one_piece`, `C110_undisturbed`, `C110_is_proper`, `C110_leaves_held`, `C110_whole_downloads`, `C110_spoilt`, `C110_two_honest`, `C111_one_piece_spared`, `C111_any_interleaving`, `C111_authentic`, `C111_failed`, `C111_waiting`, `C111_complete`, `C111_spared`, `C111_exclusive`, `C111_never_stuck`, `C112_so_far`, `C112_one_buffer`, `C112_memory`, `C113_refines`, `C113_files`, `C113_memory`, `C113_exclusive`, `C113_complete`, `C113_ended`, `C113_never_stuck`, `C113_turns_end`, `C113_all_done`, `C113_runs`, `C113_parallel`, `C113_overlap`, `exSysNet_ends`, `C114_fair_refines`, `C114_listens`, `C114_handled`, `C114_query_answered`, `C114_comes_out`, `C114_downloaded`, `C114_on_disk`, `C114_socket_to_disk`, `C114_fair_runs`, `C114_example`, `C115_spared`, `C115_one_piece`, `C115_one_worker`, `C115_socket_to_disk`, `C115_one_worker_to_disk`, `C115_schedule_decides`, `C115_example`, `C116_alone`, `C116_one_worker`, `C116_honest`, `C116_not_stored`, `C116_no_file`, `C116_example`, `C116_honest_example`, `C12_encoder_accepts_exactly`, `C12_dict`, `C12_slice`, `C15_parse_total`, `C15_parse_join`, `C15_join_parse`, `C15_parse_ignores_tail`, `C15_parse_join_mapped`, `C15_join_not_v4`, `C16_parse_join`, `C16_parse_join_mapped`, `C17_unique_in_window`, `C17_shape_and_period`, `C17_positions_distinct`, `C18_maximal`, `C18_closer`, `C19_runs`, `C19_no_panic`, `C19_structure`, `C20_never_evicted`, `C20_history`, `C20_host_stored`, `C21_error`, `C21_nil`, `C21_room`, `C21_nil_stored`, `C21_nil_stored_production`, `C22_size`, `C22_size_exact`, `C23_find`, `C24_find_closest`, `C24_closest`, `C24_closest_host`, `C25_contents`, `C25_result`, `C25_never_lost`, `C25_slices_stable`, `C25_reads_safe`, `C25_rejected_full`, `C25_reads_linear`, `C25_progress`, `C25_progress_writers_first`, `C26_chain`, `C26_all_run`, `C27_query_answered`, `C28_silent`, `C28_response_not_answered`, `C29_never_crashes`, `C29_crawler`, `C30_matched`, `C30_found_is_last_registered`, `C30_never_removed`, `C30_history`, `C31_bounded`, `C32_end_to_end`, `C33_fanout`, `C34_query`, `C34_others`, `C35_sizes`, `C35_methods`, `C35_ends`, `C35_put_ends`, `C36_no_sharing`, `C36_fresh_hold`, `C37_decoded_is_received`, `C37_no_sharing`, `C37_in_order`, `C37_truncated`, `C37_reads`, `C38_build_panics`, `C39_roundtrip`, `C39_nil_metadata`, `C39_nil_metadata_text`, `C40_roundtrip`, `C42_requests`, `C43_honest_download`, `C43_honest_peer`, `C44_second_piece_overwrites`, `C44_any_pieces`, `C44_honest_pieces`, `C45_two_reads`, `C45_framed`, `C45_prefix_only`, `C46_flush`, `C46_files`, `C48_progress`, `C51_at_most_once`, `C51_all_done`, `C51_status`, `C51_progress`, `C51_timeout_leaks`, `C52_linearizable`, `C52_only_del_races`, `C52_put_get_no_race`, `C52_no_deadlock`, `C55_line`, `C55_trailing`, `C55_ends`, `C55_directory`, `C57_puts_own`, `C59_terminates`, `C60_only_registered`, `C60_dies_only_by_race`, `C60_registered_before`, `C60_registered_too_late`, `C62_terminates`, `C62_all_done`, `C62_stall`, `C62_stall_reachable`, `C62_downloads`, `C62_reply_after_accept`, `C62_backpressure`, `C62_crawler_all_done`, `C62_halt`, `C62_all_done_reachable`, `C63_bootstrap`, `C63_packets_wait`, `C63_none_lost`, `C63_contact_order`, `C63_death`, `C63_progress`, `C63_registered_before_sent`, `C63_response_finds_request`, `C63_early_packet`, `C63_panic_text`, `C64_full_iff`, `C64_result`, `C64_full_permanent`, `C64_refused_for_ever`, `C65_error_reply`, `C67_outcome`, `C67_history`, `C67_reachable`, `C67_dispatch`, `C67_fresh_server`, `C68_call`, `C68_always`, `C68_level`, `C68_infohash`, `C69_recorded`, `C69_others`, `C69_file_recorded`, `C70_complete`, `C70_failed`, `C70_waiting`, `C72_queries`, `C72_nodes_arrive`, `C72_peers_arrive`, `C73_linearizable`, `C73_once`, `C73_exclusive`, `C73_quiescent`, `C73_no_panic`, `C73_progress`, `C73_progress_writers_first`, `C73_sections_end`, `C73_found_stays`, `C74_conversation`, `C74_conversation_always`, `C74_requests`, `C75_hangs`, `C75_attack`, `C76_at_most`, `C76_captured`, `C76_inevitable`, `C76_settles`, `C76_reachable`, `C76_crawler`, `C76_attacker`, `C76_attack`, `C77_reads`, `C77_same_utf8`, `C77_valid_uncased`, `C77_find_utf8`, `C77_same_id`, `C77_ascii`, `C77_invalid`, `C77_not_stored`, `C77_find`, `C78_reply`, `C78_error`, `C78_response`, `C78_any`, `C78_amplifies`, `C79_served`, `C79_replayed`, `C80_query`, `C80_response`, `C80_configured`, `C81_handshake`, `C81_honest_peer`, `C81_files`, `C81_reaction`, `C81_fips`, `C82_contacts`, `C82_per_prefix`, `C82_half`, `C82_start`, `C83_startup`, `C83_needs_signal`, `C83_deaf_while_bootstrapping`, `C83_one_signal_suffices`, `C83_socket_closed`, `C83_open_until_signal`, `C83_killed`, `C83_safe_once_registered`, `C83_none_lost`, `C83_orderly_end`, `C84_bucket`, `C85_started`, `C85_finished`, `C85_submit`, `C85_shutdown`, `C86_packet_handled`, `C86_job_started`, `C86_job_finished`, `C86_takes_in`, `C86_announce`, `C86_fair_runs`, `C87_ends`, `C88_cut`, `C88_query`, `C88_reply`, `C88_nodes_all_or_none`, `C88_queries_fit`, `C88_replies_fit`, `C88_replies_cut`, `C88_end_to_end`, `C89_origin`, `C89_accepted`, `C89_offered`, `C89_asked`, `C89_no_bootstrap`, `C89_injection`, `C90_sources`, `C90_sends`, `C90_query`, `C90_response`, `C90_other`, `C90_silent`, `C90_count`, `C90_forged`, `C90_lines`, `C91_decode_linear`, `C91_decode_size`, `C91_encode_quadratic`, `C91_encode_quadratic_slice`, `C92_written`, `C92_between`, `C92_on_disk`, `C92_files`, `C92_announced`, `C92_honest_peer`, `C92_fair_runs`, `C92_captured`, `C92_example`, `C93_files`, `C93_crash_loses`, `C93_example`, `C94_listing`, `C94_unlistable`, `C94_poison`, `C94_poison_stays`, `C94_shown`, `C95_bound`, `C95_learned`, `C95_closed`, `C95_queries_only`, `C95_dies_out`, `C96_bucket`, `C96_route_table`, `C96_txid`, `C96_map`, `C96_map_no_del`, `C96_registry`, `C96_fair_runs_exist`, `C96_writers_can_starve`, `C97_verdict`, `C97_match_iff`, `C97_job`, `C97_file`, `C97_lines`, `C98_log`, `C98_alarm`, `C98_history`, `C98_kinds`, `C99_linearizable`, `C99_quiescent`, `C99_no_panic`, `C99_never_waits`, `C99_inside_moves`, `C99_sections_end`, `C99_progress`, `C99_guarded`, `C99_one_lock`, `C99_call_ends`

## Quot.sound (1)

`C54_first`

## Quot.sound, propext (140)

`C01_integer_roundtrip`, `C03_string_roundtrip_iff`, `C03_string_roundtrip_without_colon`, `C03_string_with_colon_fails`, `C03_string_language`, `C08_wanted_is_false`, `C10_panics_happen`, `C100_erases`, `C101_program`, `C101_ended`, `C104_same`, `C104_deep_datagram`, `C104_encode_depth`, `C104_encode_deep`, `C105_one_per_port`, `C105_needs`, `C105_one_at_a_time`, `C105_race`, `C105_prints_alone`, `C105_ended_final`, `C105_released`, `C105_no_listing`, `C105_torrent_example`, `C106_same`, `C106_append`, `C106_kept`, `C106_for_ever`, `C106_example`, `C106_alias_fails`, `C107_prepared`, `C107_crawler`, `C107_others_only_look_up`, `C107_lazy_races`, `C107_example`, `C108_pool`, `C111_no_endless_schedule`, `C111_schedule_decides`, `run_fetchBodyR`, `C113_end_is_final`, `C12_outcome`, `C12_no_panic`, `C13_exist`, `C14_in_range`, `C14_out_of_range`, `C14_contains_string`, `C14_contains_string_total`, `C14_contains_non_string`, `C16_join_parse`, `C16_parse_panics`, `C18_prefix_length`, `C18_symmetric_bounded`, `C21_nil_but_dropped`, `C23_confusion`, `C24_negative`, `C24_not_closest`, `C25_calls_end`, `registerAll_ok`, `C33_queries`, `C33_undisturbed`, `C38_parse`, `C38_parse_iff`, `C38_roundtrip`, `C38_support_extended`, `C40_payload_is_rest`, `C41_authentic`, `C41_no_panic`, `C41_closes`, `C42_piece_count`, `C42_complete`, `C44_intact_iff`, `C44_one_buffer`, `C46_complete`, `C46_failed_write_truncates`, `C47_address`, `C47_ipv4`, `C47_ipv4_mapped`, `C47_ipv6_undialable`, `C47_implied`, `C48_fifo_once`, `C48_empty_pool`, `C49_no_submit_after_shutdown`, `C49_submit_panics`, `C49_status`, `C50_workers_never_exit`, `C50_only_timeout`, `C50_no_overlap_no_panic`, `C53_fresh`, `C53_flag_only_pprof`, `C54_trace_always`, `C54_level_ineffective`, `C55_bad`, `C56_receiver_not_stuck`, `C56_no_more_packets`, `C56_closed_on_return`, `C57_leaks_only_keepalive`, `C57_read_within`, `C58_fatal_only_by_allocation`, `C58_asks`, `C58_peer_can_kill`, `C61_one_logger_per_name`, `C61_only_race`, `C61_one_goroutine`, `C61_race_possible`, `C62_fifo`, `C62_once`, `C62_bounded`, `C64_refused_then_accepted`, `C65_answerable`, `C66_text`, `C66_order`, `C66_lines`, `C71_stops`, `C71_asks`, `C74_failure_ends`, `C75_no_late_data`, `C75_duration`, `C75_limit_unused`, `C76_keeps_worker`, `C81_length`, `C81_padding`, `C81_ids`, `C81_pad_bytes`, `C82_same_address`, `C83_killed_run`, `C84_iterator`, `C85_needs_return`, `C90_transparent`, `C91_same`, `C91_encode_same`, `C91_encode_quadratic_reached`, `C92_no_directory`, `C93_repaired`, `C95_two_crawlers`, `C95_outsider`, `C97_count`, `C97_message`, `C97_metadata_message`, `exJob_written`, `C98_same`, `C98_false_alarm`

## none (5)

`C106_views`, `C12_nil_containers`, `C61_example`, `C66_ambiguous`, `C98_created`

## propext (62)

`C100_prefix`, `C105_why_it_dies`, `C105_file`, `C105_can_run`, `C105_version_example`, `C106_numbers`, `C107_dead_stops`, `C108_startup`, `C13_present`, `C13_nil`, `C13_absent_or_wrong_type`, `C13_message`, `C13_or_default`, `C13_val_or_default_ignores_default`, `C13_message_containers`, `C14_wrong_type`, `C14_exist`, `C36_double_put_shares`, `C38_wire_format`, `C38_wrong_length`, `C39_accepts`, `C45_framing_lost`, `C47_no_port`, `C49_status_backwards`, `C49_late_submission`, `C50_overlap_kills`, `C50_dead_stops`, `C51_second_call_again`, `C51_status_backwards`, `C51_panic_kills`, `C51_only_cleans_kill`, `C51_dead_stops`, `C52_del_races`, `C53_frozen`, `C54_prints`, `C54_panic`, `C54_same`, `C54_prefix`, `C54_known`, `C54_unknown`, `C55_single`, `C55_unreadable`, `C56_receiver_ends`, `C60_race_kills`, `C60_race_misses`, `C60_before_example`, `C60_dead_stops`, `C62_takes_in`, `C63_takes_in`, `C66_value`, `C66_forged`, `C66_error_text`, `C66_panics_iff`, `C66_biz_text`, `C66_flag`, `C68_names`, `C72_replies`, `C72_errors`, `C83_deaf_after_close`, `C92_refines`, `C93_stays`, `C98_texts`
