{
 "claims": [
  {
   "property": "C01",
   "status": "proved",
   "theorems": [
    "P2P.C01_integer_roundtrip"
   ],
   "note": "all 64-bit ints"
  },
  {
   "property": "C02",
   "status": "proved",
   "theorems": [
    "P2P.C02_integer_language",
    "P2P.C02_integer_otherwise_error",
    "P2P.C02_integer_range"
   ],
   "note": "grammar IntBody in Spec/Bencode"
  },
  {
   "property": "C03",
   "status": "proved",
   "theorems": [
    "P2P.C03_string_roundtrip_iff",
    "P2P.C03_string_roundtrip_without_colon",
    "P2P.C03_string_with_colon_fails",
    "P2P.C03_string_language"
   ],
   "note": ""
  },
  {
   "property": "C04",
   "status": "proved",
   "theorems": [
    "P2P.C04_dict_roundtrip",
    "P2P.C04_slice_roundtrip"
   ],
   "note": "for every Listing, i.e. map iteration order at every nesting level; output length bounded by 2^63 as in Go"
  },
  {
   "property": "C05",
   "status": "proved",
   "theorems": [
    "P2P.C05_dict_before_payload"
   ],
   "note": ""
  },
  {
   "property": "C06",
   "status": "proved",
   "theorems": [
    "P2P.C06_dict_language",
    "P2P.C06_dict_truncated",
    "P2P.C06_dict_truncated_completed",
    "P2P.C06_last_key_wins",
    "P2P.C06_otherwise_error"
   ],
   "note": "grammars Ben and TruncatedBy in Spec/Bencode"
  },
  {
   "property": "C07",
   "status": "proved",
   "theorems": [
    "P2P.C07_list_language",
    "P2P.C07_otherwise_error"
   ],
   "note": ""
  },
  {
   "property": "C08",
   "status": "proved",
   "theorems": [
    "P2P.C08_dict_whole",
    "P2P.C08_dict_leftover_nil_nil",
    "P2P.C08_dict_nil_nil_only_leftover",
    "P2P.C08_wanted_is_false",
    "P2P.C08_nil_nil_iff",
    "P2P.C08_otherwise_error"
   ],
   "note": "exact language; the stronger property a caller wants is refuted by C08_wanted_is_false"
  },
  {
   "property": "C09",
   "status": "proved",
   "theorems": [
    "P2P.C09_decoders_terminate",
    "P2P.C09_progress"
   ],
   "note": "step budget 2*len+2 never exhausted"
  },
  {
   "property": "C10",
   "status": "proved",
   "theorems": [
    "P2P.C10_integer_no_panic",
    "P2P.C10_dict_no_panic",
    "P2P.C10_slice_no_panic",
    "P2P.C10_nolimit_no_panic",
    "P2P.C10_only_runtime_panics",
    "P2P.C10_panics_happen",
    "P2P.C10_nolimit_exact",
    "P2P.C10_dict_exact",
    "P2P.C10_slice_exact",
    "P2P.C10_string_exact",
    "P2P.C10_exact_examples"
   ],
   "note": "inputs below 2^48 bytes (Go's maximum allocation)"
  },
  {
   "property": "C100",
   "status": "proved",
   "theorems": [
    "P2P.C100_erases",
    "P2P.C100_prefix",
    "P2P.C100_runs",
    "P2P.C100_main_log",
    "P2P.C100_after_boot",
    "P2P.C100_run_log",
    "P2P.C100_run_keeps_up",
    "P2P.C100_read_log",
    "P2P.C100_read_then_taken",
    "P2P.C100_close_log",
    "P2P.C100_tells",
    "P2P.C100_cleaned",
    "P2P.C100_deaf",
    "P2P.C100_main_moves",
    "P2P.C100_example_orderly",
    "P2P.C100_example_race",
    "P2P.C100_example_died"
   ],
   "note": "Model/ProgramLog is Model/Program with the log statements of its goroutines; C100_erases/C100_runs: same runs. Records of handlers, downloads, table and pprof left out (C92/C97/C98 have theirs)"
  },
  {
   "property": "C101",
   "status": "proved",
   "theorems": [
    "P2P.C101_program",
    "P2P.C101_crawler",
    "P2P.C101_history",
    "P2P.C101_datagrams",
    "P2P.C101_bootstrap_first",
    "P2P.C101_ended",
    "P2P.C101_what_ends_it",
    "P2P.C101_closed",
    "P2P.C101_contacts",
    "P2P.C101_pending",
    "P2P.C101_table",
    "P2P.C101_files",
    "P2P.C101_no_directory",
    "P2P.C101_starts",
    "P2P.C101_handler_runs",
    "P2P.C101_all_done",
    "P2P.C101_runs"
   ],
   "note": "Model/System couples Model/Program, Model/Pipeline, Model/Whole and the shared objects; refinement to each part. C101_files assumes that no two downloads deliver different data with the same SHA-1 (OneDataPerHash). C101_runs is the non-vacuity for any datagrams"
  },
  {
   "property": "C102",
   "status": "proved",
   "theorems": [
    "P2P.C102_listens",
    "P2P.C102_reads_on",
    "P2P.C102_delivered",
    "P2P.C102_handled",
    "P2P.C102_query_answered",
    "P2P.C102_announced",
    "P2P.C102_honest_peer",
    "P2P.C102_fair_runs",
    "P2P.C102_example"
   ],
   "note": "infinite executions of Model/System under FairSys (weak fairness of each goroutine, strong fairness of a worker whose handler may be blocked at the job channel, no read forced). C102_announced/C102_honest_peer assume OneDataPerHash, no failing file operation and that the torrent is not announced again for ever; C102_fair_runs and C102_example are the non-vacuity"
  },
  {
   "property": "C103",
   "status": "proved",
   "theorems": [
    "P2P.C103_signal_ends",
    "P2P.C103_ends_anytime",
    "P2P.C103_files",
    "P2P.C103_stays",
    "P2P.C103_repaired",
    "P2P.C103_end_loses",
    "P2P.C103_same_ids",
    "P2P.C103_example"
   ],
   "note": "Lives of Model/System (Spec/Lives): only the files survive. C103_signal_ends needs weak fairness of start-up and of the main goroutine only. C103_files, C103_stays, C103_repaired assume OneDataPerHash in each life; C103_end_loses and C103_example: an orderly end leaves an emptied file."
  },
  {
   "property": "C104",
   "status": "proved",
   "theorems": [
    "P2P.C104_same",
    "P2P.C104_decode_depth",
    "P2P.C104_datagram",
    "P2P.C104_peer_message",
    "P2P.C104_fits",
    "P2P.C104_deep_datagram",
    "P2P.C104_deep_file",
    "P2P.C104_some_file_is_too_deep",
    "P2P.C104_encode_depth",
    "P2P.C104_encode_deep"
   ],
   "note": "Model/Depth: the codec with the number of active calls; C104_same: otherwise the functions of Model/Bencode. The size of a stack frame is a parameter; calls into the standard library are not counted."
  },
  {
   "property": "C105",
   "status": "proved",
   "theorems": [
    "P2P.C105_one_per_port",
    "P2P.C105_needs",
    "P2P.C105_one_at_a_time",
    "P2P.C105_loser_dies",
    "P2P.C105_race",
    "P2P.C105_prints_alone",
    "P2P.C105_ended_final",
    "P2P.C105_released",
    "P2P.C105_why_it_dies",
    "P2P.C105_file",
    "P2P.C105_no_listing",
    "P2P.C105_can_run",
    "P2P.C105_version_example",
    "P2P.C105_torrent_example"
   ],
   "note": "Model/Machine: package initialisation of every process, step by step. Assumed: a UDP port is bound by one socket at a time. What a running crawler does is Model/System; here it runs and ends at some moment."
  },
  {
   "property": "C106",
   "status": "proved",
   "theorems": [
    "P2P.C106_same",
    "P2P.C106_views",
    "P2P.C106_append",
    "P2P.C106_kept",
    "P2P.C106_for_ever",
    "P2P.C106_numbers",
    "P2P.C106_example",
    "P2P.C106_alias_fails",
    "P2P.C106_append_any"
   ],
   "note": "Model/Memory. Buffers may be overwritten by anything at any time (weaker than C36/C37). That no code writes through Str2Bytes is read off the code: its result is only compared and copied."
  },
  {
   "property": "C107",
   "status": "proved",
   "theorems": [
    "P2P.C107_prepared",
    "P2P.C107_crawler",
    "P2P.C107_others_only_look_up",
    "P2P.C107_lazy_races",
    "P2P.C107_dead_stops",
    "P2P.C107_example"
   ],
   "note": "Model/ConfigConc. The list of accesses (crawlerAccesses) is read off the code: all calls of DhtConfig, FetchTorrentConfig, PProfConfig and LoggerConfig."
  },
  {
   "property": "C108",
   "status": "proved",
   "theorems": [
    "P2P.C108_pool",
    "P2P.C108_startup",
    "P2P.C108_dies_late",
    "P2P.C108_sizes",
    "P2P.C108_dies",
    "P2P.C108_no_server_workers",
    "P2P.C108_no_download_workers",
    "P2P.C108_no_queue",
    "P2P.C108_halt_for_ever",
    "P2P.C108_reads_102",
    "P2P.C108_example"
   ],
   "note": "Model/PoolSize for the making of the pools, Model/System and Model/Pipeline for size 0. The greatest size Go accepts for a channel is a parameter. A negative or too great capacity of the queue of jobs ends the process at package initialisation (C105)."
  },
  {
   "property": "C109",
   "status": "proved",
   "theorems": [
    "P2P.C109_bounded",
    "P2P.C109_in_use",
    "P2P.C109_accounted",
    "P2P.C109_allocations",
    "P2P.C109_allocates_when_empty",
    "P2P.C109_default"
   ],
   "note": "executions in which the work pool has W workers and W queue places, as made by NewWorkPool; the garbage collector is not modelled"
  },
  {
   "property": "C11",
   "status": "proved",
   "theorems": [
    "P2P.C11_prefix_free",
    "P2P.C11_unambiguous"
   ],
   "note": ""
  },
  {
   "property": "C110",
   "status": "proved",
   "theorems": [
    "P2P.C110_one_piece_spared",
    "P2P.C110_failed",
    "P2P.C110_waiting",
    "P2P.C110_complete",
    "P2P.C110_one_piece",
    "P2P.C110_undisturbed",
    "P2P.C110_is_proper",
    "P2P.C110_leaves_held",
    "P2P.C110_whole_downloads",
    "P2P.C110_spoilt",
    "P2P.C110_two_honest"
   ],
   "note": "others are any users of the pool that take buffers, write into and give back only buffers they have (OthersDo); that downloads are such users is C110_is_proper. C110_undisturbed: the content for any number of pieces, if the others leave the piece buffers alone and the download does not take one again."
  },
  {
   "property": "C111",
   "status": "proved",
   "theorems": [
    "P2P.C111_one_piece_spared",
    "P2P.C111_any_interleaving",
    "P2P.C111_authentic",
    "P2P.C111_failed",
    "P2P.C111_waiting",
    "P2P.C111_complete",
    "P2P.C111_spared",
    "P2P.C111_exclusive",
    "P2P.C111_no_endless_schedule",
    "P2P.C111_never_stuck",
    "P2P.C111_schedule_decides",
    "P2P.run_fetchBodyR"
   ],
   "note": "the downloads are written once more so that they stop before every use of something shared (Model/Interleave); run_fetchBodyR proves that this is the code of Model/Peerwire. Stops are at uses of the connection, the pool and buffers; a read or write of a whole buffer is one step."
  },
  {
   "property": "C112",
   "status": "proved",
   "theorems": [
    "P2P.C112_so_far",
    "P2P.C112_one_buffer",
    "P2P.C112_memory"
   ],
   "note": "a buffer that a failed download did not give back is not counted as in use (nobody refers to it); buffers referred to only by pieces of a download under way, after the pool had no place for them or gave them to others, are not counted either"
  },
  {
   "property": "C113",
   "status": "proved",
   "theorems": [
    "P2P.C113_refines",
    "P2P.C113_files",
    "P2P.C113_memory",
    "P2P.C113_exclusive",
    "P2P.C113_complete",
    "P2P.C113_ended",
    "P2P.C113_never_stuck",
    "P2P.C113_turns_end",
    "P2P.C113_all_done",
    "P2P.C113_runs",
    "P2P.C113_parallel",
    "P2P.C113_overlap",
    "P2P.C113_end_is_final",
    "P2P.exSysNet_ends"
   ],
   "note": "the one transition system Model/SystemNet: Model/System with each download running step by step (Model/Interleave) on the one memory and pool. C113_refines: every execution of it is one of Model/System in which the others are a proper user of the pool, so C101-C108 hold of it. Connecting is one step; a read or write of a whole buffer is one step."
  },
  {
   "property": "C114",
   "status": "proved",
   "theorems": [
    "P2P.C114_fair_refines",
    "P2P.C114_listens",
    "P2P.C114_handled",
    "P2P.C114_query_answered",
    "P2P.C114_comes_out",
    "P2P.C114_downloaded",
    "P2P.C114_on_disk",
    "P2P.C114_socket_to_disk",
    "P2P.C114_fair_runs",
    "P2P.C114_example"
   ],
   "note": "Fairness (FairNet, Lemmas/SystemNetFair): per goroutine, weak, strong for handlers waiting for the channel of the jobs; a read of a connection comes back (its time-out is part of Model/Fetch). C114_socket_to_disk: data of the announced length; which data is delivered may depend on the interleaving (C111)."
  },
  {
   "property": "C115",
   "status": "proved",
   "theorems": [
    "P2P.C115_spared",
    "P2P.C115_one_piece",
    "P2P.C115_one_worker",
    "P2P.C115_socket_to_disk",
    "P2P.C115_one_worker_to_disk",
    "P2P.C115_schedule_decides",
    "P2P.C115_example"
   ],
   "note": "Being spared and NotRetaken are conditions on the execution; C115_one_worker shows the first of every execution with one worker, C115_schedule_decides that with two it may fail. With several pieces and one worker NotRetaken remains (see C110, C111)."
  },
  {
   "property": "C116",
   "status": "proved",
   "theorems": [
    "P2P.C116_alone",
    "P2P.C116_one_worker",
    "P2P.C116_honest",
    "P2P.C116_not_stored",
    "P2P.C116_no_file",
    "P2P.C116_example",
    "P2P.C116_honest_example"
   ],
   "note": "Peers that keep the framing and deliver each message in one read for the prefix and one for the body (Fed). C116_not_stored leaves open that other data has the announced hash. In C116_honest_example the announced hash is not that of the three full-size pieces (hashing 32 kB in the kernel is too slow); in C116_example, with short pieces, it is."
  },
  {
   "property": "C12",
   "status": "proved",
   "theorems": [
    "P2P.C12_encoder_accepts_exactly",
    "P2P.C12_dict",
    "P2P.C12_slice",
    "P2P.C12_nil_containers",
    "P2P.C12_outcome",
    "P2P.C12_no_panic"
   ],
   "note": ""
  },
  {
   "property": "C13",
   "status": "proved",
   "theorems": [
    "P2P.C13_present",
    "P2P.C13_nil",
    "P2P.C13_absent_or_wrong_type",
    "P2P.C13_message",
    "P2P.C13_or_default",
    "P2P.C13_val_or_default_ignores_default",
    "P2P.C13_exist",
    "P2P.C13_message_containers"
   ],
   "note": ""
  },
  {
   "property": "C14",
   "status": "proved",
   "theorems": [
    "P2P.C14_in_range",
    "P2P.C14_out_of_range",
    "P2P.C14_wrong_type",
    "P2P.C14_exist",
    "P2P.C14_contains_string",
    "P2P.C14_contains_string_total",
    "P2P.C14_contains_non_string"
   ],
   "note": "Unicode folding of non-ASCII runes is a parameter"
  },
  {
   "property": "C15",
   "status": "proved",
   "theorems": [
    "P2P.C15_parse_total",
    "P2P.C15_parse_join",
    "P2P.C15_join_parse",
    "P2P.C15_parse_ignores_tail",
    "P2P.C15_parse_join_mapped",
    "P2P.C15_join_not_v4"
   ],
   "note": ""
  },
  {
   "property": "C16",
   "status": "proved",
   "theorems": [
    "P2P.C16_parse_join",
    "P2P.C16_join_parse",
    "P2P.C16_parse_panics",
    "P2P.C16_parse_join_mapped"
   ],
   "note": "capacity of []byte(s) is a parameter >= len"
  },
  {
   "property": "C17",
   "status": "proved",
   "theorems": [
    "P2P.C17_unique_in_window",
    "P2P.C17_shape_and_period",
    "P2P.C17_positions_distinct"
   ],
   "note": "interleavings of the lock/increment/read/unlock steps; positions are ghost lock-acquisition numbers"
  },
  {
   "property": "C18",
   "status": "proved",
   "theorems": [
    "P2P.C18_prefix_length",
    "P2P.C18_symmetric_bounded",
    "P2P.C18_maximal",
    "P2P.C18_closer"
   ],
   "note": "bit-level characterisation, for all byte strings"
  },
  {
   "property": "C19",
   "status": "proved",
   "theorems": [
    "P2P.C19_runs",
    "P2P.C19_no_panic",
    "P2P.C19_structure"
   ],
   "note": "all histories of AddNode, all k and capacity"
  },
  {
   "property": "C20",
   "status": "proved",
   "theorems": [
    "P2P.C20_never_evicted",
    "P2P.C20_history",
    "P2P.C20_host_stored"
   ],
   "note": ""
  },
  {
   "property": "C21",
   "status": "proved",
   "theorems": [
    "P2P.C21_error",
    "P2P.C21_nil",
    "P2P.C21_room",
    "P2P.C21_nil_stored",
    "P2P.C21_nil_stored_production",
    "P2P.C21_nil_but_dropped"
   ],
   "note": "nil-but-dropped history proved; in production a dropped node has the host's own id"
  },
  {
   "property": "C22",
   "status": "proved",
   "theorems": [
    "P2P.C22_size",
    "P2P.C22_size_exact"
   ],
   "note": "k >= 1"
  },
  {
   "property": "C23",
   "status": "proved",
   "theorems": [
    "P2P.C23_find",
    "P2P.C23_confusion"
   ],
   "note": ""
  },
  {
   "property": "C24",
   "status": "proved",
   "theorems": [
    "P2P.C24_find_closest",
    "P2P.C24_negative",
    "P2P.C24_closest",
    "P2P.C24_closest_host",
    "P2P.C24_not_closest"
   ],
   "note": ""
  },
  {
   "property": "C25",
   "status": "proved",
   "theorems": [
    "P2P.C25_contents",
    "P2P.C25_result",
    "P2P.C25_never_lost",
    "P2P.C25_slices_stable",
    "P2P.C25_reads_safe",
    "P2P.C25_rejected_full",
    "P2P.C25_reads_linear",
    "P2P.C25_progress",
    "P2P.C25_progress_writers_first",
    "P2P.C25_calls_end"
   ],
   "note": "all interleavings of lock-level steps, any number of goroutines"
  },
  {
   "property": "C26",
   "status": "proved",
   "theorems": [
    "P2P.C26_chain",
    "P2P.C26_all_run"
   ],
   "note": "handlers are finite programs over an arbitrary state; any number of Next calls"
  },
  {
   "property": "C27",
   "status": "proved",
   "theorems": [
    "P2P.registerAll_ok",
    "P2P.C27_query_answered"
   ],
   "note": "default handlers; the other goroutines are an arbitrary oracle; decoding of the reply is for replies shorter than 2^63 bytes"
  },
  {
   "property": "C28",
   "status": "proved",
   "theorems": [
    "P2P.C28_silent",
    "P2P.C28_response_not_answered"
   ],
   "note": ""
  },
  {
   "property": "C29",
   "status": "proved",
   "theorems": [
    "P2P.C29_never_crashes",
    "P2P.C29_crawler"
   ],
   "note": "for any terminating handlers and middlewares, which may panic; Go stack exhaustion is outside the model"
  },
  {
   "property": "C30",
   "status": "proved",
   "theorems": [
    "P2P.C30_matched",
    "P2P.C30_found_is_last_registered",
    "P2P.C30_never_removed",
    "P2P.C30_history"
   ],
   "note": "histories are interleavings of the atomic interactions of any number of goroutines"
  },
  {
   "property": "C31",
   "status": "proved",
   "theorems": [
    "P2P.C31_bounded"
   ],
   "note": ""
  },
  {
   "property": "C32",
   "status": "proved",
   "theorems": [
    "P2P.C32_end_to_end"
   ],
   "note": "datagrams shorter than 2^63 bytes; through the 1024-byte receive buffers: C88_end_to_end"
  },
  {
   "property": "C33",
   "status": "proved",
   "theorems": [
    "P2P.C33_fanout",
    "P2P.C33_queries",
    "P2P.C33_undisturbed"
   ],
   "note": ""
  },
  {
   "property": "C34",
   "status": "proved",
   "theorems": [
    "P2P.C34_query",
    "P2P.C34_others"
   ],
   "note": "the channel send is modelled as completing"
  },
  {
   "property": "C35",
   "status": "proved",
   "theorems": [
    "P2P.C35_sizes",
    "P2P.C35_methods",
    "P2P.C35_ends",
    "P2P.C35_put_ends"
   ],
   "note": "Pool of buffers per width; every interleaving of Get/GetBySize/Put by any number of goroutines."
  },
  {
   "property": "C36",
   "status": "proved",
   "theorems": [
    "P2P.C36_no_sharing",
    "P2P.C36_fresh_hold",
    "P2P.C36_double_put_shares"
   ],
   "note": "No sharing under the give-back-only-what-you-hold discipline; C36_double_put_shares shows that the discipline is needed."
  },
  {
   "property": "C37",
   "status": "proved",
   "theorems": [
    "P2P.C37_decoded_is_received",
    "P2P.C37_no_sharing",
    "P2P.C37_in_order",
    "P2P.C37_truncated",
    "P2P.C37_reads"
   ],
   "note": "Receiver, decoder and closer goroutines with arbitrary peers."
  },
  {
   "property": "C38",
   "status": "proved",
   "theorems": [
    "P2P.C38_wire_format",
    "P2P.C38_build_panics",
    "P2P.C38_parse",
    "P2P.C38_parse_iff",
    "P2P.C38_wrong_length",
    "P2P.C38_roundtrip",
    "P2P.C38_support_extended"
   ],
   "note": ""
  },
  {
   "property": "C39",
   "status": "proved",
   "theorems": [
    "P2P.C39_roundtrip",
    "P2P.C39_accepts",
    "P2P.C39_nil_metadata",
    "P2P.C39_nil_metadata_text"
   ],
   "note": "map iteration order is a parameter"
  },
  {
   "property": "C40",
   "status": "proved",
   "theorems": [
    "P2P.C40_roundtrip",
    "P2P.C40_payload_is_rest"
   ],
   "note": ""
  },
  {
   "property": "C41",
   "status": "proved",
   "theorems": [
    "P2P.C41_authentic",
    "P2P.C41_no_panic",
    "P2P.C41_closes"
   ],
   "note": "SHA-1 is a parameter (any function); process death by memory exhaustion is C58"
  },
  {
   "property": "C42",
   "status": "proved",
   "theorems": [
    "P2P.C42_piece_count",
    "P2P.C42_requests",
    "P2P.C42_complete"
   ],
   "note": ""
  },
  {
   "property": "C43",
   "status": "proved",
   "theorems": [
    "P2P.C43_honest_download",
    "P2P.C43_honest_peer"
   ],
   "note": ""
  },
  {
   "property": "C44",
   "status": "proved",
   "theorems": [
    "P2P.C44_second_piece_overwrites",
    "P2P.C44_any_pieces",
    "P2P.C44_honest_pieces",
    "P2P.C44_intact_iff",
    "P2P.C44_one_buffer"
   ],
   "note": "the expected property (pieces survive) is refuted in general"
  },
  {
   "property": "C45",
   "status": "proved",
   "theorems": [
    "P2P.C45_two_reads",
    "P2P.C45_framed",
    "P2P.C45_prefix_only",
    "P2P.C45_framing_lost"
   ],
   "note": ""
  },
  {
   "property": "C46",
   "status": "proved",
   "theorems": [
    "P2P.C46_flush",
    "P2P.C46_files",
    "P2P.C46_complete",
    "P2P.C46_failed_write_truncates"
   ],
   "note": "SHA-1 is a parameter; C46_files/C46_complete assume that two downloads never bring different data with the same SHA-1"
  },
  {
   "property": "C47",
   "status": "proved",
   "theorems": [
    "P2P.C47_address",
    "P2P.C47_no_port",
    "P2P.C47_ipv4",
    "P2P.C47_ipv4_mapped",
    "P2P.C47_ipv6_undialable",
    "P2P.C47_implied"
   ],
   "note": "IPv6 text is a parameter; net.SplitHostPort is specified by SplitsTo"
  },
  {
   "property": "C48",
   "status": "proved",
   "theorems": [
    "P2P.C48_fifo_once",
    "P2P.C48_progress",
    "P2P.C48_empty_pool"
   ],
   "note": ""
  },
  {
   "property": "C49",
   "status": "proved",
   "theorems": [
    "P2P.C49_no_submit_after_shutdown",
    "P2P.C49_submit_panics",
    "P2P.C49_status",
    "P2P.C49_status_backwards",
    "P2P.C49_late_submission"
   ],
   "note": ""
  },
  {
   "property": "C50",
   "status": "proved",
   "theorems": [
    "P2P.C50_workers_never_exit",
    "P2P.C50_only_timeout",
    "P2P.C50_no_overlap_no_panic",
    "P2P.C50_overlap_kills",
    "P2P.C50_dead_stops"
   ],
   "note": ""
  },
  {
   "property": "C51",
   "status": "proved",
   "theorems": [
    "P2P.C51_at_most_once",
    "P2P.C51_all_done",
    "P2P.C51_status",
    "P2P.C51_progress",
    "P2P.C51_timeout_leaks",
    "P2P.C51_second_call_again",
    "P2P.C51_status_backwards",
    "P2P.C51_panic_kills",
    "P2P.C51_only_cleans_kill",
    "P2P.C51_dead_stops"
   ],
   "note": ""
  },
  {
   "property": "C52",
   "status": "proved",
   "theorems": [
    "P2P.C52_linearizable",
    "P2P.C52_only_del_races",
    "P2P.C52_put_get_no_race",
    "P2P.C52_no_deadlock",
    "P2P.C52_del_races"
   ],
   "note": "sequentially consistent memory; an overlapping access ends the model run"
  },
  {
   "property": "C53",
   "status": "proved",
   "theorems": [
    "P2P.C53_frozen",
    "P2P.C53_fresh",
    "P2P.C53_flag_only_pprof"
   ],
   "note": "viper's decoding of a section is a parameter"
  },
  {
   "property": "C54",
   "status": "proved",
   "theorems": [
    "P2P.C54_prints",
    "P2P.C54_trace_always",
    "P2P.C54_panic",
    "P2P.C54_same",
    "P2P.C54_first",
    "P2P.C54_prefix",
    "P2P.C54_level_ineffective",
    "P2P.C54_known",
    "P2P.C54_unknown"
   ],
   "note": "console loggers only; the text of the context dictionary is not modelled; strings.ToUpper is a parameter"
  },
  {
   "property": "C55",
   "status": "proved",
   "theorems": [
    "P2P.C55_line",
    "P2P.C55_trailing",
    "P2P.C55_bad",
    "P2P.C55_ends",
    "P2P.C55_directory",
    "P2P.C55_single",
    "P2P.C55_unreadable"
   ],
   "note": ""
  },
  {
   "property": "C56",
   "status": "proved",
   "theorems": [
    "P2P.C56_receiver_ends",
    "P2P.C56_receiver_not_stuck",
    "P2P.C56_no_more_packets",
    "P2P.C56_closed_on_return"
   ],
   "note": "UDP server close; socket reads modelled as nondeterministic results."
  },
  {
   "property": "C57",
   "status": "proved",
   "theorems": [
    "P2P.C57_puts_own",
    "P2P.C57_leaks_only_keepalive",
    "P2P.C57_read_within"
   ],
   "note": ""
  },
  {
   "property": "C58",
   "status": "proved",
   "theorems": [
    "P2P.C58_fatal_only_by_allocation",
    "P2P.C58_asks",
    "P2P.C58_peer_can_kill"
   ],
   "note": ""
  },
  {
   "property": "C59",
   "status": "proved",
   "theorems": [
    "P2P.C59_terminates"
   ],
   "note": ""
  },
  {
   "property": "C60",
   "status": "proved",
   "theorems": [
    "P2P.C60_only_registered",
    "P2P.C60_dies_only_by_race",
    "P2P.C60_registered_before",
    "P2P.C60_registered_too_late",
    "P2P.C60_race_kills",
    "P2P.C60_race_misses",
    "P2P.C60_before_example",
    "P2P.C60_dead_stops"
   ],
   "note": ""
  },
  {
   "property": "C61",
   "status": "proved",
   "theorems": [
    "P2P.C61_one_logger_per_name",
    "P2P.C61_only_race",
    "P2P.C61_one_goroutine",
    "P2P.C61_race_possible",
    "P2P.C61_example"
   ],
   "note": ""
  },
  {
   "property": "C62",
   "status": "proved",
   "theorems": [
    "P2P.C62_fifo",
    "P2P.C62_once",
    "P2P.C62_bounded",
    "P2P.C62_takes_in",
    "P2P.C62_terminates",
    "P2P.C62_all_done",
    "P2P.C62_stall",
    "P2P.C62_stall_reachable",
    "P2P.C62_downloads",
    "P2P.C62_reply_after_accept",
    "P2P.C62_backpressure",
    "P2P.C62_crawler_all_done",
    "P2P.C62_halt",
    "P2P.C62_all_done_reachable"
   ],
   "note": "handlers abstract in Model/Pipeline, instantiated with the krpc handlers in Props/PipelineDht"
  },
  {
   "property": "C63",
   "status": "proved",
   "theorems": [
    "P2P.C63_bootstrap",
    "P2P.C63_packets_wait",
    "P2P.C63_none_lost",
    "P2P.C63_takes_in",
    "P2P.C63_contact_order",
    "P2P.C63_death",
    "P2P.C63_progress",
    "P2P.C63_registered_before_sent",
    "P2P.C63_response_finds_request",
    "P2P.C63_early_packet",
    "P2P.C63_panic_text"
   ],
   "note": ""
  },
  {
   "property": "C64",
   "status": "proved",
   "theorems": [
    "P2P.C64_full_iff",
    "P2P.C64_result",
    "P2P.C64_full_permanent",
    "P2P.C64_refused_for_ever",
    "P2P.C64_refused_then_accepted"
   ],
   "note": ""
  },
  {
   "property": "C65",
   "status": "proved",
   "theorems": [
    "P2P.C65_answerable",
    "P2P.C65_error_reply"
   ],
   "note": "stack trace text is a parameter"
  },
  {
   "property": "C66",
   "status": "proved",
   "theorems": [
    "P2P.C66_text",
    "P2P.C66_value",
    "P2P.C66_order",
    "P2P.C66_lines",
    "P2P.C66_forged",
    "P2P.C66_ambiguous",
    "P2P.C66_error_text",
    "P2P.C66_panics_iff",
    "P2P.C66_biz_text",
    "P2P.C66_flag"
   ],
   "note": "json.Marshal and the String/Error methods of values are parameters"
  },
  {
   "property": "C67",
   "status": "proved",
   "theorems": [
    "P2P.C67_outcome",
    "P2P.C67_history",
    "P2P.C67_reachable",
    "P2P.C67_dispatch",
    "P2P.C67_fresh_server"
   ],
   "note": ""
  },
  {
   "property": "C68",
   "status": "proved",
   "theorems": [
    "P2P.C68_call",
    "P2P.C68_always",
    "P2P.C68_level",
    "P2P.C68_names",
    "P2P.C68_infohash"
   ],
   "note": "the behaviour of zap itself is stated in Model/Zap (zapCheck), its JSON text and file rotation are not modelled"
  },
  {
   "property": "C69",
   "status": "proved",
   "theorems": [
    "P2P.C69_recorded",
    "P2P.C69_others",
    "P2P.C69_file_recorded"
   ],
   "note": "that zap puts the record on disk is not modelled (C68)"
  },
  {
   "property": "C70",
   "status": "proved",
   "theorems": [
    "P2P.C70_complete",
    "P2P.C70_failed",
    "P2P.C70_waiting"
   ],
   "note": "each length prefix and each body arrives in one read; what happens otherwise is C45; reuse of buffers is C44"
  },
  {
   "property": "C71",
   "status": "proved",
   "theorems": [
    "P2P.C71_stops",
    "P2P.C71_asks"
   ],
   "note": "the timer itself is an arbitrary oracle"
  },
  {
   "property": "C72",
   "status": "proved",
   "theorems": [
    "P2P.C72_queries",
    "P2P.C72_replies",
    "P2P.C72_errors",
    "P2P.C72_nodes_arrive",
    "P2P.C72_peers_arrive"
   ],
   "note": "datagrams shorter than 2^63 bytes; truncation by the 1024-byte receive buffer is C37 and C88"
  },
  {
   "property": "C73",
   "status": "proved",
   "theorems": [
    "P2P.C73_linearizable",
    "P2P.C73_once",
    "P2P.C73_exclusive",
    "P2P.C73_quiescent",
    "P2P.C73_no_panic",
    "P2P.C73_progress",
    "P2P.C73_progress_writers_first",
    "P2P.C73_sections_end",
    "P2P.C73_found_stays"
   ],
   "note": "bucket methods are single steps (their own lock: C25); RWMutex without writer preference (more schedules); progress also proved when a waiting writer blocks new readers; logger calls left out"
  },
  {
   "property": "C74",
   "status": "proved",
   "theorems": [
    "P2P.C74_conversation",
    "P2P.C74_conversation_always",
    "P2P.C74_failure_ends",
    "P2P.C74_requests"
   ],
   "note": "the specification is the automaton in Spec/Client.lean; one write is one call of Write (all bytes or an error)"
  },
  {
   "property": "C75",
   "status": "proved",
   "theorems": [
    "P2P.C75_no_late_data",
    "P2P.C75_duration",
    "P2P.C75_limit_unused",
    "P2P.C75_hangs",
    "P2P.C75_attack"
   ],
   "note": "timings are functions on histories constrained by the documented semantics of deadlines and timers (Spec/Timing.lean); computing takes no time"
  },
  {
   "property": "C76",
   "status": "proved",
   "theorems": [
    "P2P.C76_keeps_worker",
    "P2P.C76_at_most",
    "P2P.C76_captured",
    "P2P.C76_inevitable",
    "P2P.C76_settles",
    "P2P.C76_reachable",
    "P2P.C76_crawler",
    "P2P.C76_attacker",
    "P2P.C76_attack"
   ],
   "note": "the peers and timings of the attack are those of C75; computing takes no time"
  },
  {
   "property": "C77",
   "status": "proved",
   "theorems": [
    "P2P.C77_reads",
    "P2P.C77_same_utf8",
    "P2P.C77_valid_uncased",
    "P2P.C77_find_utf8",
    "P2P.C77_same_id",
    "P2P.C77_ascii",
    "P2P.C77_invalid",
    "P2P.C77_not_stored",
    "P2P.C77_find"
   ],
   "note": "the Unicode folding table is a parameter; hypothesis of the theorems about invalid bytes: U+FFFD has no other case variant"
  },
  {
   "property": "C78",
   "status": "proved",
   "theorems": [
    "P2P.C78_reply",
    "P2P.C78_error",
    "P2P.C78_response",
    "P2P.C78_any",
    "P2P.C78_amplifies"
   ],
   "note": "the length of a stack trace is a parameter; node ids have 20 bytes (a SHA-1 digest)"
  },
  {
   "property": "C79",
   "status": "proved",
   "theorems": [
    "P2P.C79_served",
    "P2P.C79_replayed"
   ],
   "note": "packets handled one after the other; other goroutines are quiet"
  },
  {
   "property": "C80",
   "status": "proved",
   "theorems": [
    "P2P.C80_query",
    "P2P.C80_response",
    "P2P.C80_configured"
   ],
   "note": "any terminating handlers; the bytes of the debug.Stack text are a parameter"
  },
  {
   "property": "C81",
   "status": "proved",
   "theorems": [
    "P2P.C81_length",
    "P2P.C81_padding",
    "P2P.C81_ids",
    "P2P.C81_handshake",
    "P2P.C81_honest_peer",
    "P2P.C81_files",
    "P2P.C81_reaction",
    "P2P.C81_pad_bytes",
    "P2P.C81_fips"
   ],
   "note": "crypto/sha1 (standard library) is modelled by FIPS 180-4; collision resistance is not claimed: C81_files assumes no collision among the downloads"
  },
  {
   "property": "C82",
   "status": "proved",
   "theorems": [
    "P2P.C82_contacts",
    "P2P.C82_per_prefix",
    "P2P.C82_half",
    "P2P.C82_same_address",
    "P2P.C82_start"
   ],
   "note": "the route table is the one dht.go creates; 1288 = 161 buckets of 8 without the own node, plus one node that may be dropped by a split although nil is returned"
  },
  {
   "property": "C83",
   "status": "proved",
   "theorems": [
    "P2P.C83_startup",
    "P2P.C83_needs_signal",
    "P2P.C83_deaf_while_bootstrapping",
    "P2P.C83_one_signal_suffices",
    "P2P.C83_socket_closed",
    "P2P.C83_open_until_signal",
    "P2P.C83_killed",
    "P2P.C83_safe_once_registered",
    "P2P.C83_deaf_after_close",
    "P2P.C83_none_lost",
    "P2P.C83_orderly_end",
    "P2P.C83_killed_run"
   ],
   "note": "real time is a nondeterministic timeout; progress is stated as: a step of the main goroutine exists and every such step brings the end nearer"
  },
  {
   "property": "C84",
   "status": "proved",
   "theorems": [
    "P2P.C84_bucket",
    "P2P.C84_iterator"
   ],
   "note": "one caller; C25 is about several"
  },
  {
   "property": "C85",
   "status": "proved",
   "theorems": [
    "P2P.C85_started",
    "P2P.C85_finished",
    "P2P.C85_submit",
    "P2P.C85_shutdown",
    "P2P.C85_needs_return"
   ],
   "note": "Infinite executions (Verif/Fair.lean). Fairness is a hypothesis; liveDemo, shutDemo are concrete fair executions, C85_needs_return shows that the assumption on tasks is needed"
  },
  {
   "property": "C86",
   "status": "proved",
   "theorems": [
    "P2P.C86_packet_handled",
    "P2P.C86_job_started",
    "P2P.C86_job_finished",
    "P2P.C86_takes_in",
    "P2P.C86_announce",
    "P2P.C86_fair_runs"
   ],
   "note": "FairCrawl collects the fairness assumptions; C86_fair_runs: fair executions with any number of packets exist; C62_halt is the counterpart when all downloads hang"
  },
  {
   "property": "C87",
   "status": "proved",
   "theorems": [
    "P2P.C87_ends"
   ],
   "note": "Weak fairness to the main goroutine; time is not modelled, the timeout of 5 s may fire at any time"
  },
  {
   "property": "C88",
   "status": "proved",
   "theorems": [
    "P2P.C88_cut",
    "P2P.C88_query",
    "P2P.C88_reply",
    "P2P.C88_nodes_all_or_none",
    "P2P.C88_queries_fit",
    "P2P.C88_replies_fit",
    "P2P.C88_replies_cut",
    "P2P.C88_end_to_end"
   ],
   "note": "PartOf (Spec/Part): every entry or element present is unchanged or itself a part. CutExamples: an announce whose implied_port is lost makes the crawler fetch from another port."
  },
  {
   "property": "C89",
   "status": "proved",
   "theorems": [
    "P2P.C89_origin",
    "P2P.C89_accepted",
    "P2P.C89_offered",
    "P2P.C89_asked",
    "P2P.C89_no_bootstrap",
    "P2P.C89_injection"
   ],
   "note": "positions in a history give the order in time; Crawled is the chain back to a bootstrap host"
  },
  {
   "property": "C90",
   "status": "proved",
   "theorems": [
    "P2P.C90_transparent",
    "P2P.C90_sources",
    "P2P.C90_sends",
    "P2P.C90_query",
    "P2P.C90_response",
    "P2P.C90_other",
    "P2P.C90_silent",
    "P2P.C90_count",
    "P2P.C90_forged",
    "P2P.C90_lines"
   ],
   "note": "Model/Console is the handling with its log statements; C90_transparent ties it to Model/Krpc and Model/Dht. Texts of the runtime, of errors and of encoding/json are parameters (ConsoleEnv)."
  },
  {
   "property": "C91",
   "status": "proved",
   "theorems": [
    "P2P.C91_same",
    "P2P.C91_decode_linear",
    "P2P.C91_decode_size",
    "P2P.C91_encode_same",
    "P2P.C91_encode_quadratic",
    "P2P.C91_encode_quadratic_slice",
    "P2P.C91_encode_quadratic_reached"
   ],
   "note": "Model/Cost is Model/Bencode with a counter; C91_same and C91_encode_same tie them. A map write is counted with the hashing of its key; reflect and the allocator are taken as constant."
  },
  {
   "property": "C92",
   "status": "proved",
   "theorems": [
    "P2P.C92_refines",
    "P2P.C92_no_directory",
    "P2P.C92_written",
    "P2P.C92_between",
    "P2P.C92_on_disk",
    "P2P.C92_files",
    "P2P.C92_announced",
    "P2P.C92_honest_peer",
    "P2P.C92_fair_runs",
    "P2P.C92_captured",
    "P2P.C92_example"
   ],
   "note": "One transition system for pipeline and directory. Fairness: the scheduler forgets nobody and one download worker never gets a download that does not end (C76). SHA-1 collisions among the data fetched are excluded by the hypothesis SameData. That no file operation fails is a hypothesis of the theorems that need it."
  },
  {
   "property": "C93",
   "status": "proved",
   "theorems": [
    "P2P.C93_stays",
    "P2P.C93_files",
    "P2P.C93_repaired",
    "P2P.C93_crash_loses",
    "P2P.C93_example"
   ],
   "note": "A life is any reachable state of Model/Whole. Death of the process, not loss of power; nobody else changes the directory."
  },
  {
   "property": "C94",
   "status": "proved",
   "theorems": [
    "P2P.C94_listing",
    "P2P.C94_unlistable",
    "P2P.C94_poison",
    "P2P.C94_poison_stays",
    "P2P.C94_shown"
   ],
   "note": "DirView ties the file system the command sees to the files the crawler wrote. C94_poison is C92_announced followed by C94_unlistable; C94_poison_stays covers any number of restarts."
  },
  {
   "property": "C95",
   "status": "proved",
   "theorems": [
    "P2P.C95_bound",
    "P2P.C95_learned",
    "P2P.C95_closed",
    "P2P.C95_queries_only",
    "P2P.C95_dies_out",
    "P2P.C95_two_crawlers",
    "P2P.C95_outsider"
   ],
   "note": "Model/Network composes any number of copies of the modelled packet handling; tables and pending requests of each copy are over-approximated by arbitrary oracles. A duplicate made by the network counts as a datagram from outside."
  },
  {
   "property": "C96",
   "status": "proved",
   "theorems": [
    "P2P.C96_bucket",
    "P2P.C96_route_table",
    "P2P.C96_txid",
    "P2P.C96_map",
    "P2P.C96_map_no_del",
    "P2P.C96_registry",
    "P2P.C96_fair_runs_exist",
    "P2P.C96_writers_can_starve"
   ],
   "note": "One rule (Verif/Locks.lean: Locking, LockFair, Locking.returns) applied to five data structures. LockFair: weak fairness for goroutines that do not wait, strong fairness for those that wait for a lock, and the documented guarantee of sync.RWMutex. C96_fair_runs_exist: every finite execution can be continued to a fair one. C96_writers_can_starve: the guarantee of RWMutex cannot be dropped."
  },
  {
   "property": "C97",
   "status": "proved",
   "theorems": [
    "P2P.C97_verdict",
    "P2P.C97_match_iff",
    "P2P.C97_count",
    "P2P.C97_job",
    "P2P.C97_file",
    "P2P.C97_lines",
    "P2P.C97_message",
    "P2P.C97_metadata_message",
    "P2P.exJob_written"
   ],
   "note": "Model/DownloadLog writes bep9.go and fetchtorrent.go down once more with their log statements; the first half of C97_verdict says that without the log it is Model/Peerwire. Hypothesis OrderOK: a map iteration visits every key once. C97_lines: the texts of the system (errors, json.Marshal) contain no line feed."
  },
  {
   "property": "C98",
   "status": "proved",
   "theorems": [
    "P2P.C98_same",
    "P2P.C98_created",
    "P2P.C98_log",
    "P2P.C98_alarm",
    "P2P.C98_false_alarm",
    "P2P.C98_history",
    "P2P.C98_kinds",
    "P2P.C98_texts"
   ],
   "note": "Model/RouteTableLog writes dht/routetable.go down once more with its log statements; C98_same: without the log it is Model/RouteTable"
  },
  {
   "property": "C99",
   "status": "proved",
   "theorems": [
    "P2P.C99_linearizable",
    "P2P.C99_quiescent",
    "P2P.C99_no_panic",
    "P2P.C99_never_waits",
    "P2P.C99_inside_moves",
    "P2P.C99_sections_end",
    "P2P.C99_progress",
    "P2P.C99_guarded",
    "P2P.C99_one_lock",
    "P2P.C99_call_ends"
   ],
   "note": "table over pointers to buckets with explicit bucket locks; simulation by the model of C73"
  }
 ]
}