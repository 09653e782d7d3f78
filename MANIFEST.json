{
 "claims": [
  {
   "property": "C01",
   "status": "proved",
   "theorems": [
    "Verif.Ring.C01_ring_is_bounded_fifo"
   ],
   "note": "Refinement to an independent bounded-FIFO machine, all call sequences."
  },
  {
   "property": "C02",
   "status": "proved",
   "theorems": [
    "Verif.Ring.C02_queries_agree"
   ],
   "note": "Size below 2^31 (signed int arithmetic of occupancy)."
  },
  {
   "property": "C03",
   "status": "proved",
   "theorems": [
    "Verif.Ring.C03_iteration_visits_contents"
   ],
   "note": ""
  },
  {
   "property": "C04",
   "status": "proved",
   "theorems": [
    "Verif.Spsc.C04_spsc_safe",
    "Verif.Spsc.C04_producer_preserves_stored"
   ],
   "note": "Small-step machine with release/acquire modification-order histories (stale loads allowed)."
  },
  {
   "property": "C05",
   "status": "partial",
   "theorems": [
    "Verif.Alloc.C05_conf_usable_iff",
    "Verif.Alloc.C05_conf_sequence_partial",
    "Verif.Alloc.C05_out_of_memory",
    "Verif.Alloc.C05_numa_node_dangling_counterexample",
    "Verif.Alloc.C05_intrinsic_unaligned_dangling_counterexample",
    "Verif.Alloc.C05_numa_aligned_badfree_counterexample",
    "Verif.Alloc.C05_throw_then_double_free_counterexample"
   ],
   "note": "False of the code for four option combinations (counterexamples proved); exact characterisation proved."
  },
  {
   "property": "C06",
   "status": "partial",
   "theorems": [
    "Verif.Ring.C06_pop_beyond_contents_counterexample",
    "Verif.Ring.C06_no_resurrection_partial"
   ],
   "note": "False when popping more than stored (release build); holds when pops do not exceed the occupancy."
  },
  {
   "property": "C07",
   "status": "proved",
   "theorems": [
    "Verif.Search.C07_binary_search",
    "Verif.Search.C07_width"
   ],
   "note": "The 32-bit index arithmetic agrees with the model for buffers of up to 2^31 elements (C07_width)."
  },
  {
   "property": "C08",
   "status": "proved",
   "theorems": [
    "Verif.Search.C08_fixed_rate_exact"
   ],
   "note": ""
  },
  {
   "property": "C09",
   "status": "partial",
   "theorems": [
    "Verif.Search.C09_gap_counterexample",
    "Verif.Search.C09_empty_counterexample",
    "Verif.Search.C09_lookup_sound_partial"
   ],
   "note": "False with gaps and on an empty buffer; holds on gap-free contents."
  },
  {
   "property": "C10",
   "status": "partial",
   "theorems": [
    "Verif.SkipList.C10_sorted_buffer_partial",
    "Verif.SkipList.C10_pop_discards_newest",
    "Verif.SkipList.C10_pop_oldest_counterexample",
    "Verif.SkipList.C10_read_does_not_remove"
   ],
   "note": "False for pop: it discards the newest elements; ordering, uniqueness and lookup hold."
  },
  {
   "property": "C11",
   "status": "partial",
   "theorems": [
    "Verif.DataReq.C11_found_exact",
    "Verif.DataReq.C11_every_window",
    "Verif.DataReq.C11_skiplist_counterexample"
   ],
   "note": "Proved for both ring buffers; false for the sorted-list buffers (frames of the payload straddling the window begin are left out)."
  },
  {
   "property": "C12",
   "status": "partial",
   "theorems": [
    "Verif.DataReq.C12_classification_partial",
    "Verif.DataReq.C12_late",
    "Verif.DataReq.C12_inverted_window_counterexample",
    "Verif.DataReq.C12_never_uncategorized"
   ],
   "note": "For well-formed time-ordered contents and exact lookup. False for windows that end before they begin and begin more than a payload after the newest one, on fixed-rate buffers: treated as not yet arrived (exact outcome proved). 'Uncategorised' excluded unconditionally."
  },
  {
   "property": "C13",
   "status": "proved",
   "theorems": [
    "Verif.DataReq.C13_found_complete"
   ],
   "note": "Frames received in increasing time order; rejected payloads are not part of the history of stored data."
  },
  {
   "property": "C14",
   "status": "proved",
   "theorems": [
    "Verif.DataReq.C14_fragment_echoes_request",
    "Verif.DataReq.C14_empty_fragment_echoes"
   ],
   "note": "Unconditional in the buffer contents."
  },
  {
   "property": "C15",
   "status": "proved",
   "theorems": [
    "Verif.Waiting.C15_scan_treats_each_once"
   ],
   "note": ""
  },
  {
   "property": "C16",
   "status": "proved",
   "theorems": [
    "Verif.Waiting.C16_bounded_passes"
   ],
   "note": ""
  },
  {
   "property": "C17",
   "status": "partial",
   "theorems": [
    "Verif.Lifecycle.C17_parked_after_exit_counterexample",
    "Verif.Lifecycle.C17_issued_after_join_counterexample",
    "Verif.Lifecycle.C17_answered_by_stop_partial",
    "Verif.Lifecycle.C17_stop_terminates"
   ],
   "note": "False of the code: a pool task may park a request after the waiting thread left, or a request may be issued after the pool was joined; proved without these two races."
  },
  {
   "property": "C18",
   "status": "proved",
   "theorems": [
    "Verif.Lifecycle.C18_never_answered_twice"
   ],
   "note": ""
  },
  {
   "property": "C19",
   "status": "proved",
   "theorems": [
    "Verif.Protocol.C19_cleanup_excludes_requests"
   ],
   "note": "Any number of request threads."
  },
  {
   "property": "C20",
   "status": "proved",
   "theorems": [
    "Verif.Protocol.C20_no_deadlock",
    "Verif.Protocol.C20_pending_cleanup_runs",
    "Verif.Protocol.C20_no_entry_while_pending"
   ],
   "note": ""
  },
  {
   "property": "C21",
   "status": "partial",
   "theorems": [
    "Verif.Cleanup.C21_cleanup_prefix",
    "Verif.Cleanup.C21_skiplist_counterexample",
    "Verif.Cleanup.C21_skiplist_discards_newest",
    "Verif.Cleanup.C21_skiplist_exact"
   ],
   "note": "Proved for the ring buffers; false for the sorted-list buffer under the default cleanup (PACMAN)."
  },
  {
   "property": "C22",
   "status": "partial",
   "theorems": [
    "Verif.Cleanup.C22_ub_iff",
    "Verif.Cleanup.C22_pop_all_counterexample",
    "Verif.Cleanup.C22_cleanup_safe_partial"
   ],
   "note": "False for pop_size_pct = 1, which conf accepts; safe for every fraction up to 1 - 2^-22; exact undefined-behaviour condition proved."
  },
  {
   "property": "C23",
   "status": "proved",
   "theorems": [
    "Verif.Registry.C23_registry_latest",
    "Verif.Registry.C23_one_interval_per_name"
   ],
   "note": "Sequential calls; the queries are not locked in the code (see DESIGN)."
  },
  {
   "property": "C24",
   "status": "partial",
   "theorems": [
    "Verif.Pipeline.C24_rejected_write_counterexample",
    "Verif.Pipeline.C24_backward_jump_counterexample",
    "Verif.Pipeline.C24_unflagged_gapfree_partial",
    "Verif.Pipeline.C24_lookup_exact_partial",
    "Verif.PdsLink.C24_photon_counterexample"
   ],
   "note": "False after a rejected write, after a backward time jump, and always on photon-detector links, which check nothing; proved for increasing timestamps without rejected writes."
  },
  {
   "property": "C41",
   "status": "proved",
   "theorems": [
    "Verif.TsCheck.C41_discontinuity_iff",
    "Verif.TsCheck.C41_emulator_continuous",
    "Verif.Proc.C41_daphne_emulator_continuous"
   ],
   "note": "WIB and WIB2 constants are instances."
  },
  {
   "property": "C52",
   "status": "proved",
   "theorems": [
    "Verif.SkipList.C52_daphne_cleanup",
    "Verif.SkipList.C52_limit",
    "Verif.ListLink.C52_concurrent_arrivals",
    "Verif.ListLink.C52_terminates"
   ],
   "note": ""
  },
  {
   "property": "C25",
   "status": "partial",
   "theorems": [
    "Verif.Record.C25_strictly_increasing_partial",
    "Verif.Record.C25_zero_tick_counterexample"
   ],
   "note": "Proved for payload types of positive length under all interleavings; false for PACMAN (tick difference 0)."
  },
  {
   "property": "C26",
   "status": "partial",
   "theorems": [
    "Verif.Record.C26_nothing_lost_partial",
    "Verif.Record.C26_photon_list_counterexample"
   ],
   "note": "Proved for ring buffers, all interleavings of recording, arrivals and default cleanup; false for the photon-detector list buffer, whose cleanup ignores the recording position."
  },
  {
   "property": "C27",
   "status": "partial",
   "theorems": [
    "Verif.Record.C27_gap_counterexample",
    "Verif.Record.C27_stall_is_permanent",
    "Verif.Record.C27_progress_partial"
   ],
   "note": "False after a gap in the data followed by a cleanup (stall proved permanent); progress proved when the position is not before the oldest stored payload."
  },
  {
   "property": "C58",
   "status": "partial",
   "theorems": [
    "Verif.Record.C58_discarded_read_counterexample",
    "Verif.Record.C58_reads_partial",
    "Verif.Record.C58_tested_payload_is_stored_partial"
   ],
   "note": "False of the code (race with cleanup); proved that no other failure exists and that every payload written was stored."
  },
  {
   "property": "C28",
   "status": "proved",
   "theorems": [
    "Verif.TpHandler.C28_tpsets_partition_time"
   ],
   "note": "No 64-bit wrap of times; any order among TPs of equal start time; queue pushes may fail."
  },
  {
   "property": "C29",
   "status": "proved",
   "theorems": [
    "Verif.TpHandler.C29_accepted_sent_or_pending"
   ],
   "note": "Handed to the queues exactly once; a push that times out is reported and counted separately."
  },
  {
   "property": "C30",
   "status": "proved",
   "theorems": [
    "Verif.TpHandler.C30_no_tp_for_a_sent_window"
   ],
   "note": ""
  },
  {
   "property": "C59",
   "status": "proved",
   "theorems": [
    "Verif.TpHandler.C59_bounded_latency",
    "Verif.TpHandler.C59_unpaced_counterexample"
   ],
   "note": "The pacing hypothesis is necessary (counterexample)."
  },
  {
   "property": "C31",
   "status": "partial",
   "theorems": [
    "Verif.Stitch.C31_complete_hit_lost_counterexample",
    "Verif.Stitch.C31_double_count_counterexample",
    "Verif.Stitch.C31_dead_channel",
    "Verif.Stitch.C31_two_part_hits_partial",
    "Verif.Stitch.C31_unfinished_parts_partial"
   ],
   "note": "False of the code: complete hits are lost, three-part hits counted twice and the channel dead for good (all proved); two-part hits handled correctly."
  },
  {
   "property": "C43",
   "status": "proved",
   "theorems": [
    "Verif.Thread.C43_each_task_once",
    "Verif.Thread.C43_destruction_ends",
    "Verif.Thread.C43_two_callers_counterexample"
   ],
   "note": "One controlling thread, all interleavings incl. spurious wake-ups and destruction; a single caller is necessary (counterexample)."
  },
  {
   "property": "C44",
   "status": "partial",
   "theorems": [
    "Verif.Thread.C44_ready_but_refused_counterexample",
    "Verif.Thread.C44_lost_wakeup_counterexample",
    "Verif.Thread.C44_stuck_forever",
    "Verif.Thread.C44_started_partial",
    "Verif.Thread.C44_progress_partial"
   ],
   "note": "False of the code: a ready thread can refuse work, and the notification can be lost (then permanently stuck); proved when the worker is already blocked."
  },
  {
   "property": "C60",
   "status": "partial",
   "theorems": [
    "Verif.Stitch.C60_time_over_threshold_counterexample"
   ],
   "note": "False of the code (mixed relative and absolute times); start time, charge and peak are right for two-part hits (C31_two_part_hits_partial)."
  },
  {
   "property": "C42",
   "status": "partial",
   "theorems": [
    "Verif.FrameErr.C42_throttled_partial",
    "Verif.FrameErr.C42_first_errors_pass",
    "Verif.FrameErr.C42_reset_freq_ignored_counterexample"
   ],
   "note": "Throttling proved for configured reset frequencies up to 10000; false above, since the code uses the constant 10000 (counterexample)."
  },
  {
   "property": "C45",
   "status": "partial",
   "theorems": [
    "Verif.File.C45_round_trip_partial",
    "Verif.File.C45_flush_direct_counterexample",
    "Verif.File.C45_unaligned_buffer_counterexample",
    "Verif.File.C45_direct_exact"
   ],
   "note": "With O_DIRECT the exact condition under which nothing is lost is proved (C45_direct_exact), together with the fact that a loss is always reported. Proved without O_DIRECT, and with it if the buffer is a multiple of the alignment and flushes happen at aligned lengths; a flush at an unaligned length breaks the writer under O_DIRECT (counterexample), and so does a buffer size that is no multiple of the alignment (counterexample)."
  },
  {
   "property": "C46",
   "status": "partial",
   "theorems": [
    "Verif.File.C46_overlay",
    "Verif.File.C46_overwritten_partial",
    "Verif.File.C46_not_truncated_counterexample"
   ],
   "note": "False of the code whenever the old file is longer (no O_TRUNC); exact resulting contents proved."
  },
  {
   "property": "C53",
   "status": "partial",
   "theorems": [
    "Verif.File.C53_first_run_partial",
    "Verif.File.C53_many_runs_partial",
    "Verif.File.C53_second_run_counterexample",
    "Verif.File.C53_bad_is_permanent",
    "Verif.File.C53_direct_exact"
   ],
   "note": "Proved for the first run and, without O_DIRECT, for any number of runs; with O_DIRECT the exact condition is proved (C53_direct_exact), and in general the second run without reconfiguration loses data and recording stays broken (proved)."
  },
  {
   "property": "C49",
   "status": "proved",
   "theorems": [
    "Verif.Consume.C49_accounted"
   ],
   "note": "All interleavings of consumer, cleanup, post-processing and stop."
  },
  {
   "property": "C50",
   "status": "partial",
   "theorems": [
    "Verif.Consume.C50_in_order_partial",
    "Verif.Consume.C50_alive_partial",
    "Verif.Consume.C50_processed_twice_counterexample",
    "Verif.Consume.C50_dead_payload_counterexample",
    "Verif.Consume.C50_null_payload_counterexample",
    "Verif.Consume.C50_lagging_counterexample"
   ],
   "note": "False of the code: duplicates after a rejected write, payloads processed after being destroyed (stop order, lag), null pointer when cleanup may pop everything; order, at-most-once and completeness proved when no write is rejected."
  },
  {
   "property": "C61",
   "status": "partial",
   "theorems": [
    "Verif.Consume.C61_first_conf_partial",
    "Verif.Consume.C61_reconfigured_counterexample"
   ],
   "note": "False of the code from the second conf command on."
  },
  {
   "property": "C47",
   "status": "partial",
   "theorems": [
    "Verif.Emu.C47_cyclic_replay_partial",
    "Verif.Emu.C47_no_dropout",
    "Verif.Emu.C47_short_file_counterexample",
    "Verif.Emu.C47_empty_population_counterexample"
   ],
   "note": "Proved for files of at least one payload and non-empty dropout patterns; otherwise the code reads out of bounds (proved)."
  },
  {
   "property": "C48",
   "status": "proved",
   "theorems": [
    "Verif.Misc.C48_rate_bounded",
    "Verif.Misc.C48_wait_bounded"
   ],
   "note": "For a fixed period, all delays of the caller; constant 2 overshoots + 3 periods."
  },
  {
   "property": "C54",
   "status": "partial",
   "theorems": [
    "Verif.Misc.C54_window",
    "Verif.Misc.C54_numbered",
    "Verif.Misc.C54_counter_partial",
    "Verif.Misc.C54_counter_counterexample"
   ],
   "note": "All 64-bit times; the first 2^31 - 1 fake triggers of a link. The trigger number is a signed int that is never reset: the next one is undefined behaviour (counterexample)."
  },
  {
   "property": "C55",
   "status": "partial",
   "theorems": [
    "Verif.Misc.C55_no_wrap_partial",
    "Verif.Misc.C55_wrap_counterexample"
   ],
   "note": "False of the code for every wrapping copy (source pointer never advanced); proved without wrap."
  },
  {
   "property": "C62",
   "status": "partial",
   "theorems": [
    "Verif.Emu.C62_indices_in_range",
    "Verif.Emu.C62_rate_zero",
    "Verif.Emu.C62_stretches",
    "Verif.Emu.C62_rate_one_counterexample"
   ],
   "note": "Safety and rate zero proved; rate one still produces clean frames (counterexample)."
  },
  {
   "property": "C40",
   "status": "partial",
   "theorems": [
    "Verif.Format.C40_raw_tp",
    "Verif.Format.C40_raw_tp_stable",
    "Verif.Format.C40_ssp",
    "Verif.Format.C40_superchunk",
    "Verif.Format.C40_fake_evenly_spaced",
    "Verif.Format.C40_sw_tp",
    "Verif.Format.C40_pacman_counterexample",
    "Verif.Format.C40_ssp_fake_counterexample",
    "Verif.Format.C40_pacman_order",
    "Verif.Format.C40_nhits_width"
   ],
   "note": "Proved for raw TP, SSP, WIB2, DAPHNE and software TP; false for PACMAN and for faking SSP timestamps. The WIB header belongs to another package."
  },
  {
   "property": "C51",
   "status": "partial",
   "theorems": [
    "Verif.Dispatch.C51_agree_partial",
    "Verif.Dispatch.C51_wib_names",
    "Verif.Dispatch.C51_first_raw_input",
    "Verif.Dispatch.C51_sw_tp_counterexample",
    "Verif.Dispatch.C51_mixed_counterexample",
    "Verif.Dispatch.C51_pds_without_suffix"
   ],
   "note": "Proved for names with one detector keyword; false for sw_tp and mixed names."
  },
  {
   "property": "C63",
   "status": "partial",
   "theorems": [
    "Verif.Format.C63_complete_partial",
    "Verif.Format.C63_ssp_counterexample"
   ],
   "note": "False of SSP: the end of every payload is cut off."
  },
  {
   "property": "C64",
   "status": "partial",
   "theorems": [
    "Verif.Format.C64_search_key_partial",
    "Verif.Format.C64_pacman_key_counterexample",
    "Verif.Format.C64_pacman_found_counterexample"
   ],
   "note": "False of PACMAN: the search key is uninitialised memory."
  },
  {
   "property": "C56",
   "status": "partial",
   "theorems": [
    "Verif.ZeroCopy.C56_recorded_stream_partial",
    "Verif.ZeroCopy.C56_lag",
    "Verif.ZeroCopy.C56_aligned",
    "Verif.ZeroCopy.C56_start_partial",
    "Verif.ZeroCopy.C56_no_aligned_payload_counterexample",
    "Verif.ZeroCopy.C56_no_alignment_counterexample",
    "Verif.ZeroCopy.C56_failed_write_counterexample",
    "Verif.ZeroCopy.C56_second_recording_counterexample",
    "Verif.ZeroCopy.C56_second_recording_reports",
    "Verif.ZeroCopy.C56_empty_buffer_counterexample"
   ],
   "note": "Contents, order, completeness and alignment proved for a first recording with complete writes; false for failing writes, later recordings, and buffers without an aligned payload or without alignment."
  },
  {
   "property": "C57",
   "status": "partial",
   "theorems": [
    "Verif.TpEmu.C57_replay_partial",
    "Verif.TpEmu.C57_single_hit_counterexample",
    "Verif.TpEmu.C57_truncated_counterexample",
    "Verif.TpEmu.C57_old_format_effect",
    "Verif.TpEmu.C57_old_format_counterexample"
   ],
   "note": "Proved for the new format with two or more hits per frame; with one hit the code writes behind the block, and the old format loses the times of every second hit."
  },
  {
   "property": "C65",
   "status": "partial",
   "theorems": [
    "Verif.TpEmu.C65_memory_counterexample"
   ],
   "note": "False in every round: malloc blocks are released with delete and the object created first is leaked."
  },
  {
   "property": "C32",
   "status": "proved",
   "theorems": [
    "Verif.Tpg.C32_scalar_tracking",
    "Verif.Tpg.C32_vector_tracking"
   ],
   "note": "Both implementations; the 16-bit state equals exact tracking with unbounded integers for streams of any length, every channel."
  },
  {
   "property": "C33",
   "status": "partial",
   "theorems": [
    "Verif.Tpg.C33_agreement_partial",
    "Verif.Tpg.C33_zero_charge_counterexample",
    "Verif.Tpg.C33_wide_counterexample"
   ],
   "note": "False: hits of charge zero are lost by the vectorised version's reader; the vectorised version clamps the interquartile range to 102. Agreement proved elsewhere (range at most 102 or filter output at most 32640, runs at most 32767 samples)."
  },
  {
   "property": "C34",
   "status": "partial",
   "theorems": [
    "Verif.Tpg.C34_independent_partial",
    "Verif.Tpg.C34_pedestal_counterexample"
   ],
   "note": "False for channels 16 to 95: their initial pedestal is taken from later samples of channels 0 to 15. Independence proved for channels 0 to 15, and for the others given that start value; in particular the 64-bit product in the threshold never carries between lanes."
  },
  {
   "property": "C35",
   "status": "proved",
   "theorems": [
    "Verif.Tpg.C35_split_vector",
    "Verif.Tpg.C35_split_scalar"
   ],
   "note": "Every state and input; splits at superchunk boundaries (the memory layout has no others)."
  },
  {
   "property": "C36",
   "status": "partial",
   "theorems": [
    "Verif.Tpg.C36_runs_partial",
    "Verif.Tpg.C36_zero_charge_counterexample",
    "Verif.Tpg.C36_long_run_counterexample"
   ],
   "note": "False for runs with total charge zero (dropped) and for runs longer than 32767 samples (duration saturates); otherwise proved, whole runs of superchunks."
  },
  {
   "property": "C37",
   "status": "partial",
   "theorems": [
    "Verif.Tpg.C37_within_buffer",
    "Verif.Tpg.C37_recovered_partial",
    "Verif.Tpg.C37_zero_charge_counterexample"
   ],
   "note": "Bounds and terminator proved in full; recovery is false for hits with charge zero."
  },
  {
   "property": "C66",
   "status": "partial",
   "theorems": [
    "Verif.Tpg.C66_signal_partial",
    "Verif.Tpg.C66_wrap_counterexample"
   ],
   "note": "False: a drop by more than 512 counts wraps the filter register and gives spurious hits. Proved if no sample is more than 512 below the pedestal (taps of the production filter)."
  },
  {
   "property": "C68",
   "status": "proved",
   "theorems": [
    "Verif.Tpg.C68_tp_times"
   ],
   "note": "Runs of at most 32767 samples, timestamps below 2^63."
  },
  {
   "property": "C38",
   "status": "proved",
   "theorems": [
    "Verif.Expand.C38_unpack",
    "Verif.Expand.C38_frame"
   ],
   "note": "Bit layout of the packed data is specified independently (ExpandSpec); the frame structure comes from detdataformats, which is not in the repository."
  },
  {
   "property": "C39",
   "status": "proved",
   "theorems": [
    "Verif.Expand.C39_registers",
    "Verif.Expand.C39_superchunk",
    "Verif.Expand.C39_tables",
    "Verif.Expand.C39_collection_only",
    "Verif.Expand.C39_out_of_range",
    "Verif.Expand.C39_in_range",
    "Verif.Expand.C39_offline_distinct"
   ],
   "note": "Registers of one frame and of a superchunk; tables are a permutation of 0..255; the collection-only variant agrees; lookups out of range give -1."
  },
  {
   "property": "C67",
   "status": "partial",
   "theorems": [
    "Verif.Expand.C67_buffer_partial",
    "Verif.Expand.C67_no_effect_partial",
    "Verif.Expand.C67_overread_counterexample"
   ],
   "note": "False as stated: the last 32-byte load of a frame ends 8 bytes after it, so the last superchunk of a buffer is read past the end. Holds for every other superchunk of a buffer, and the extra bytes never influence the values."
  },
  {
   "property": "C69",
   "status": "partial",
   "theorems": [
    "Verif.Expand.C69_channels_partial"
   ],
   "note": "Needs eight readable bytes after each superchunk (C67); the initial pedestal comes from another channel (C34); hits of zero charge are dropped (C36)."
  },
  {
   "property": "C70",
   "status": "partial",
   "theorems": [
    "Verif.Session.C70_fragment_exact_partial",
    "Verif.Session.C70_available_partial",
    "Verif.Session.C70_fragment_names_request",
    "Verif.Session.C70_conserved",
    "Verif.Session.C70_fragment_sound",
    "Verif.Session.C70_refused_payload_counterexample"
   ],
   "note": "False after a payload was refused by a full buffer (counterexample) or when timestamps go backwards (C24). Proved for runs with forward, non-overlapping timestamps and no refused payload; the error-fragment and header part, and that a fragment never carries a frame outside its window, of another run, out of order or twice, without any assumption. Fixed-rate detector types."
  },
  {
   "property": "C71",
   "status": "partial",
   "theorems": [
    "Verif.Session.C71_own_run_data",
    "Verif.Session.C71_answered_in_own_run_partial",
    "Verif.Session.C71_all_answered_partial",
    "Verif.Session.C71_late_parked_counterexample",
    "Verif.Session.C71_left_behind_counterexample"
   ],
   "note": "The data part is proved in full. The request part is false: a request parked after the waiting-list thread left is answered in the next run and not answered when stop returns; as long as that does not happen, every request is answered in its own run by the time stop returns."
  },
  {
   "property": "C72",
   "status": "partial",
   "theorems": [
    "Verif.Conf.C72_limit_kept_partial",
    "Verif.Conf.C72_accepted_not_reported",
    "Verif.Conf.C72_rejected_conf_counterexample"
   ],
   "note": "False: the removal fraction is replaced although reported; the next cleanup is undefined behaviour. Proved: the limit is kept."
  },
  {
   "property": "C73",
   "status": "partial",
   "theorems": [
    "Verif.Conf.C73_full_buffer_relieved_partial",
    "Verif.Conf.C73_drains_to_limit_partial",
    "Verif.Conf.C73_never_relieved_counterexample"
   ],
   "note": "False for extreme accepted settings (counterexample). Proved for limits at least two places below the true size and removal of at least two payloads, which includes the default and generated settings."
  },
  {
   "property": "C74",
   "status": "partial",
   "theorems": [
    "Verif.Conf.C74_first_conf_partial",
    "Verif.Conf.C74_second_conf_counterexample"
   ],
   "note": "False from the second recording-enabled configuration on. Proved up to the first one."
  },
  {
   "property": "C75",
   "status": "partial",
   "theorems": [
    "Verif.Monitor.C75_payload_reports_partial",
    "Verif.Monitor.C75_payload_reports_shown",
    "Verif.Monitor.C75_request_reports_partial",
    "Verif.Monitor.C75_total_wraps_counterexample",
    "Verif.Monitor.C75_request_lost_counterexample"
   ],
   "note": "False for requests counted before the other thread begins and for totals of 2^31 or more. Proved for payloads with counts below 2^31; accounting for any number of threads with the lost counts made explicit."
  },
  {
   "property": "C76",
   "status": "partial",
   "theorems": [
    "Verif.Card.C76_conf_exact_partial",
    "Verif.Card.C76_scrap_restores",
    "Verif.Card.C76_configured_only_if_all",
    "Verif.Card.C76_started_replays",
    "Verif.Card.C76_corrected_refused_counterexample",
    "Verif.Card.C76_incomplete_accepted_counterexample",
    "Verif.Card.C76_second_conf_counterexample",
    "Verif.Card.C76_start_unconfigured_counterexample"
   ],
   "note": "Proved as an equivalence for a card just initialised or scrapped after any history; false after a rejected configuration without scrap."
  },
  {
   "property": "C77",
   "status": "partial",
   "theorems": [
    "Verif.Destroy.C77_destroy_iff_partial",
    "Verif.Destroy.C77_modules_counterexample",
    "Verif.Destroy.C77_virtual_suffices",
    "Verif.Destroy.C77_thread_count",
    "Verif.Destroy.C77_owned"
   ],
   "note": "False of the code (no virtual destructors); characterised for every ownership tree, and the repair proved sufficient."
  },
  {
   "property": "C78",
   "status": "partial",
   "theorems": [
    "Verif.Proc.C78_pacman_repeats_partial",
    "Verif.Proc.C78_pacman_exact_iff",
    "Verif.Proc.C78_backwards_counterexample",
    "Verif.Proc.C78_last_is_newest",
    "Verif.Proc.C78_pacman_last"
   ],
   "note": "False: only equal timestamps are counted, a message from the past is not (counterexample). Proved: the counter is the number of repeated timestamps, and it is exact exactly when no message goes backwards."
  },
  {
   "property": "C79",
   "status": "proved",
   "theorems": [
    "Verif.Sync.C79_sync_newest_of_run",
    "Verif.Sync.C79_sync_ordered",
    "Verif.Sync.C79_sync_monotone",
    "Verif.Sync.C79_tp_links_silent"
   ],
   "note": "All interleavings of processing, sending, start and stop over any number of runs."
  },
  {
   "property": "C80",
   "status": "partial",
   "theorems": [
    "Verif.Fir.C80_unit_gain",
    "Verif.Fir.C80_positive",
    "Verif.Fir.C80_symmetric_partial",
    "Verif.Fir.C80_even_counterexample",
    "Verif.Fir.C80_integer_gain",
    "Verif.Fir.C80_taps",
    "Verif.Fir.C80_taps_exact"
   ],
   "note": "Symmetry is false for an even number of taps (counterexample), proved for odd ones. Real arithmetic; floating point enters as an error bound in the theorem on the taps in use."
  },
  {
   "property": "C81",
   "status": "partial",
   "theorems": [
    "Verif.ListLink.C81_classification",
    "Verif.ListLink.C81_key_behind",
    "Verif.ListLink.C81_exact_partial",
    "Verif.ListLink.C81_straddling_counterexample"
   ],
   "note": "Classification proved for every sorted contents and every search key not behind the newest payload. Exactness is false when a payload begun before the window reaches into it (counterexample), proved otherwise; for PACMAN it depends on the uninitialised search key (C64)."
  },
  {
   "property": "C82",
   "status": "partial",
   "theorems": [
    "Verif.ListLink.C82_run_ok",
    "Verif.ListLink.C82_found_complete_partial",
    "Verif.ListLink.C82_demo",
    "Verif.ListLink.C82_late_counterexample",
    "Verif.ListLink.C82_pacman_one_per_second"
   ],
   "note": "False for late payloads and for payloads with equal times (PACMAN: at most one message per second is kept). Proved: absence of crashes for all events; completeness if no payload arrives that is older than something discarded, for the payloads that begin in the window and are first with their time."
  },
  {
   "property": "C83",
   "status": "partial",
   "theorems": [
    "Verif.Route.C83_setup",
    "Verif.Route.C83_all_served_partial",
    "Verif.Route.C83_gap_counterexample",
    "Verif.Route.C83_routing",
    "Verif.Route.C83_own_queues"
   ],
   "note": "Routing proved for all executions. 'Every queue named is served' is false when the numbering has a gap (counterexample), proved without gap."
  },
  {
   "property": "C84",
   "status": "partial",
   "theorems": [
    "Verif.Route.C84_empty_handler",
    "Verif.Route.C84_in_order",
    "Verif.Route.C84_dropped_counterexample"
   ],
   "note": "Proved for every request sent, up to full response queues (order: runs without fake triggers); false for requests still queued at the end of the run, which are discarded (counterexample)."
  },
  {
   "property": "C85",
   "status": "partial",
   "theorems": [
    "Verif.Consumer.C85_stream",
    "Verif.Consumer.C85_count_partial",
    "Verif.Consumer.C85_wrap_counterexample"
   ],
   "note": "The stream part is proved in full; the number is proved below 2^31 packets per run, beyond which the 32-bit counter wraps."
  },
  {
   "property": "C86",
   "status": "partial",
   "theorems": [
    "Verif.TpChain.C86_signals_to_tps_partial",
    "Verif.TpChain.C86_old_signals_in_sets",
    "Verif.TpChain.C86_short_run_sends_nothing",
    "Verif.TpChain.C86_dropped_counterexample",
    "Verif.TpChain.C86_unsent_counterexample"
   ],
   "note": "False: signals longer than the timeout are dropped, and those near the end of a run are never sent (counterexamples). Proved from the samples to the sets for everything else: exact multiset of TPs per channel, count of the dropped ones, membership in a set of every signal older than two windows plus timeout. Signals with charge 0 are not reported (C36), durations are capped at 32767 samples."
  },
  {
   "property": "C87",
   "status": "partial",
   "theorems": [
    "Verif.RegConc.C87_concurrent_partial",
    "Verif.RegConc.C87_writers_linearizable",
    "Verif.RegConc.C87_races",
    "Verif.RegConc.C87_writing",
    "Verif.RegConc.C87_locked_queries",
    "Verif.RegConc.C87_locked_no_false_negative",
    "Verif.RegConc.C87_query_misses_counterexample",
    "Verif.RegConc.C87_race_counterexample"
   ],
   "note": "False for queries, which do not take the mutex (counterexamples: a registered error is missed; a data race). Proved for all interleavings: adding and removing is linearizable, queries can only miss entries that a concurrent call is replacing or removing, races only involve queries; with queries under the mutex everything holds."
  },
  {
   "property": "C88",
   "status": "partial",
   "theorems": [
    "Verif.ConfGen.C88_wiring_partial",
    "Verif.ConfGen.C88_configuration",
    "Verif.ConfGen.C88_tpg_sinks",
    "Verif.ConfGen.C88_missing_queue",
    "Verif.ConfGen.C88_identifiers",
    "Verif.ConfGen.C88_commands_partial",
    "Verif.ConfGen.C88_tp_requests_counterexample",
    "Verif.ConfGen.C88_geoid_counterexample",
    "Verif.ConfGen.C88_order_counterexample"
   ],
   "note": "Proved for all front-ends and numbers of links: initialisation, names, single readers and writers, matching types, acceptance of the configuration, one start and stop each. False: requests to software trigger primitive handlers are never read; these handlers share identifiers with the detector link handlers; the time sync consumer is stopped before some of its writers."
  },
  {
   "property": "C89",
   "status": "partial",
   "theorems": [
    "Verif.LinkTp.C89_bytes_to_tps_partial",
    "Verif.LinkTp.C89_old_signals_in_sets",
    "Verif.LinkTp.C89_dropped_counterexample"
   ],
   "note": "Proved for all memory contents and numbers of superchunks, for signals reported within the timeout, with eight readable bytes behind each superchunk and the pedestal seeded as the code does. False without the timeout condition: such primitives are dropped, and counted."
  },
  {
   "property": "C90",
   "status": "partial",
   "theorems": [
    "Verif.Race.C90_races_partial",
    "Verif.Race.C90_races_counterexample",
    "Verif.Race.C90_races_exact"
   ],
   "note": "Proved: every race is one of the listed ones, and every listed one occurs: length of the waiting list, error registry between requests and consumer, TP handler pointer and flag between conf and monitoring, time of last report between start and monitoring. The latency buffer is left out here (C04, C19, C58, C63)."
  },
  {
   "property": "C91",
   "status": "partial",
   "theorems": [
    "Verif.ConcReq.C91_requests_while_data_arrives_partial",
    "Verif.ConcReq.C91_found_is_complete_partial",
    "Verif.ConcReq.C91_present_data_is_found_partial",
    "Verif.ConcReq.C91_newest_payload_race_counterexample",
    "Verif.ConcReq.C91_inverted_window_race_counterexample",
    "Verif.ConcProt.C91_protocol_partial",
    "Verif.ConcProt.C91_protocol_complete_partial",
    "Verif.ConcProt.C91_no_removal_while_running"
   ],
   "note": "Proved for all interleavings if the load in back() has order acquire or relaxed loads synchronise (x86). False under the C++ memory model for the code as it is: the newest payload may be read without synchronisation. All windows; with fixed-rate lookup those with begin after end need an acquire load in good() too or x86 (else they race, see the counterexample) and may also be put off. The error registry's own race (C87, C90) is left out. The C91_protocol theorems derive the exclusion of cleanups and requests from the mutex, counter and flag (C19) instead of assuming it."
  },
  {
   "property": "C92",
   "status": "partial",
   "theorems": [
    "Verif.EmuLink.C92_delivery",
    "Verif.EmuLink.C92_fragment_is_file_data_partial",
    "Verif.EmuLink.C92_reported_gaps",
    "Verif.EmuLink.C92_lost_payload_counterexample"
   ],
   "note": "False when a payload was lost at the full raw data queue (counterexample) or refused by a full latency buffer (C70). Proved for runs without such losses, for clocks not within one payload of 2^64; delivery and gap reports proved in general. TPC front ends (fixed-rate links)."
  },
  {
   "property": "C93",
   "status": "proved",
   "theorems": [
    "Verif.PdsLink.C93_fragment_exact",
    "Verif.PdsLink.C93_available",
    "Verif.PdsLink.C93_own_data"
   ],
   "note": "Outside emulator mode of the processor (which overwrites timestamps). Stored payloads going forward in time is the only assumption on the data."
  },
  {
   "property": "C94",
   "status": "partial",
   "theorems": [
    "Verif.TpRuns.C94_run_partial",
    "Verif.TpRuns.C94_meanwhile_partial",
    "Verif.TpRuns.C94_trigger_primitives_partial",
    "Verif.TpRuns.C94_overwritten_counterexample"
   ],
   "note": "False for accepted settings with a long pointer queue (counterexample) and after refused payloads (C50). Proved for all interleavings and any number of runs when every cleanup leaves at least the queue's capacity and two payloads. One conf command (C61); eight readable bytes behind the buffer (C67)."
  },
  {
   "property": "C95",
   "status": "partial",
   "theorems": [
    "Verif.MonReq.C95_counts_partial",
    "Verif.MonReq.C95_average_partial",
    "Verif.MonReq.C95_attempt",
    "Verif.MonReq.C95_pool",
    "Verif.MonReq.C95_average_counterexample",
    "Verif.MonReq.C95_average_overflow_counterexample",
    "Verif.MonReq.C95_start_counterexample"
   ],
   "note": "Counts proved for all interleavings of a run whose start overlapped no report, below 2^31 requests. The average is proved for reports that fall between the two additions of no request, and false otherwise; counts at the next start are lost (counterexamples)."
  },
  {
   "property": "C96",
   "status": "partial",
   "theorems": [
    "Verif.MonTp.C96_counts_partial",
    "Verif.MonTp.C96_balance_partial",
    "Verif.MonTp.C96_handler",
    "Verif.MonTp.C96_refused_counterexample",
    "Verif.MonTp.C96_set_counterexample",
    "Verif.MonTp.C96_start_counterexample"
   ],
   "note": "The four counts are proved for all interleavings of a run whose start overlapped no report, below 2^31 primitives. The balance holds exactly if the primitive queue refused nothing; false otherwise, for refused sets, and for what is held at the next start (counterexamples)."
  },
  {
   "property": "C97",
   "status": "partial",
   "theorems": [
    "Verif.RecSess.C97_file_partial",
    "Verif.RecSess.C97_commands_partial",
    "Verif.RecSess.C97_at_rest",
    "Verif.RecSess.C97_repeated_counterexample",
    "Verif.RecSess.C97_dropped_counterexample",
    "Verif.RecSess.C97_direct_counterexample",
    "Verif.RecSess.C97_direct_exact"
   ],
   "note": "Contents of the file down to the bytes and the fate of every command are proved for all executions; with O_DIRECT exactly if every recording fits into the writer buffer or begins on a block boundary with buffers of whole blocks. False: a payload can be in two recordings, a command can be dropped silently, an unaligned recording with O_DIRECT makes the next one vanish (counterexamples)."
  },
  {
   "property": "C98",
   "status": "partial",
   "theorems": [
    "Verif.StopLink.C98_stop_returns_partial",
    "Verif.StopLink.C98_progress",
    "Verif.StopLink.C98_returned",
    "Verif.StopLink.C98_requests_kept",
    "Verif.StopLink.C98_lost_never",
    "Verif.StopLink.C98_lost_counterexample",
    "Verif.StopLink.C98_arrivals_counterexample",
    "Verif.StopLink.C98_requests_counterexample"
   ],
   "note": "Proved for every execution in which arrivals end at some time and every worker was launched, without any fairness assumption. False if arrivals never end or a worker thread missed its launch (counterexamples). Any number of post-processing threads; queue operations and the processing of one item are assumed to return."
  },
  {
   "property": "C99",
   "status": "partial",
   "theorems": [
    "Verif.Retry.C99_answered_partial",
    "Verif.Retry.C99_every_window_partial",
    "Verif.Retry.C99_progress",
    "Verif.Retry.treat_scan",
    "Verif.Retry.C99_refused_counterexample",
    "Verif.Retry.C99_inverted_counterexample",
    "Verif.Retry.C99_timeout_counterexample"
   ],
   "note": "The bounds are proved for every run whose payloads go forward in time with none refused; for windows that end before they begin, from the arrival of a payload at or after both ends on (one more evaluation). Bisected links: C104 without these conditions. False otherwise: the request circulates for ever (counterexamples), and a request can be given up although its data are there (counterexample)."
  },
  {
   "property": "C100",
   "status": "partial",
   "theorems": [
    "Verif.Retain.C100_retained",
    "Verif.Retain.C100_nothing_refused_partial",
    "Verif.Retain.C100_recent_available_partial",
    "Verif.Retain.C100_burst_counterexample",
    "Verif.Retain.C100_recording_counterexample"
   ],
   "note": "Retention is proved for all executions. That nothing is refused and that recent windows are answered is proved while no cleanup meets a recording and bursts stay within the reserve; false otherwise (counterexamples). Fixed-rate detector types; a cleanup pass is one step here, step by step in C127; removal fractions up to 1 - 2^-22 (C22)."
  },
  {
   "property": "C101",
   "status": "partial",
   "theorems": [
    "Verif.RecMod.C101_each_packet_once",
    "Verif.RecMod.C101_files_partial",
    "Verif.RecMod.C101_direct",
    "Verif.RecMod.C101_stop_partial",
    "Verif.RecMod.C101_leftover_counterexample",
    "Verif.RecMod.C101_reconfigured_counterexample",
    "Verif.RecMod.C101_deaf_run_counterexample",
    "Verif.RecMod.C101_deaf_forever",
    "Verif.RecMod.C101_stop_hangs_counterexample",
    "Verif.RecMod.C101_hangs_forever",
    "Verif.RecMod.C101_uncounted_counterexample",
    "Verif.RecMod.C101_time_race_counterexample"
   ],
   "note": "Order, counting and reports proved for all executions; file contents exact without O_DIRECT; with it every file holds a beginning of what it should, all of it as long as the stream has not failed; stop returns if the task had begun. False: stop in general (lost wake-up), a run may record nothing, left-over packets. Compression None, opening succeeds, no disk errors; no file exists at the beginning."
  },
  {
   "property": "C102",
   "status": "partial",
   "theorems": [
    "Verif.GenSet.C102_accepted",
    "Verif.GenSet.C102_retained",
    "Verif.GenSet.C102_nothing_refused_partial",
    "Verif.GenSet.C102_two_seconds_partial",
    "Verif.GenSet.C102_postprocessing",
    "Verif.GenSet.C102_postprocessing_counterexample"
   ],
   "note": "Proved for every slowdown factor up to 5000 (post-processing: up to 35, sharp) and every rounding with the accuracy of single precision. Nothing refused and two seconds: while no cleanup meets a recording and bursts stay within a quarter of a second. WIB links for the requests; integer slowdown factors."
  },
  {
   "property": "C103",
   "status": "partial",
   "theorems": [
    "Verif.Valid.C103_never_reports_counterexample",
    "Verif.Valid.C103_tpc_partial",
    "Verif.Valid.C103_tpc_reports_partial",
    "Verif.Valid.C103_empty_partial",
    "Verif.Valid.C103_pds_partial",
    "Verif.Valid.C103_readout_fragments_pass_partial",
    "Verif.Valid.C103_long_fragment_counterexample",
    "Verif.Valid.C103_pds_counterexample",
    "Verif.Valid.C103_gap_counterexample"
   ],
   "note": "False of the code, which reports nothing. For the code behind the early return: exact for whole WIB frames up to 2.3 s and DAPHNE frames with a non-zero first byte, and satisfied by every fragment of a regular WIB run; false otherwise (counterexamples). Frame accessors belong to another package."
  },
  {
   "property": "C104",
   "status": "partial",
   "theorems": [
    "Verif.PdsKeep.C104_retained_partial",
    "Verif.PdsKeep.C104_recent_available_partial",
    "Verif.PdsKeep.C104_answered",
    "Verif.PdsKeep.C104_progress"
   ],
   "note": "Outside emulator mode of the processor. Stored payloads going forward in time is the only assumption on the data. Removal fractions up to 1 - 2^-22: a fraction of one is accepted but its first cleanup takes everything and looks at an empty buffer (C22)."
  },
  {
   "property": "C105",
   "status": "partial",
   "theorems": [
    "Verif.RawLink.C105_one_stream",
    "Verif.RawLink.C105_memory_partial",
    "Verif.RawLink.C105_runs_partial",
    "Verif.RawLink.C105_defined_partial",
    "Verif.RawLink.C105_runs_counterexample",
    "Verif.RawLink.C105_dead_channel_counterexample",
    "Verif.RawLink.C105_memory_counterexample",
    "Verif.RawLink.C105_overflow_counterexample",
    "Verif.RawLink.C105_recording_counterexample"
   ],
   "note": "False of the code in each part (counterexamples). Proved: what the processor holds is the stitching of all frames since construction; at most one primitive per hit is kept; runs are independent if nothing is left open; processing is defined below 2^31 frames and primitives."
  },
  {
   "property": "C106",
   "status": "partial",
   "theorems": [
    "Verif.PdsEmu.C106_delivery",
    "Verif.PdsEmu.C106_fragment_is_file_data",
    "Verif.PdsEmu.C106_exact_for_stored",
    "Verif.PdsEmu.C106_complete_partial",
    "Verif.PdsEmu.C106_lost_payload_counterexample"
   ],
   "note": "Origin, order and exactness relative to what was stored hold without conditions on losses (timestamps below 2^64). Completeness with respect to what the emulator creates needs that nothing was lost at the queue nor refused by the buffer; otherwise false (counterexample)."
  },
  {
   "property": "C107",
   "status": "partial",
   "theorems": [
    "Verif.Fd.C107_own_descriptors_partial",
    "Verif.Fd.C107_others_untouched_partial",
    "Verif.Fd.C107_no_leak_partial",
    "Verif.Fd.C107_right_file_partial",
    "Verif.Fd.C107_second_recording_counterexample",
    "Verif.Fd.C107_unconfigured_record_counterexample",
    "Verif.Fd.C107_reconfigured_leak_counterexample",
    "Verif.Fd.C107_flush_closed_counterexample",
    "Verif.Fd.C107_flush_unopened_counterexample",
    "Verif.Fd.C107_reader_reopen_counterexample"
   ],
   "note": "Proved for all interleavings of calls if writers are flushed and closed only while open and a zero-copy handler records exactly once per configuration. False of the code otherwise (counterexamples): second recording, recording without configuration, second configuration, flush of a closed or never opened writer."
  },
  {
   "property": "C108",
   "status": "partial",
   "theorems": [
    "Verif.FakeTs.C108_wib_timestamps",
    "Verif.FakeTs.C108_wib2_timestamps_partial",
    "Verif.FakeTs.C108_daphne_timestamps_partial",
    "Verif.FakeTs.C108_frames",
    "Verif.FakeTs.C108_daphne_frames",
    "Verif.FakeTs.C108_no_errors",
    "Verif.FakeTs.C108_exact_partial",
    "Verif.FakeTs.C108_daphne_exact",
    "Verif.FakeTs.C108_second_run_counterexample",
    "Verif.FakeTs.C108_refused_payload_counterexample"
   ],
   "note": "Per run for WIB; for WIB2 and DAPHNE only over the life of the link (counterexample for the second run). Fragments exact up to 2^64 ticks, for WIB and WIB2 if the buffer refused nothing (counterexample)."
  },
  {
   "property": "C109",
   "status": "partial",
   "theorems": [
    "Verif.ConcList.C109_no_crash",
    "Verif.ConcList.C109_one_moment_partial",
    "Verif.ConcList.C109_exact_partial",
    "Verif.ConcList.C109_between",
    "Verif.ConcList.C109_late_payload_counterexample"
   ],
   "note": "No crash and bounds for arrivals in any order; one moment and exactness if payloads arrive in the order of their times (false otherwise: counterexample), exactness moreover if no payload begun before the search object's time reaches into the window (C81). Operations of folly's list are taken to be atomic."
  },
  {
   "property": "C110",
   "status": "partial",
   "theorems": [
    "Verif.Pin.C110_names_distinct_partial",
    "Verif.Pin.C110_link_threads",
    "Verif.Pin.C110_post_threads_partial",
    "Verif.Pin.C110_post_distinct_partial",
    "Verif.Pin.C110_truncated_counterexample",
    "Verif.Pin.C110_unnamed_counterexample",
    "Verif.Pin.C110_pinned",
    "Verif.Pin.C110_others_untouched",
    "Verif.Pin.C110_unlisted_counterexample",
    "Verif.Pin.C110_other_process_counterexample",
    "Verif.Pin.C110_invalid_cpu_counterexample"
   ],
   "note": "Names unique up to 15 characters (handler and readout threads: link numbers below 100000; post-processing: below 10); listed threads pinned as listed if the script runs to its end, processes with other names untouched. False otherwise (counterexamples). The meaning of psutil's calls is taken from its documentation."
  },
  {
   "property": "C111",
   "status": "partial",
   "theorems": [
    "Verif.ListLife.C111_no_crash",
    "Verif.ListLife.C111_conserved",
    "Verif.ListLife.C111_not_stuck",
    "Verif.ListLife.C111_retained",
    "Verif.ListLife.C111_empty",
    "Verif.ListLife.C111_recent_available_partial",
    "Verif.ListLife.C111_answer_exact_partial",
    "Verif.ListLife.C111_whole_window",
    "Verif.ListLife.C111_sent_partial",
    "Verif.ListLife.C111_answered_partial",
    "Verif.ListLife.C111_every_window",
    "Verif.ListLife.C111_progress",
    "Verif.ListLife.C111_after_stop",
    "Verif.ListLife.C111_all_answered_partial",
    "Verif.ListLife.C111_left_behind_counterexample",
    "Verif.ListLife.C111_straddling_counterexample",
    "Verif.ListLife.C111_straggler_counterexample",
    "Verif.ListLife.C111_inverted_counterexample"
   ],
   "note": "Retention and availability for any order of arrival; exact contents for arrivals less than the limit late; at most two evaluations; all requests answered when stop returns unless one is parked after the waiting-list thread has left (counterexample). Frames of a payload begun before the window are missing (C81), stragglers and, until the data reach their beginning, windows that end before they begin are false of the code (counterexamples). PACMAN links (default cleanup, uninitialised search object) are in C81, C82, C21, C126."
  },
  {
   "property": "C112",
   "status": "partial",
   "theorems": [
    "Verif.ConcRec.C112_file",
    "Verif.ConcRec.C112_no_race_partial",
    "Verif.ConcRec.C112_relaxed_good_counterexample",
    "Verif.ConcRec.C112_stale_front_counterexample",
    "Verif.ConcRec.C112_removed_front_counterexample",
    "Verif.ConcRec.C112_never_begins_counterexample",
    "Verif.ConcRec.C112_catches_up_partial",
    "Verif.ConcRec.C112_lost",
    "Verif.ConcRec.C112_gap_counterexample",
    "Verif.ConcRec.C112_gap_free_partial"
   ],
   "note": "Contents of the file and retention hold in every execution until something undefined happens; that nothing undefined happens needs acquire loads (or hardware that orders them) and that the cleanup leaves alone what the recording looks at, neither of which the code guarantees (counterexamples). Progress is false (counterexample); proved for a recording left alone by the other threads, with loads that return the present values, once its position is not older than everything stored; a recording whose position is older is lost for good (also after a gap, cf. C27); on data without gap that cannot happen once something has been written. File errors are in C97."
  },
  {
   "property": "C113",
   "status": "partial",
   "theorems": [
    "Verif.EmuRate.C113_on_time",
    "Verif.EmuRate.C113_catch_up",
    "Verif.EmuRate.C113_stall_counterexample",
    "Verif.EmuRate.C113_wib_clock_partial",
    "Verif.EmuRate.C113_wib2_clock_counterexample",
    "Verif.EmuRate.C113_pds_clock_counterexample"
   ],
   "note": "Pace proved for every fast loop, with stalls up to the limiter's allowance; longer stalls are never made up (counterexample). Clock proved for WIB within half a percent; false for WIB2 and photon-detector links."
  },
  {
   "property": "C114",
   "status": "partial",
   "theorems": [
    "Verif.ConfLink.C114_conf_partial",
    "Verif.ConfLink.C114_payloads_partial",
    "Verif.ConfLink.C114_null_counterexample",
    "Verif.ConfLink.C114_dangling_counterexample",
    "Verif.ConfLink.C114_retry_counterexample"
   ],
   "note": "Proved for every sequence of commands with acceptable options whose last allocation succeeds, whatever failed before; false when the last one fails (for every such sequence), for unsupported combinations and after a refused command."
  },
  {
   "property": "C115",
   "status": "partial",
   "theorems": [
    "Verif.Mem.C115_waiting",
    "Verif.Mem.C115_registry",
    "Verif.Mem.C115_pending",
    "Verif.Mem.C115_sorted_buffer",
    "Verif.Mem.C115_slow_sending_counterexample"
   ],
   "note": "Bounds proved for the four parts; the one on primitives needs attempts at most a window apart (counterexample otherwise). The ring is bounded by C01; firmware trigger primitive links are unbounded (C105_memory_counterexample)."
  },
  {
   "property": "C116",
   "status": "partial",
   "theorems": [
    "Verif.Cmd.C116_in_order_partial",
    "Verif.Cmd.C116_survives_iff",
    "Verif.Cmd.C116_refused_iff",
    "Verif.Cmd.C116_requests",
    "Verif.Cmd.C116_start_counterexample",
    "Verif.Cmd.C116_conf_counterexample",
    "Verif.Cmd.C116_unconfigured_counterexample",
    "Verif.Cmd.C116_scrap_counterexample"
   ],
   "note": "Commands that fit are obeyed (configurations with at least one request thread). Commands that do not fit are not refused: exact condition for survival and exact set of refused commands proved, counterexamples for start, conf, start before conf and scrap."
  },
  {
   "property": "C117",
   "status": "partial",
   "theorems": [
    "Verif.WorkCmd.C117_card_survives_iff",
    "Verif.WorkCmd.C117_card_state",
    "Verif.WorkCmd.C117_recorder_survives_iff",
    "Verif.WorkCmd.C117_recorder_in_order_partial",
    "Verif.WorkCmd.C117_card_start_counterexample",
    "Verif.WorkCmd.C117_card_conf_counterexample",
    "Verif.WorkCmd.C117_card_unconfigured_counterexample",
    "Verif.WorkCmd.C117_card_scrapped_counterexample",
    "Verif.WorkCmd.C117_recorder_conf_counterexample",
    "Verif.WorkCmd.C117_recorder_start_counterexample",
    "Verif.WorkCmd.C117_recorder_unconfigured_counterexample"
   ],
   "note": "Exact condition for survival proved for both modules; commands that fit are obeyed. Commands that do not fit are not refused (counterexamples). Rejected configurations: C76, C101; consumers have only start and stop (C85)."
  },
  {
   "property": "C118",
   "status": "partial",
   "theorems": [
    "Verif.TpgLife.C118_survives_iff",
    "Verif.TpgLife.C118_memory",
    "Verif.TpgLife.C118_searched",
    "Verif.TpgLife.C118_latest_partial",
    "Verif.TpgLife.C118_unread_iff",
    "Verif.TpgLife.C118_induction",
    "Verif.TpgLife.C118_disabled_counterexample",
    "Verif.TpgLife.C118_twice_counterexample",
    "Verif.TpgLife.C118_no_sinks_counterexample"
   ],
   "note": "Memory part and exact condition for survival proved for all sequences; exact description of what is searched and of unread queues. False once a configuration with hit finding is followed by another (counterexamples). Functions searching the same payload are taken one after the other (their race: C61)."
  },
  {
   "property": "C119",
   "status": "partial",
   "theorems": [
    "Verif.MonBuf.C119_reported",
    "Verif.MonBuf.C119_moment_partial",
    "Verif.MonBuf.C119_almost_full_counterexample",
    "Verif.MonBuf.C119_empty_counterexample"
   ],
   "note": "Every report described exactly (up to a cleanup removing more than the buffer's size during one report); right when there is no write or no removal during the report; false otherwise (counterexamples). Loads see the latest values."
  },
  {
   "property": "C120",
   "status": "partial",
   "theorems": [
    "Verif.Replay.C120_payloads_partial",
    "Verif.Replay.C120_dropouts_partial",
    "Verif.Replay.C120_times_partial",
    "Verif.Replay.C120_requests_partial",
    "Verif.Replay.C120_gap_counterexample",
    "Verif.Replay.C120_repeated_counterexample"
   ],
   "note": "Payloads and order for every file of recordings (with O_DIRECT if the recordings got through the buffer of the writer, the condition of C97_direct_exact); times and requests for one recording of a run without gaps, first pass, no configured first timestamp; false with gaps or repeated recordings (counterexamples). With dropouts: order, contents and times of the iterations proved. No compression, no injected frame errors."
  },
  {
   "property": "C121",
   "status": "partial",
   "theorems": [
    "Verif.FakeTrig.C121_requests",
    "Verif.FakeTrig.C121_handed",
    "Verif.FakeTrig.C121_answered_partial",
    "Verif.FakeTrig.C121_wib_partial",
    "Verif.FakeTrig.C121_early_error",
    "Verif.FakeTrig.C121_first_counterexample",
    "Verif.FakeTrig.C121_late_counterexample"
   ],
   "note": "Requests proved for all executions (numbers below 2^31, C54). Answers proved under the conditions of C100, payloads at equal distances, window within what the buffer keeps; exact number of frames. False for the first triggers of a run (proved in general) and for those made while stopping (counterexample). Fixed-rate detector types."
  },
  {
   "property": "C122",
   "status": "partial",
   "theorems": [
    "Verif.Comp.C122_round_trip_partial",
    "Verif.Comp.C122_none",
    "Verif.Comp.C122_recorded_partial",
    "Verif.Comp.C122_kept_partial",
    "Verif.Comp.C122_lost",
    "Verif.Comp.C122_incomplete_counterexample",
    "Verif.Comp.C122_empty_counterexample",
    "Verif.Comp.C122_direct_counterexample"
   ],
   "note": "Proved for every lawful compressor, once the file is closed, without O_DIRECT or with aligned buffers and flushes that stay before the device. False between stop and closing (proved for every compressor with an end mark; a compressor may leave the file empty), and with O_DIRECT after a flush that reaches the device (counterexample)."
  },
  {
   "property": "C123",
   "status": "proved",
   "theorems": [
    "Verif.Unpack2.C123_unpack",
    "Verif.Unpack2.C123_places",
    "Verif.Unpack2.C123_overread_counterexample"
   ],
   "note": "For all frames, provided one word follows the samples, as the trailer does (otherwise undefined behaviour, proved)."
  },
  {
   "property": "C124",
   "status": "partial",
   "theorems": [
    "Verif.Inject.C124_words",
    "Verif.Inject.C124_counted",
    "Verif.Inject.C124_forwarded",
    "Verif.Inject.C124_first_forwarded",
    "Verif.Inject.C124_next_run_counterexample",
    "Verif.Inject.C124_unreported_counterexample",
    "Verif.Inject.C124_file_errors_counterexample",
    "Verif.Inject.C124_other_links_counterexample"
   ],
   "note": "Proved for WIB links over all histories, the forwarding of first errors counted since conf instead of since start. False of the code, with witnesses: the threshold of a later run, counts after the last report of a run, errors recorded in the file, WIB2 and DAPHNE."
  },
  {
   "property": "C125",
   "status": "partial",
   "theorems": [
    "Verif.ListMem.C125_partial",
    "Verif.ListMem.C125_account",
    "Verif.ListMem.C125_overtaken",
    "Verif.ListMem.C125_cleanup_defined",
    "Verif.ListMem.C125_freed",
    "Verif.ListMem.C125_recording_counterexample",
    "Verif.ListMem.C125_waiting_counterexample",
    "Verif.ListMem.C125_newest_counterexample",
    "Verif.ListMem.C125_growth_counterexample"
   ],
   "note": "Safe: requests, fragments, cleanups, the recording while it writes. False of the code, with witnesses: the recording's first position, the check of waiting requests, bounded memory. The behaviour of folly's list (accessors, recycling) is taken from its documentation."
  },
  {
   "property": "C126",
   "status": "partial",
   "theorems": [
    "Verif.PacLife.C126_no_crash",
    "Verif.PacLife.C126_oldest_stay",
    "Verif.PacLife.C126_lower_end",
    "Verif.PacLife.C126_never_too_old",
    "Verif.PacLife.C126_complete_partial",
    "Verif.PacLife.C126_pass",
    "Verif.PacLife.C126_holes_counterexample",
    "Verif.PacLife.C126_steady_counterexample",
    "Verif.PacLife.C126_recent_counterexample",
    "Verif.PacLife.C126_recording_counterexample",
    "Verif.PacLife.C126_all_counterexample",
    "Verif.PacLife.C126_evaluations_partial",
    "Verif.PacLife.C126_evaluations_counterexample",
    "Verif.PacLife.toPopOf_lt"
   ],
   "note": "False of the code: cleanups discard the newest messages. Proved: no crash for fractions below one; the oldest messages stay; no window is refused as too old; complete fragments in runs up to the limit; exact contents in the steady state; evaluations of a request bounded by the steps of cleanups, by no constant (counterexample)."
  },
  {
   "property": "C127",
   "status": "partial",
   "theorems": [
    "Verif.ConcClean.C127_no_crash_partial",
    "Verif.ConcClean.C127_recent_stay",
    "Verif.ConcClean.C127_not_refused",
    "Verif.ConcClean.C127_recording_safe_partial",
    "Verif.ConcClean.C127_pass",
    "Verif.ConcClean.C127_configured_partial",
    "Verif.ConcClean.C127_configured_room_partial",
    "Verif.ConcClean.C127_slow_pass_counterexample",
    "Verif.ConcClean.C127_mid_pass_counterexample",
    "Verif.ConcClean.C127_all_counterexample"
   ],
   "note": "Each read and removal of a pass is a step; each call of the buffer is one step (C04 for the accesses inside). Proved for removal fractions up to 1 - 2^-22; false for one (counterexample). Recording safety: proved for positions set before the pass begins, false for one set between test and removal (counterexample). The bound of C100 on the arrivals does not suffice (counterexample)."
  },
  {
   "property": "C128",
   "status": "partial",
   "theorems": [
    "Verif.Words.C128_places_partial",
    "Verif.Words.C128_no_memory",
    "Verif.Words.C128_too_small",
    "Verif.Words.C128_truncated_counterexample",
    "Verif.Words.C128_bytes_counterexample",
    "Verif.Words.C128_zero_counterexample",
    "Verif.Words.C128_one_counterexample",
    "Verif.Words.C128_int_counterexample",
    "Verif.Words.C128_prealloc_counterexample"
   ],
   "note": "Proved for sizes from 2 to 2^31 - 1 (all calls, all reconfigurations); false for larger sizes, and for 0 and 1 in builds without assertions. Standard allocator only (others: C05, C114); one thread."
  },
  {
   "property": "C129",
   "status": "partial",
   "theorems": [
    "Verif.RawTp.C129_header_fields",
    "Verif.RawTp.C129_data_fields",
    "Verif.RawTp.C129_determined",
    "Verif.RawTp.C129_timestamp",
    "Verif.RawTp.C129_nhits",
    "Verif.RawTp.C129_header_print",
    "Verif.RawTp.C129_header_hex",
    "Verif.RawTp.C129_stamp_shown",
    "Verif.RawTp.C129_data_print",
    "Verif.RawTp.C129_bits_partial",
    "Verif.RawTp.C129_bits_swapped",
    "Verif.RawTp.C129_bits_counterexample",
    "Verif.RawTp.C129_base_counterexample",
    "Verif.RawTp.C129_frame_counterexample"
   ],
   "note": "Proved for fields, timestamps, hits and the decimal and hexadecimal printouts of headers; false for print_bits of a header unless median and accumulator agree, for the base of the stream after print_hex, and for the hits of a frame. Bit fields are allocated from the low end (gcc, x86-64); headlines and line ends are not modelled."
  },
  {
   "property": "C130",
   "status": "partial",
   "theorems": [
    "Verif.SrcFile.C130_loaded",
    "Verif.SrcFile.C130_refused",
    "Verif.SrcFile.C130_warnings",
    "Verif.SrcFile.C130_again",
    "Verif.SrcFile.C130_replay_safe",
    "Verif.SrcFile.C130_replay_exact",
    "Verif.SrcFile.C130_tp_exact",
    "Verif.SrcFile.C130_limit_counterexample",
    "Verif.SrcFile.C130_sign_counterexample",
    "Verif.SrcFile.C130_count_counterexample",
    "Verif.SrcFile.C130_empty_counterexample",
    "Verif.SrcFile.C130_tp_size_counterexample",
    "Verif.SrcFile.C130_tp_shrunk_counterexample",
    "Verif.SrcFile.C130_tp_empty_counterexample"
   ],
   "note": "Loading, warnings and exact set of refused files proved; source emulator safe for every reported number and every file of one to 2^32 - 3 payloads, exact for unchanged files; trigger primitive emulator exact for unchanged files of 32-bit words below 2^31 bytes. False: the limit is not enforced, limits from 2^31 on, larger or shrinking trigger primitive files, contents after a refusal."
  },
  {
   "property": "C131",
   "status": "partial",
   "theorems": [
    "Verif.ErrRate.C131_generate_iff",
    "Verif.ErrRate.C131_taken",
    "Verif.ErrRate.C131_words",
    "Verif.ErrRate.C131_period",
    "Verif.ErrRate.C131_rate_partial",
    "Verif.ErrRate.C131_small_counterexample",
    "Verif.ErrRate.C131_negative_counterexample",
    "Verif.ErrRate.C131_one_counterexample",
    "Verif.ErrRate.C131_overflow_counterexample",
    "Verif.ErrRate.C131_draws_counterexample"
   ],
   "note": "Exact words and period for every rate that is taken; rate within 2001 frames of a round for rates from 0 to 1 and equal sums of durations; not refused and wrong outside, none for tiny rates (counterexamples). Infinities and NaN not modelled."
  },
  {
   "property": "C132",
   "status": "partial",
   "theorems": [
    "Verif.Pace.C132_period",
    "Verif.Pace.C132_as_unbounded",
    "Verif.Pace.C132_rate",
    "Verif.Pace.C132_stop",
    "Verif.Pace.C132_leaves",
    "Verif.Pace.C132_zero_counterexample",
    "Verif.Pace.C132_negative_counterexample",
    "Verif.Pace.C132_huge_counterexample",
    "Verif.Pace.C132_wrap_counterexample",
    "Verif.Pace.C132_stop_counterexample"
   ],
   "note": "Period, rate and an upper bound on stopping for factors from one millionth to 10^12 away from the end of the 64-bit clock; refusal of senseless factors and prompt stops are false (counterexamples). Signs of zeros and subnormal numbers not modelled."
  },
  {
   "property": "C133",
   "status": "partial",
   "theorems": [
    "Verif.View.C133_sample_partial",
    "Verif.View.C133_views_agree_partial",
    "Verif.View.C133_every_word_once",
    "Verif.View.C133_expanded_partial",
    "Verif.View.C133_entry",
    "Verif.View.C133_register",
    "Verif.View.C133_channel_counterexample",
    "Verif.View.C133_registers_counterexample",
    "Verif.View.C133_induction_counterexample",
    "Verif.View.C133_tick_counterexample",
    "Verif.View.C133_entry_counterexample"
   ],
   "note": "Proved for channels and ticks of the window and six registers a frame; refusal of others is false (counterexamples: channel 96 is channel 0 of the next message, ticks past the end are read out of bounds, with ten registers the views disagree). Type aliasing and alignment not modelled; nothing in the repository uses the window view yet."
  }
 ]
}