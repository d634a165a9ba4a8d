{
 "claims": [
  {
   "property": "C01",
   "status": "proved",
   "theorems": [
    "Verif.Hash.C01_table_refines_multimap",
    "Verif.Hash.C01_hash_unobservable",
    "Verif.Hash.C01_foreach_visits_every_item_once",
    "Verif.Hash.C01_foreach_refines"
   ],
   "note": ""
  },
  {
   "property": "C02",
   "status": "proved",
   "theorems": [
    "Verif.Hash.C02_at_most_one_per_key",
    "Verif.Hash.C02_refused_iff_present",
    "Verif.Hash.C02_first_last"
   ],
   "note": ""
  },
  {
   "property": "C03",
   "status": "proved",
   "theorems": [
    "Verif.Refcnt.C03_destroyed_once_at_last_release",
    "Verif.Refcnt.C03_single_destroyer",
    "Verif.Refcnt.C03_destroyer_completes"
   ],
   "note": "sequentially consistent interleavings"
  },
  {
   "property": "C04",
   "status": "partial",
   "theorems": [
    "Verif.Refcnt.C04_unshared_resurrected_counterexample",
    "Verif.Refcnt.C04_two_tries_counterexample",
    "Verif.Refcnt.C04_lost_update_counterexample",
    "Verif.Refcnt.C04_try_safe_partial",
    "Verif.Refcnt.C04_success_means_alive_partial"
   ],
   "note": "false of the code in general (three counterexamples); proved when conditional acquires start after the object's first acquire, do not overlap each other, and are not in flight when the memory is released"
  },
  {
   "property": "C05",
   "status": "partial",
   "theorems": [
    "Verif.Wref.C05_overlapping_readers_counterexample",
    "Verif.Wref.C05_dying_target_returned_counterexample",
    "Verif.Wref.C05_weak_link_safe_partial",
    "Verif.Wref.C05_nothing_after_invalidation_partial"
   ],
   "note": "false of the code for overlapping readers (two counterexamples); proved for non-overlapping getref calls, any interleaving with everything else"
  },
  {
   "property": "C06",
   "status": "proved",
   "theorems": [
    "Verif.Ringbuf.C06_locate_iff_recent",
    "Verif.Ringbuf.C06_position_identifies_occurrence"
   ],
   "note": ""
  },
  {
   "property": "C07",
   "status": "proved",
   "theorems": [
    "Verif.Rtp.C07_parser_partitions_packet",
    "Verif.Rtp.C07_duration"
   ],
   "note": ""
  },
  {
   "property": "C08",
   "status": "partial",
   "theorems": [
    "Verif.Rtp.C08_rtp_taken_for_stun_counterexample",
    "Verif.Rtp.C08_demux_unambiguous_partial"
   ],
   "note": "The RTP/STUN exclusion is false of the code (proved counterexample: RTP timestamp equal to the STUN magic cookie); all other exclusions and read bounds are proved."
  },
  {
   "property": "C09",
   "status": "proved",
   "theorems": [
    "Verif.Rtp.C09_modular_order"
   ],
   "note": ""
  },
  {
   "property": "C10",
   "status": "partial",
   "theorems": [
    "Verif.Resizer.C10_clock",
    "Verif.Resizer.C10_audio_conserved_partial",
    "Verif.Resizer.C10_one_stream_in_order_partial",
    "Verif.Resizer.C10_only_late_packets_dropped",
    "Verif.Resizer.C10_get_sends_when_full",
    "Verif.Resizer.C10_packet_shape_partial",
    "Verif.Resizer.C10_wire_partial",
    "Verif.Resizer.C10_consecutive_sequence",
    "Verif.Resizer.C10_padding_counterexample",
    "Verif.Resizer.C10_g722_counterexample",
    "Verif.Resizer.C10_ssrc_change_counterexample"
   ],
   "note": "Proved for every history: no fault, no audio lost or duplicated, play-out times kept (G.711, G.729, GSM), size/ptime limits, consecutive sequence numbers, valid headers for unpadded packets. Order proved for one RTP stream within half of the timestamp space. False, with counterexamples: padded packets, G.722 splitting, SSRC change."
  },
  {
   "property": "C11",
   "status": "partial",
   "theorems": [
    "Verif.Analyze.C11_counted_once",
    "Verif.Analyze.C11_one_source_partial",
    "Verif.Analyze.C11_next_source_partial",
    "Verif.Analyze.C11_underflow_counterexample",
    "Verif.Analyze.C11_negative_loss_counterexample",
    "Verif.Analyze.C11_old_packet_counterexample",
    "Verif.Analyze.C11_offset_counterexample",
    "Verif.Analyze.C11_marker_counterexample"
   ],
   "note": "Every packet is counted exactly once, whatever arrives (C11_counted_once, up to 2^32 packets). For streams of one source in which the extended numbers stay near each other the reported counts are exact and the loss is not negative (C11_one_source_partial, C11_next_source_partial). Fails in general: five counterexamples (underflow of the span, negative loss, old packets after a wrap, the offset kept over a change of source, a marker after the wrap)."
  },
  {
   "property": "C12",
   "status": "proved",
   "theorems": [
    "Verif.Analyze.C12_bounded",
    "Verif.Analyze.C12_own",
    "Verif.Analyze.C12_each_once",
    "Verif.Analyze.C12_last_tracked",
    "Verif.Analyze.C12_complete",
    "Verif.Analyze.C12_report",
    "Verif.Analyze.C12_forgotten_counterexample",
    "Verif.Analyze.C12_no_fault"
   ],
   "note": "Bounded, no SSRC twice, each record is the fold of the packets of its own source; complete up to ten sources; counts of the report. Floating-point values are abstract."
  },
  {
   "property": "C13",
   "status": "partial",
   "theorems": [
    "Verif.Str.C13_quote_within_bounds",
    "Verif.Str.C13_encoding_is_percent_encoding",
    "Verif.Str.C13_unquote_decodes_partial",
    "Verif.Str.C13_roundtrip",
    "Verif.Str.C13_unquote_overread_counterexample"
   ],
   "note": "Quoting, bounds and round trip proved; decoding proved except for a truncated escape at the end, where the code reads one byte too far (counterexample)"
  },
  {
   "property": "C14",
   "status": "proved",
   "theorems": [
    "Verif.Cmd.C14_strsplit_exact"
   ],
   "note": ""
  },
  {
   "property": "C15",
   "status": "partial",
   "theorems": [
    "Verif.Cmd.C15_split_stream",
    "Verif.Cmd.C15_split_partial",
    "Verif.Cmd.C15_long_cookie_counterexample"
   ],
   "note": "Proved for stream connections and for datagrams with a cookie of at most 1022 bytes; longer cookies abort the server (counterexample)"
  },
  {
   "property": "C16",
   "status": "partial",
   "theorems": [
    "Verif.Cmd.C16_admission",
    "Verif.Cmd.C16_arguments_present",
    "Verif.Cmd.C16_optional_arguments",
    "Verif.Cmd.C16_stats_limit_counterexample"
   ],
   "note": "Admission, error order and presence of arguments proved; a G naming more than 22 counters is within the grammar but refused earlier (counterexample)"
  },
  {
   "property": "C17",
   "status": "partial",
   "theorems": [
    "Verif.Str.C17_strtol_saferange",
    "Verif.Str.C17_atoi_partial",
    "Verif.Str.C17_truncation_counterexample"
   ],
   "note": "strtol-based range parsing proved; values beyond int are truncated (counterexample)"
  },
  {
   "property": "C18",
   "status": "proved",
   "theorems": [
    "Verif.Str.C18_strlcpy",
    "Verif.Str.C18_truncation_detectable"
   ],
   "note": ""
  },
  {
   "property": "C19",
   "status": "partial",
   "theorems": [
    "Verif.Cmd.C19_buffer_partial",
    "Verif.Cmd.C19_refused_unchanged",
    "Verif.Cmd.C19_cookie",
    "Verif.Cmd.C19_deliver",
    "Verif.Cmd.C19_error_abort_counterexample",
    "Verif.Cmd.C19_overrun_counterexample",
    "Verif.Cmd.C19_ul_reply_partial",
    "Verif.Cmd.C19_query_reply_partial",
    "Verif.Cmd.C19_query_abort_counterexample"
   ],
   "note": "Proved for the way handlers use the buffer, for deliver_number/error, U/L and QUERY replies given room; three counterexamples"
  },
  {
   "property": "C20",
   "status": "proved",
   "theorems": [
    "Verif.Cmd.C20_duplicates",
    "Verif.Cmd.C20_within_ttl",
    "Verif.Cmd.C20_dropped"
   ],
   "note": "Holds for answers that could be stored; when memory for the cache entry cannot be allocated the answer is not retained (memOk). Clock readings are exact integers."
  },
  {
   "property": "C21",
   "status": "partial",
   "theorems": [
    "Verif.Cmd.C21_framing",
    "Verif.Cmd.C21_segmentation",
    "Verif.Cmd.C21_short_lines_partial",
    "Verif.Cmd.C21_long_line_counterexample"
   ],
   "note": "Framing, segmentation independence and memory safety are proved; false that an over-long line (8192 bytes) is reported: the connection is closed without an answer."
  },
  {
   "property": "C22",
   "status": "partial",
   "theorems": [
    "Verif.Sess.C22_lookup",
    "Verif.Sess.C22_update",
    "Verif.Sess.C22_media_partial",
    "Verif.Sess.C22_media_counterexample",
    "Verif.Sess.C22_omitted_tag_counterexample"
   ],
   "note": "The look-up is characterised exactly for every history (C22_lookup, C22_update). The claim that the callee's leg is found only under the to-tag plus the media number is false for tags with several separators and for commands that omit the to-tag; the _partial theorem covers tags with at most one separator."
  },
  {
   "property": "C23",
   "status": "partial",
   "theorems": [
    "Verif.Sess.C23_delete",
    "Verif.Sess.C23_held",
    "Verif.Sess.C23_media_partial",
    "Verif.Sess.C23_order_counterexample",
    "Verif.Sess.C23_hold_taken"
   ],
   "note": "The effect of DELETE is characterised exactly for every history (C23_delete, C23_held). That all addressed sessions are dealt with independently of creation order is false (C23_order_counterexample); the _partial theorem covers requests with no exact match."
  },
  {
   "property": "C24",
   "status": "partial",
   "theorems": [
    "Verif.Port.C24_offered",
    "Verif.Port.C24_offered_range",
    "Verif.Port.C24_control_port_counterexample",
    "Verif.Port.C24_free_port_counterexample",
    "Verif.Port.C24_sequential_partial",
    "Verif.Port.C24_all_free_partial",
    "Verif.Port.C24_listeners"
   ],
   "note": "Safety (range, parity, permutation, listeners) proved for every history. Exclusion of the control port is false because port_ctl is never set; finding a free port is false (last used port, single port, random mode); the _partial theorems cover sequential mode and the all-free case."
  },
  {
   "property": "C25",
   "status": "proved",
   "theorems": [
    "Verif.Port.C25_range"
   ],
   "note": "All settings."
  },
  {
   "property": "C26",
   "status": "proved",
   "theorems": [
    "Verif.Sess.C26_expiry",
    "Verif.Sess.C26_packet",
    "Verif.Sess.C26_shared_once",
    "Verif.Sess.C26_active",
    "Verif.Sess.C26_new_session",
    "Verif.Sess.C26_after_packet",
    "Verif.Sess.C26_separate",
    "Verif.Sess.C26_update"
   ],
   "note": "Every history; ticks and packets are atomic events."
  },
  {
   "property": "C27",
   "status": "proved",
   "theorems": [
    "Verif.Queue.C27_queue_is_fifo",
    "Verif.Queue.C27_no_loss_no_duplication",
    "Verif.Queue.C27_order",
    "Verif.Queue.C27_limit"
   ],
   "note": "Full refinement of a list by ring plus overflow list, for every capacity and operation sequence; waiting and wake-ups are not modelled."
  },
  {
   "property": "C28",
   "status": "proved",
   "theorems": [
    "Verif.Timed.C28_tasks",
    "Verif.Timed.C28_safe",
    "Verif.Timed.C28_ended_never_runs",
    "Verif.Timed.C28_never_early",
    "Verif.Timed.C28_next_period",
    "Verif.Timed.C28_first_scan",
    "Verif.Timed.C28_cancelled_never_runs",
    "Verif.Timed.C28_one_shot",
    "Verif.Timed.C28_scan_ends",
    "Verif.Timed.C28_cancel_while_running",
    "Verif.Timed.C28_zero_period_hangs",
    "Verif.Timed.C28_shutdown_can_hang"
   ],
   "note": "Over all interleavings of clients, callbacks and the timer thread. Periods must be positive: a task with period zero that asks for more hangs the timer (C28_zero_period_hangs)."
  },
  {
   "property": "C29",
   "status": "partial",
   "theorems": [
    "Verif.Sinfo.C29_lost_counterexample",
    "Verif.Sinfo.C29_abort_counterexample",
    "Verif.Sinfo.C29_twice_counterexample",
    "Verif.Sinfo.C29_leak_counterexample",
    "Verif.Sinfo.C29_clear_necessary",
    "Verif.Sinfo.C29_safe_partial",
    "Verif.Sinfo.C29_settled_partial",
    "Verif.Sinfo.C29_aligned_partial",
    "Verif.Sinfo.C29_sync_partial",
    "Verif.Sinfo.C29_ends_partial",
    "Verif.Sinfo.C29_streams_partial",
    "Verif.Sinfo.C29_references_partial"
   ],
   "note": "All interleavings of additions, updates, removals and the threads that apply them: tables, kernel set and references exact; false when realloc fails in the synchronisation or in a removal (counterexamples)."
  },
  {
   "property": "C30",
   "status": "partial",
   "theorems": [
    "Verif.Latch.C30_foreign_packet",
    "Verif.Latch.C30_foreign_host_asymmetric",
    "Verif.Latch.C30_no_hijack",
    "Verif.Latch.C30_sequence_follows",
    "Verif.Latch.C30_follows_move",
    "Verif.Latch.C30_zero_ssrc_counterexample",
    "Verif.Latch.C30_rtcp_redirected_counterexample",
    "Verif.Latch.C30_rtcp_partial",
    "Verif.Latch.C30_first_packet_locks"
   ],
   "note": "Proved for the RTP stream over all event sequences (source keeping non-zero SSRCs). False for a source that switches to SSRC 0 (stream is unlatched) and for the RTCP companion, which is redirected when the RTP stream's address is filled in; both proved by witness."
  },
  {
   "property": "C31",
   "status": "proved",
   "theorems": [
    "Verif.Pproc.C31_order",
    "Verif.Pproc.C31_unregister_unknown_aborts",
    "Verif.Pproc.C31_lookup",
    "Verif.Pproc.C31_runs",
    "Verif.Pproc.C31_accounted",
    "Verif.Pproc.C31_action",
    "Verif.Pproc.C31_totals"
   ],
   "note": "Processor table order and stability for every sequence of registrations; which processors run; kept xor released and counted once; totals; action reported. What processors do is a parameter."
  },
  {
   "property": "C32",
   "status": "partial",
   "theorems": [
    "Verif.Pearson.C32_exact",
    "Verif.Pearson.C32_256_counterexample",
    "Verif.Pearson.C32_duplicates_hang",
    "Verif.Pearson.C32_shuffle_covers"
   ],
   "note": "Exact for up to 255 distinct names and every random stream for which the search ends; shuffle covers every nonzero byte; duplicates never end the search. Missing: more names; of 256 names the last is not found (C32_256_counterexample), so the statement for every set of names is false."
  },
  {
   "property": "C33",
   "status": "proved",
   "theorems": [
    "Verif.Rwlock.C33_exclusion",
    "Verif.Rwlock.C33_upgrade_atomic",
    "Verif.Rwlock.C33_no_deadlock",
    "Verif.Rwlock.C33_foreign_unlock_counterexample"
   ],
   "note": "For any number of threads and interleavings, mutexes as lock bits; unlocking by a thread other than the locker is needed (C33_foreign_unlock_counterexample)."
  },
  {
   "property": "C34",
   "status": "partial",
   "theorems": [
    "Verif.Player.C34_tail_counterexample",
    "Verif.Player.C34_codec_counterexample",
    "Verif.Player.C34_type_counterexample",
    "Verif.Player.C34_overflow_counterexample",
    "Verif.Player.C34_memory_counterexample",
    "Verif.Player.C34_stream_partial",
    "Verif.Player.C34_timestamps",
    "Verif.Player.C34_pass",
    "Verif.Player.C34_paced_partial",
    "Verif.Player.C34_monotone"
   ],
   "note": "All prompts, known codecs, packetisation times up to 999 ms, counts, start times and calls: every packet right and paced, every packet fits; the tail of a prompt is dropped, unknown codecs never end, INT_MIN repetitions overflow (counterexamples)."
  },
  {
   "property": "C35",
   "status": "partial",
   "theorems": [
    "Verif.Record.C35_ether",
    "Verif.Record.C35_ether_counterexample",
    "Verif.Record.C35_family_counterexample",
    "Verif.Record.C35_family_garbled_counterexample",
    "Verif.Record.C35_short_write_counterexample",
    "Verif.Record.C35_capture_partial",
    "Verif.Record.C35_own",
    "Verif.Record.C35_failure_partial",
    "Verif.Record.C35_remote",
    "Verif.Record.C35_stops"
   ],
   "note": "Proved for the recorder's own format, for remote copies, and for captures (incl. a reader of the frames with checksums), including the state after failed writes; false if RTCP of a single file changes its address family on the way (counterexamples) and for short writes (counterexample)."
  },
  {
   "property": "C36",
   "status": "proved",
   "theorems": [
    "Verif.Sbuf.C36_contents",
    "Verif.Sbuf.C36_terminated",
    "Verif.Sbuf.C36_error_counterexample",
    "Verif.Sbuf.C36_extend_asserts"
   ],
   "note": "Contents, bookkeeping, results and termination over all histories of writes, extensions (with any allocator behaviour) and resets; an extension that does not extend fails an assertion."
  },
  {
   "property": "C37",
   "status": "proved",
   "theorems": [
    "Verif.Cksum.C37_in_cksum",
    "Verif.Cksum.C37_in_cksum_long",
    "Verif.Cksum.C37_inserted_verifies",
    "Verif.Cksum.C37_udp4",
    "Verif.Cksum.C37_udp6",
    "Verif.Cksum.C37_udp_zero_checksum_counterexample"
   ],
   "note": "in_cksum for all strings below 2^16 bytes, UDP sums for all addresses/ports/data; a zero UDP checksum is not replaced by all ones (C37_udp_zero_checksum_counterexample)."
  },
  {
   "property": "C38",
   "status": "partial",
   "theorems": [
    "Verif.Dtmf.C38_single_counterexample",
    "Verif.Dtmf.C38_code_counterexample",
    "Verif.Dtmf.C38_empty_counterexample",
    "Verif.Dtmf.C38_source_counterexample",
    "Verif.Dtmf.C38_tag_counterexample",
    "Verif.Dtmf.Ctl.C38_command_partial",
    "Verif.Dtmf.Ctl.C38_retag_counterexample",
    "Verif.Dtmf.Ctl.C38_relay_partial",
    "Verif.Dtmf.Ctl.C38_queue_counterexample",
    "Verif.Dtmf.C38_safe_partial",
    "Verif.Dtmf.C38_exact",
    "Verif.Dtmf.C38_once",
    "Verif.Dtmf.C38_reported_partial"
   ],
   "note": "False: an event of which one packet arrives is not reported; code 17 is reported as NUL; a packet without payload or with contributing sources is misread; a tag over 498 bytes may make the worker read outside its buffer; a second subcommand keeps the old tag; packets are dropped when the worker's queue is full."
  },
  {
   "property": "C39",
   "status": "partial",
   "theorems": [
    "Verif.Rtcp.C39_lost_counterexample",
    "Verif.Rtcp.C39_lost_text_counterexample",
    "Verif.Rtcp.C39_two_counterexample",
    "Verif.Rtcp.C39_version_counterexample",
    "Verif.Rtcp.C39_safe",
    "Verif.Rtcp.C39_accepts",
    "Verif.Rtcp.C39_reports_partial",
    "Verif.Rtcp.C39_single"
   ],
   "note": "Memory safety, termination, the exact set of accepted packets and the reported fields are proved; losses outside 0..65535 and -1 are decoded wrongly, and two reports in one packet give no JSON text (counterexamples)."
  },
  {
   "property": "C40",
   "status": "proved",
   "theorems": [
    "Verif.Genuid.C40_distinct",
    "Verif.Genuid.C40_answered",
    "Verif.Genuid.C40_wraps",
    "Verif.Genuid.C40_first_is_none",
    "Verif.Genuid.C40_none_once"
   ],
   "note": "All interleavings of requests; sharp at 2^64; the first identifier is the reserved value 0."
  },
  {
   "property": "C41",
   "status": "partial",
   "theorems": [
    "Verif.Bindaddr.C41_stays",
    "Verif.Bindaddr.C41_right",
    "Verif.Bindaddr.C41_shared",
    "Verif.Bindaddr.C41_distinct",
    "Verif.Bindaddr.C41_unlabelled_partial",
    "Verif.Bindaddr.C41_unlabelled_counterexample",
    "Verif.Bindaddr.C41_labels_partial",
    "Verif.Bindaddr.C41_labels_counterexample",
    "Verif.Bindaddr.C41_foraf",
    "Verif.Bindaddr.C41_host2_events"
   ],
   "note": "Requests that name a label (or name that they want none) get the same object exactly if host, family and label agree, under every interleaving; objects stay; requests without parameters get the same object only while no request with parameters is made (C41_unlabelled_counterexample: a labelled object for the same address takes over); a label designates one host if registrations do not overlap (C41_labels_counterexample)."
  },
  {
   "property": "C42",
   "status": "partial",
   "theorems": [
    "Verif.Num.C42_extremes_int",
    "Verif.Num.C42_maximum_partial",
    "Verif.Num.C42_minimum_partial",
    "Verif.Num.C42_minimum_counterexample",
    "Verif.Num.C42_bounded",
    "Verif.Num.C42_bounded_int",
    "Verif.Num.C42_follows"
   ],
   "note": "integer variant: extremes proved for any rounding; floating variant: maximum proved, minimum false (stores maxval), proved only while nothing falls below the initial value; bounds with exact arithmetic"
  },
  {
   "property": "C43",
   "status": "partial",
   "theorems": [
    "Verif.Num.C43_timeval",
    "Verif.Num.C43_mtimespec_partial",
    "Verif.Num.C43_mtimespec_counterexample"
   ],
   "note": "timeval proved for any order-preserving rounding exact on integers; timespec within one unit, but the fraction may be 10^9 (counterexample)"
  },
  {
   "property": "C44",
   "status": "partial",
   "theorems": [
    "Verif.Counters.C44_commands_partial",
    "Verif.Counters.C44_commands_no_nomem",
    "Verif.Counters.C44_stats_current",
    "Verif.Counters.C44_borrow_counterexample",
    "Verif.Counters.C44_nomem_counterexample",
    "Verif.Counters.C44_sessions",
    "Verif.Counters.C44_info",
    "Verif.Counters.C44_packet"
   ],
   "note": "false for two out-of-memory cases (theorems C44_*_counterexample); with enough memory and for sessions and packets it holds"
  },
  {
   "property": "C45",
   "status": "proved",
   "theorems": [
    "Verif.Addr.C45_addr",
    "Verif.Addr.C45_label",
    "Verif.Addr.C45_bindarg"
   ],
   "note": "extractaddr, extractlabel and bindarg_parse characterised exactly on byte memory"
  },
  {
   "property": "C46",
   "status": "partial",
   "theorems": [
    "Verif.Notify.C46_fd_counterexample",
    "Verif.Notify.C46_short_counterexample",
    "Verif.Notify.C46_served",
    "Verif.Notify.C46_alive_partial",
    "Verif.Notify.C46_delivers",
    "Verif.Notify.C46_others",
    "Verif.Notify.C46_order",
    "Verif.Notify.C46_descriptors"
   ],
   "note": "Bounded attempts, order, at most one delivery, descriptor hygiene and independence of targets proved for all answers of the kernel; that the worker never stops is proved without descriptor targets (one failed send to such a target aborts), and a short send counts as delivered (counterexamples)."
  },
  {
   "property": "C47",
   "status": "partial",
   "theorems": [
    "Verif.Eaud.C47_counted_partial",
    "Verif.Eaud.C47_recorded_own_partial",
    "Verif.Eaud.C47_recorded_capture_partial",
    "Verif.Eaud.C47_error_counterexample",
    "Verif.Eaud.C47_ipv6_counterexample",
    "Verif.Eaud.C47_cut_counterexample",
    "Verif.Eaud.C47_length_counterexample",
    "Verif.Eaud.C47_endless_counterexample",
    "Verif.Eaud.C47_same_ssrc_counterexample",
    "Verif.Eaud.C47_channels",
    "Verif.Eaud.C47_order_partial",
    "Verif.Eaud.C47_kept",
    "Verif.Eaud.C47_late_counterexample",
    "Verif.Eaud.C47_duplicate_counterexample",
    "Verif.Eaud.C47_frame_counterexample",
    "Verif.Eaud.C47_timestamp_counterexample",
    "Verif.Eaud.C47_gap_counterexample",
    "Verif.Eaud.C47_own_partial",
    "Verif.Eaud.C47_capture_partial",
    "Verif.Eaud.C47_call_partial"
   ],
   "note": "Under stated conditions on a source (a packet arriving late is from the same run of sequence numbers, time stamps ascend, no gap of 65536) the loaded list is in order without duplicates; files of the recorder's own format and captures are loaded completely when the statistics report no error; recording followed by loading gives the packets of the call. Without these conditions the claim fails: counterexamples."
  },
  {
   "property": "C48",
   "status": "partial",
   "theorems": [
    "Verif.Eaud.C48_gsm_counterexample",
    "Verif.Eaud.C48_g729_counterexample",
    "Verif.Eaud.C48_g729_silence_counterexample",
    "Verif.Eaud.C48_g729_stale_counterexample",
    "Verif.Eaud.C48_restart_counterexample",
    "Verif.Eaud.C48_pause_counterexample",
    "Verif.Eaud.C48_safe_partial",
    "Verif.Eaud.C48_ends_partial",
    "Verif.Eaud.C48_steady_partial",
    "Verif.Eaud.C48_timeline_partial"
   ],
   "note": "Memory safety, termination and the timeline of PCMU/PCMA proved for whole frames, bcg729 and defined conversions; partial GSM frames, G.729E, silence of the other G.729 library and converted negative numbers are counterexamples."
  },
  {
   "property": "C49",
   "status": "partial",
   "theorems": [
    "Verif.G711.C49_inside",
    "Verif.G711.C49_inside_tight",
    "Verif.G711.C49_decode_inside",
    "Verif.G711.C49_standard",
    "Verif.G711.C49_roundtripA",
    "Verif.G711.C49_roundtripU_partial",
    "Verif.G711.C49_roundtripU_counterexample",
    "Verif.G711.C49_buffer",
    "Verif.G711.C49_monotone_decode",
    "Verif.G711.C49_monotone",
    "Verif.G711.C49_error",
    "Verif.G711.C49_sign",
    "Verif.G711.C49_standard_encoder",
    "Verif.G711.C49_no_negative_zero",
    "Verif.G711.C49_transcodeAU",
    "Verif.G711.C49_transcodeUA_partial",
    "Verif.G711.C49_transcodeUA_counterexample"
   ],
   "note": "The A-law part is complete. For mu-law the round trip holds except for the code of negative zero (127), which comes back as 126 (C49_roundtripU_counterexample). Additional: order, sign and error bound of encoding for all samples, the decoders are those of ITU-T G.711 except for the mu-law zeros, the direct transcoding tables (the one from mu-law to A-law differs from decoding and encoding for seven codes)."
  },
  {
   "property": "C50",
   "status": "partial",
   "theorems": [
    "Verif.Conns.C50_sockets_counterexample",
    "Verif.Conns.C50_memory_counterexample",
    "Verif.Conns.C50_hangup_counterexample",
    "Verif.Conns.C50_start_partial",
    "Verif.Conns.C50_exclusive",
    "Verif.Conns.C50_waiting_partial",
    "Verif.Conns.C50_overload_counterexample",
    "Verif.Conns.C50_full_counterexample",
    "Verif.Conns.C50_turn",
    "Verif.Conns.C50_accept",
    "Verif.Conns.C50_history"
   ],
   "note": "Table (C50_turn, C50_accept, C50_history, C50_start_partial) and locks (C50_exclusive, C50_waiting_partial) for all executions. False parts: more than 100 directly read sockets write behind the array, an allocation failure at start-up frees a NULL record, a hang-up of an fd: socket is never removed, overload protection deadlocks the two threads, a full wake-up socket deadlocks them."
  },
  {
   "property": "C51",
   "status": "partial",
   "theorems": [
    "Verif.Packetport.Flush.C51_flush_partial",
    "Verif.Packetport.Flush.C51_flush_lost_counterexample",
    "Verif.Packetport.Flush.C51_worker_runs",
    "Verif.Packetport.Flush.C51_term_lost_counterexample",
    "Verif.Packetport.Flush.C51_send_refuses_newest_counterexample",
    "Verif.Packetport.Flush.C51_term_accepted",
    "Verif.Packetport.C51_ports",
    "Verif.Packetport.C51_ports_all",
    "Verif.Packetport.C51_batch",
    "Verif.Packetport.C51_signal_drops_packet_counterexample",
    "Verif.Packetport.C51_push_partial",
    "Verif.Packetport.C51_push_lost_in_race_counterexample"
   ],
   "note": "Ports: full. Batches to the host: full (order, bounds, termination, drop count). Push: newest packet refused when the worker empties the ring in between (counterexample). Flush: full under sequential consistency, lost under store buffering (counterexample). Termination signal and newest packets refused when the work queue is full (counterexamples). reg_streams not modelled."
  },
  {
   "property": "C52",
   "status": "partial",
   "theorems": [
    "Verif.Ulopt.C52_total",
    "Verif.Ulopt.C52_meaning_partial",
    "Verif.Ulopt.C52_deterministic",
    "Verif.Ulopt.C52_ptime_counterexample",
    "Verif.Ulopt.C52_peer_partial",
    "Verif.Ulopt.C52_peer_counterexample"
   ],
   "note": "strings accepted exactly when they read as acceptable modifiers, with the options they denote; numbers beyond int wrap (counterexample); RTCP port of a peer at 65535 wraps to 0 (counterexample)"
  },
  {
   "property": "C53",
   "status": "proved",
   "theorems": [
    "Verif.Weakref.C53_registry_refines_map",
    "Verif.Weakref.C53_purge_releases_each_once",
    "Verif.Weakref.C53_move_transfers",
    "Verif.Weakref.C53_move_needs_shared_seed"
   ],
   "note": "move requires both registries to share the hash seed, as the only caller arranges; needed, see C53_move_needs_shared_seed"
  },
  {
   "property": "C54",
   "status": "partial",
   "theorems": [
    "Verif.Pcount.C54_locations",
    "Verif.Pcount.C54_total",
    "Verif.Pcount.C54_unattributed",
    "Verif.Pcount.C54_attributed_partial",
    "Verif.Pcount.C54_fifth_counterexample",
    "Verif.Pcount.C54_report"
   ],
   "note": "All interleavings: each location registered once, in order, counts equal attributions; every drop counted; attributed to its own location if at most four locations occur. With a fifth location a drop is attributed to none (counterexample)."
  },
  {
   "property": "C55",
   "status": "proved",
   "theorems": [
    "Verif.Rtp.C55_rewrite_then_parse"
   ],
   "note": ""
  },
  {
   "property": "C56",
   "status": "partial",
   "theorems": [
    "Verif.Spmc.C56_linearizable",
    "Verif.Spmc.C56_safe",
    "Verif.Spmc.C56_fifo",
    "Verif.Spmc.C56_empty_only_when_empty",
    "Verif.Spmc.C56_short_push_only_when_full",
    "Verif.Spmc.C56_consumer_never_waits",
    "Verif.Spmc.C56_producer_never_waits",
    "Verif.Spmc.Relaxed.C56_relaxed_load_counterexample"
   ],
   "note": "Full under sequential consistency (linearizable to a bounded FIFO, safe, FIFO, progress); with the load reordering that C11 permits the assertion can fail (C56_relaxed_load_counterexample)."
  },
  {
   "property": "C57",
   "status": "partial",
   "theorems": [
    "Verif.Pproc.Refs.C57_no_use_after_free_partial",
    "Verif.Pproc.Refs.C57_alive_partial",
    "Verif.Pproc.Refs.C57_no_leak_partial",
    "Verif.Pproc.Refs.C57_clone_counterexample",
    "Verif.Pproc.Refs.C57_leak_counterexample"
   ],
   "note": "Proved for all interleavings in which only tables without counted processors are cloned (the only use in the program); clone of a counted processor leaves a dangling reference (counterexample), and more than 23 counted processors leak (counterexample)."
  },
  {
   "property": "C58",
   "status": "proved",
   "theorems": [
    "Verif.Counters.C58_answered_once",
    "Verif.Counters.C58_unknown_session"
   ],
   "note": "handle_command with all handlers as control flow; replies fit the buffer (C19)"
  },
  {
   "property": "C59",
   "status": "partial",
   "theorems": [
    "Verif.Counters.C59_update_partial",
    "Verif.Counters.C59_packetport_counterexample"
   ],
   "note": "false if the packet port cannot take the session (C59_packetport_counterexample)"
  },
  {
   "property": "C60",
   "status": "proved",
   "theorems": [
    "Verif.Bindaddr.C60_setup",
    "Verif.Bindaddr.C60_labels",
    "Verif.Bindaddr.C60_bridging"
   ],
   "note": "Allocation failures in set-up are not modelled; name resolution is an arbitrary function."
  },
  {
   "property": "C61",
   "status": "partial",
   "theorems": [
    "Verif.Record.C61_path_partial",
    "Verif.Record.C61_path_counterexample",
    "Verif.Record.C61_distinct_partial",
    "Verif.Record.C61_distinct_counterexample",
    "Verif.Record.C61_media_counterexample",
    "Verif.Record.C61_given_name_counterexample",
    "Verif.Record.C61_kinds",
    "Verif.Record.C61_inside_partial",
    "Verif.Record.C61_inside_counterexample"
   ],
   "note": "Proved under length and character restrictions; overrun of the name buffer, collisions and escapes from the directory are counterexamples."
  },
  {
   "property": "C62",
   "status": "partial",
   "theorems": [
    "Verif.Record.Ctl.C62_consistent",
    "Verif.Record.Ctl.C62_start",
    "Verif.Record.Ctl.C62_stop",
    "Verif.Record.Ctl.C62_end",
    "Verif.Record.Ctl.C62_single_shared",
    "Verif.Record.Ctl.C62_target_counterexample",
    "Verif.Record.Ctl.C62_already_counterexample",
    "Verif.Record.Ctl.C62_race_partial",
    "Verif.Record.Ctl.C62_race_counterexample"
   ],
   "note": "Reference counts, slots, stop and end proved for all sequences of requests; the target of a recording and the race with packet threads are counterexamples."
  },
  {
   "property": "C63",
   "status": "partial",
   "theorems": [
    "Verif.Mix.C63_call_partial",
    "Verif.Mix.C63_sources_partial",
    "Verif.Mix.C63_report_counterexample",
    "Verif.Mix.C63_nosync_counterexample",
    "Verif.Mix.C63_mix",
    "Verif.Mix.C63_inside"
   ],
   "note": "Proved for any number of channels; with option -n freed memory is read, and the number of samples reported is half of those written."
  },
  {
   "property": "C64",
   "status": "partial",
   "theorems": [
    "Verif.Tset.C64_colon_counterexample",
    "Verif.Tset.C64_port_counterexample",
    "Verif.Tset.C64_path_counterexample",
    "Verif.Tset.C64_source_counterexample",
    "Verif.Tset.C64_full_counterexample",
    "Verif.Tset.C64_accepted",
    "Verif.Tset.C64_refused",
    "Verif.Tset.C64_safe",
    "Verif.Tset.C64_stable",
    "Verif.Tset.C64_named_partial",
    "Verif.Tset.C64_unknown",
    "Verif.Tset.C64_self",
    "Verif.Tset.C64_distinct",
    "Verif.Tset.C64_enabled"
   ],
   "note": "C64_accepted, C64_refused, C64_safe, C64_stable, C64_unknown, C64_self, C64_distinct and C64_enabled hold for all histories. C64_named_partial leaves out names with a colon but no prefix, which are accepted and never found (C64_colon_counterexample). Also false: ports are read leniently, long paths are cut, the local address of the first command is kept for later ones, and after 64 hosts the next gets no target (C64_port_, C64_path_, C64_source_, C64_full_counterexample)."
  },
  {
   "property": "C65",
   "status": "partial",
   "theorems": [
    "Verif.Play.C65_stopped_counterexample",
    "Verif.Play.C65_one_counterexample",
    "Verif.Play.C65_held_counterexample",
    "Verif.Play.C65_agrees_counterexample",
    "Verif.Play.C65_progress_counterexample",
    "Verif.Play.C65_deadlock_counterexample",
    "Verif.Play.C65_awake_counterexample",
    "Verif.Play.C65_safe",
    "Verif.Play.C65_held_back",
    "Verif.Play.C65_stopped_partial",
    "Verif.Play.C65_silent_stays_partial",
    "Verif.Play.C65_agrees_partial",
    "Verif.Play.C65_one_partial",
    "Verif.Play.C65_started_partial",
    "Verif.Play.C65_waiting_partial",
    "Verif.Play.C65_gone_partial",
    "Verif.Play.C65_progress_partial",
    "Verif.Play.C65_awake_partial"
   ],
   "note": "C65_safe and C65_held_back hold in all executions. C65_stopped_, C65_silent_stays_, C65_agrees_, C65_one_, C65_started_, C65_waiting_, C65_gone_ and C65_progress_partial leave out failed registrations, NOPLAY looking for a player that is being moved between the tables, and a stream whose last reference is dropped by the player thread; C65_awake_partial leaves out a player that becomes active between the check and the wait. Each exclusion is needed: C65_stopped_, C65_one_, C65_held_, C65_agrees_, C65_progress_, C65_deadlock_ and C65_awake_counterexample."
  },
  {
   "property": "C66",
   "status": "partial",
   "theorems": [
    "Verif.Copy.C66_terminates_counterexample",
    "Verif.Copy.C66_copied_counterexample",
    "Verif.Copy.C66_terminates_partial",
    "Verif.Copy.C66_refs",
    "Verif.Copy.C66_copied_partial",
    "Verif.Copy.C66_early_partial",
    "Verif.Copy.C66_heard",
    "Verif.Copy.C66_silenced",
    "Verif.Copy.C66_cycle",
    "Verif.Copy.C66_safe_partial",
    "Verif.Copy.C66_failed_partial",
    "Verif.Copy.C66_failed_counterexample",
    "Verif.Copy.C66_undone_partial"
   ],
   "note": "Proved where copies do not lead back (C66_terminates_partial, C66_copied_partial, C66_early_partial), where no registration fails half way (C66_safe_partial, C66_failed_partial) and where memory is not short (C66_undone_partial). Counterexamples: copies in a circle exhaust the stack, a copy asked for twice doubles every packet, a registration that fails half way aborts the server. References, silence of the target and delivery are proved without restriction."
  },
  {
   "property": "C67",
   "status": "partial",
   "theorems": [
    "Verif.Wake.C67_deleted_counterexample",
    "Verif.Wake.C67_stuck_counterexample",
    "Verif.Wake.C67_overflow_counterexample",
    "Verif.Wake.C67_settles_partial",
    "Verif.Wake.C67_noticed_partial",
    "Verif.Wake.C67_delivered_partial",
    "Verif.Wake.C67_rate",
    "Verif.Wake.C67_soon",
    "Verif.Wake.C67_stops",
    "Verif.Wake.C67_ends"
   ],
   "note": "No request is lost and the threads come to rest in a bounded number of steps, proved for every execution in which no deadline is refused and fewer than 2^31 requests are made; rate, shutdown of the wake-up thread and of the media threads without these restrictions. Counterexamples: a refused deadline leaves the mutex locked for ever, the 2^31st request overflows an int, the sockets of a deleted session are not given up until something else wakes the media thread."
  },
  {
   "property": "C68",
   "status": "partial",
   "theorems": [
    "Verif.Plane.C68_not_locked_counterexample",
    "Verif.Plane.C68_off_but_locked_counterexample",
    "Verif.Plane.C68_stale_message_counterexample",
    "Verif.Plane.C68_failed_start_counterexample",
    "Verif.Plane.C68_in_charge",
    "Verif.Plane.C68_gate",
    "Verif.Plane.C68_no_latching",
    "Verif.Plane.C68_completion",
    "Verif.Plane.C68_queue_is_received",
    "Verif.Plane.C68_off",
    "Verif.Plane.C68_address_stays_partial",
    "Verif.Plane.C68_completion_locks_partial",
    "Verif.Plane.C68_address_while_checking_partial",
    "Verif.Plane.C68_start"
   ],
   "note": "Who is in charge, the gate, completion, origin of queued messages and switching off are proved for every execution. That the address stays is proved for a stream that is locked (completed, latched, no messages of an earlier agent in the queue), and completion is proved to lock unless the address is the one from before a change by signalling; counterexamples show both exceptions, and that a failed start leaves the gate closed. Atomic commands; answers of the ICE library are arbitrary."
  },
  {
   "property": "C69",
   "status": "partial",
   "theorems": [
    "Verif.Plane.C69_any_peer_counterexample",
    "Verif.Plane.C69_late_fingerprint_counterexample",
    "Verif.Plane.C69_early_datagram_counterexample",
    "Verif.Plane.C69_rtcp_in_the_clear_counterexample",
    "Verif.Plane.C69_in_charge",
    "Verif.Plane.C69_no_media_in_the_clear",
    "Verif.Plane.C69_datagrams_wait",
    "Verif.Plane.C69_thread_output",
    "Verif.Plane.C69_verified_by_the_right_connection",
    "Verif.Plane.C69_peer_fingerprint_partial",
    "Verif.Plane.C69_given_up_for_good",
    "Verif.Plane.C69_off",
    "Verif.Plane.C69_no_renegotiation"
   ],
   "note": "No media in the clear, nothing unverified used, the right connection, given up for good and switching off are proved for every execution. The fingerprint is proved to be compared if one was recorded by the time the handshake ends; counterexamples: none recorded, recorded later, negotiation blocked by an early datagram. RTCP that is not multiplexed is outside (counterexample). Cryptography is an oracle."
  },
  {
   "property": "C70",
   "status": "partial",
   "theorems": [
    "Verif.Plane.C70_released_twice_counterexample",
    "Verif.Plane.C70_released_twice_mux_counterexample",
    "Verif.Plane.C70_protect_overflow_counterexample",
    "Verif.Plane.C70_one_end",
    "Verif.Plane.C70_no_abort",
    "Verif.Plane.C70_no_fault_partial"
   ],
   "note": "Exactly one end of every passage that does not fail, for arbitrary chains and processors; no abort in any reachable state. Absence of undefined behaviour is proved for packets other than RTCP, without ICE, or when all streams can send and other processors only look, given that encrypted packets fit; counterexamples: multiplexed RTCP that is dropped is released twice, encryption of a full-size packet overflows its buffer."
  },
  {
   "property": "C71",
   "status": "partial",
   "theorems": [
    "Verif.Netio.C71_lost_counterexample",
    "Verif.Netio.C71_no_fault",
    "Verif.Netio.C71_in_order",
    "Verif.Netio.C71_idle_all_sent",
    "Verif.Netio.C71_stop",
    "Verif.Netio.C71_ends",
    "Verif.Netio.C71_packet_kept",
    "Verif.Netio.C71_socket_kept",
    "Verif.Netio.C71_progress"
   ],
   "note": "Proved for all executions except for shutdown: an item that the thread takes in the same batch behind the order to stop is neither sent nor released (C71_lost_counterexample)."
  },
  {
   "property": "C72",
   "status": "partial",
   "theorems": [
    "Verif.Acct.C72_comma_counterexample",
    "Verif.Acct.C72_torn_counterexample",
    "Verif.Acct.C72_trunc_counterexample",
    "Verif.Acct.C72_stale_counterexample",
    "Verif.Acct.C72_big_counterexample",
    "Verif.Acct.C72_contents_partial",
    "Verif.Acct.C72_once",
    "Verif.Acct.C72_lines_partial",
    "Verif.Acct.C72_written_partial",
    "Verif.Acct.C72_no_fault_partial",
    "Verif.Acct.C72_progress_partial",
    "Verif.Acct.C72_steps",
    "Verif.Acct.C72_line_partial",
    "Verif.Acct.C72_names",
    "Verif.Acct.C72_values_partial",
    "Verif.Acct.C72_all",
    "Verif.Acct.C72_ssrc"
   ],
   "note": "Proved for all numbers of processes and all interleavings, if no write is cut short, no file is emptied in place, files stay below two gigabytes, new files can be locked, and the texts have no comma; each of these conditions is needed (five counterexamples)."
  },
  {
   "property": "C73",
   "status": "partial",
   "theorems": [
    "Verif.Modman.C73_numbers",
    "Verif.Modman.C73_distinct",
    "Verif.Modman.C73_lookup",
    "Verif.Modman.C73_parse_partial",
    "Verif.Modman.C73_bad_module_counterexample",
    "Verif.Modman.C73_no_fault",
    "Verif.Modman.C73_order",
    "Verif.Modman.C73_all",
    "Verif.Modman.C73_once",
    "Verif.Modman.C73_asked",
    "Verif.Modman.C73_after",
    "Verif.Modman.C73_nothing_left",
    "Verif.Modman.C73_full",
    "Verif.Modman.C73_none_lost",
    "Verif.Modman.C73_bound",
    "Verif.Modman.C73_progress",
    "Verif.Modman.C73_shutdown"
   ],
   "note": "The delivery, the shutdown and the numbers are proved for all interleavings. That a module which cannot be loaded is refused is false: the object is used after it is freed (C73_bad_module_counterexample)."
  },
  {
   "property": "C74",
   "status": "partial",
   "theorems": [
    "Verif.Log.C74_twice_counterexample",
    "Verif.Log.C74_dropped_counterexample",
    "Verif.Log.C74_text_counterexample",
    "Verif.Log.C74_no_fault_partial",
    "Verif.Log.C74_text_partial",
    "Verif.Log.C74_log_partial",
    "Verif.Log.C74_dropped_partial",
    "Verif.Log.C74_exit_partial",
    "Verif.Log.C74_idle_partial",
    "Verif.Log.C74_bound_partial",
    "Verif.Log.C74_wait_partial",
    "Verif.Log.Ticket.C74_stderr",
    "Verif.Log.Ticket.C74_stderr_goes"
   ],
   "note": "Proved for one set-up, formats that vsnprintf accepts and fewer than 2^31 drops; C74_twice_counterexample (two initialisations register the exit handler twice, the second joins a joined thread), C74_dropped_counterexample (int counter overflows), C74_text_counterexample (vsnprintf error eats the last byte of the prefix)."
  },
  {
   "property": "C75",
   "status": "partial",
   "theorems": [
    "Verif.Stats.C75_full_counterexample",
    "Verif.Stats.C75_reason_counterexample",
    "Verif.Stats.C75_sum",
    "Verif.Stats.C75_reply",
    "Verif.Stats.C75_no_fault_partial",
    "Verif.Stats.C75_rate"
   ],
   "note": "sums, replies and rates proved for all interleavings; that no request crashes the server is false when the answer fills the buffer but for one byte (C75_full_counterexample); doubles are rationals"
  },
  {
   "property": "C76",
   "status": "partial",
   "theorems": [
    "Verif.Subc.C76_number_counterexample",
    "Verif.Subc.C76_stale_counterexample",
    "Verif.Subc.C76_tos_counterexample",
    "Verif.Subc.C76_complete_counterexample",
    "Verif.Subc.C76_stop",
    "Verif.Subc.C76_split",
    "Verif.Subc.C76_ttl",
    "Verif.Subc.C76_tos_partial",
    "Verif.Subc.C76_bound_partial",
    "Verif.Subc.C76_parse_partial"
   ],
   "note": "Order, stop at the first failure, look-ups as subcommands and limits of the timers hold in full. Types of service: for addresses of the old family on systems that set them (C76_tos_counterexample). The timer never exceeds its limit unless a command comes between the two halves of a packet's restart (C76_stale_counterexample). Numbers beyond the range of int are accepted with another value (C76_number_counterexample)."
  },
  {
   "property": "C77",
   "status": "partial",
   "theorems": [
    "Verif.Query.C77_race_counterexample",
    "Verif.Query.C77_empty_counterexample",
    "Verif.Query.C77_full_counterexample",
    "Verif.Query.C77_gap_counterexample",
    "Verif.Query.C77_modifier",
    "Verif.Query.C77_reply_partial",
    "Verif.Query.C77_simple_partial"
   ],
   "note": "Holds in full for the timers, packet counts, relayed and dropped packets, parse errors, jitter records, repeated names and errors. Counts of the analysis: if no packet of the stream is analysed while they are read; otherwise the number of lost packets can be 2^32-1 (C77_race_counterexample). Longest gap: for clocks that are positive and do not go back (C77_gap_counterexample). A query without names whose answer does not fit yields an empty line (C77_empty_counterexample); a reply of 1023 bytes aborts (C77_full_counterexample)."
  },
  {
   "property": "C78",
   "status": "partial",
   "theorems": [
    "Verif.Ctl.C78_v6_counterexample",
    "Verif.Ctl.C78_takeover_counterexample",
    "Verif.Ctl.C78_removed_counterexample",
    "Verif.Ctl.C78_left_counterexample",
    "Verif.Ctl.C78_relative_counterexample",
    "Verif.Ctl.C78_creds_counterexample",
    "Verif.Ctl.C78_kind",
    "Verif.Ctl.C78_path",
    "Verif.Ctl.C78_host_port",
    "Verif.Ctl.C78_address",
    "Verif.Ctl.C78_no_lookup",
    "Verif.Ctl.C78_closed_partial",
    "Verif.Ctl.C78_reach_partial",
    "Verif.Ctl.C78_gone_partial"
   ],
   "note": "false in general: a second instance with the same path takes the file away from one that is up, which removes the other's file when it ends; a failed start and a daemon with a relative name leave the file; an IPv6 host without a port is cut at its last colon; instances that differ about user and group change each other's open sockets. Proved for paths that are not shared"
  },
  {
   "property": "C79",
   "status": "partial",
   "theorems": [
    "Verif.Start.C79_group_counterexample",
    "Verif.Start.C79_groups_counterexample",
    "Verif.Start.C79_tcp_counterexample",
    "Verif.Start.C79_sigpipe_counterexample",
    "Verif.Start.C79_mode_counterexample",
    "Verif.Start.C79_deorbit_counterexample",
    "Verif.Start.C79_rights_partial",
    "Verif.Start.C79_answer",
    "Verif.Start.C79_no_hang",
    "Verif.Start.C79_refuse_partial",
    "Verif.Start.C79_user",
    "Verif.Start.C79_order",
    "Verif.Start.C79_stop",
    "Verif.Start.C79_no_new_partial"
   ],
   "note": "false in general: a user without a group keeps the group of the starter, supplementary groups are always kept, TCP control sockets are not refused to the superuser, a client that goes away before SIGPIPE is ignored ends the program, the session of a command in hand at SIGHUP may be lost, and -w is read in base ten. The rest is proved in full"
  },
  {
   "property": "C80",
   "status": "partial",
   "theorems": [
    "Verif.Setup.Cases.C80_address_counterexample",
    "Verif.Setup.Cases.C80_unregistered_counterexample",
    "Verif.Setup.Cases.C80_rtcp_address_counterexample",
    "Verif.Setup.Cases.C80_notify_counterexample",
    "Verif.Setup.Cases.C80_advertised_counterexample",
    "Verif.Setup.Cases.C80_last_port_counterexample",
    "Verif.Setup.C80_reply_partial",
    "Verif.Setup.C80_stable",
    "Verif.Setup.C80_moved",
    "Verif.Setup.C80_interfaces",
    "Verif.Setup.C80_apart",
    "Verif.Setup.C80_refused_partial",
    "Verif.Setup.C80_in_force",
    "Verif.Setup.C80_resized",
    "Verif.Setup.C80_hold",
    "Verif.Setup.C80_destination",
    "Verif.Setup.C80_handler",
    "Verif.Setup.C80_text"
   ],
   "note": "Proved for all histories: kept ports, moved ports, independence of the parties, settings, hold, destination, handler, text. The reply names the bound socket only if no change of the local address failed before and the sockets could be registered; a refused command may change the local address. Counterexamples: the address after a failed change, sockets that cannot be registered, the address of the RTCP stream, an unknown notification target, the advertised address of a wildcard socket, RTCP for port 65535. The library's packet ports are left out."
  },
  {
   "property": "C81",
   "status": "partial",
   "theorems": [
    "Verif.Hep.C81_torn_counterexample",
    "Verif.Hep.C81_stranger_counterexample",
    "Verif.Hep.C81_overflow_counterexample",
    "Verif.Hep.C81_cut_counterexample",
    "Verif.Hep.C81_config",
    "Verif.Hep.C81_safe_partial",
    "Verif.Hep.C81_reports_partial",
    "Verif.Hep.C81_once",
    "Verif.Hep.C81_agent_counterexample",
    "Verif.Hep.C81_own_partial",
    "Verif.Hep.C81_patience"
   ],
   "note": "Proved for packets whose report and call-id fit 65535 bytes (bound 129 + call-id + 9 x packet) and datagrams sent whole; ownership of the descriptor while names resolve. Counterexamples: heap overflow by a 7864-byte packet, silent cut of longer texts, capture agent in the wrong half, torn streams, use of a closed descriptor's number. Not modelled: select with an uninitialised set, leak of address lists."
  },
  {
   "property": "C82",
   "status": "partial",
   "theorems": [
    "Verif.Ended.C82_received_partial",
    "Verif.Ended.C82_stamp_counterexample",
    "Verif.Ended.C82_gap_counterexample",
    "Verif.Ended.C82_record",
    "Verif.Ended.C82_statistics",
    "Verif.Ended.C82_bounds",
    "Verif.Ended.C82_times_partial"
   ],
   "note": "Times are integers, rounding of double is not modelled. Missing: a time stamp told after the address is not used (C82_stamp_counterexample); when times go back, the longest pause may be too long, never too short (C82_gap_counterexample). Counters of relayed and dropped packets, jitter and loss in the record are those of C54, C11, C12."
  },
  {
   "property": "C83",
   "status": "partial",
   "theorems": [
    "Verif.Cli.C83_number_counterexample",
    "Verif.Cli.C83_advertised_counterexample",
    "Verif.Cli.C83_order_counterexample",
    "Verif.Cli.C83_mode_counterexample",
    "Verif.Cli.C83_accepts",
    "Verif.Cli.C83_means",
    "Verif.Cli.C83_order",
    "Verif.Cli.C83_number_partial",
    "Verif.Cli.C83_exit"
   ],
   "note": "Numbers too large for an int are cut (-T 4294967297 is 1); -A a/b -A c keeps b, -A /b is accepted; -w 0 and -u depend on their order; -w is read as a decimal number."
  },
  {
   "property": "C84",
   "status": "partial",
   "theorems": [
    "Verif.Heard.C84_hidden_counterexample",
    "Verif.Heard.C84_unsent_counterexample",
    "Verif.Heard.C84_lost_counterexample",
    "Verif.Heard.C84_prompt_counterexample",
    "Verif.Heard.C84_packet_partial",
    "Verif.Heard.C84_injected_partial",
    "Verif.Heard.C84_complete_partial",
    "Verif.Heard.C84_unchanged_partial"
   ],
   "note": "false as it stands: a hidden digit is recorded, and copied or not depending on the order of the commands; packets that are not sent for want of an address are recorded; catching without room for the worker costs the peer the digit; what is played to the peer is not recorded (counterexamples). Proved: the exact conditions for each, completeness of the recording for packets of the party, and that listening changes nothing for the peer when nothing is hidden and there is room. RTP streams; the processors of other orders are in C31 and C70."
  },
  {
   "property": "C85",
   "status": "partial",
   "theorems": [
    "Verif.Srtp.C85_rtcp_tag_counterexample",
    "Verif.Srtp.C85_refused_counterexample",
    "Verif.Srtp.C85_small_letters_counterexample",
    "Verif.Srtp.C85_source_counterexample",
    "Verif.Srtp.C85_word_counterexample",
    "Verif.Srtp.C85_failed_connect_counterexample",
    "Verif.Srtp.C85_safe",
    "Verif.Srtp.C85_up_partial",
    "Verif.Srtp.C85_two_ends",
    "Verif.Srtp.C85_role",
    "Verif.Srtp.C85_comes_up",
    "Verif.Srtp.C85_command",
    "Verif.Srtp.C85_accepts"
   ],
   "note": "Proved for histories in which no command was refused, with the RTCP tag only outside the short-tag profile, sources that are numbers of 32 bits, and letting in for fingerprints in capital letters. Missing because false: C85_rtcp_tag, C85_refused, C85_small_letters, C85_source, C85_word and C85_failed_connect counterexamples."
  },
  {
   "property": "C86",
   "status": "proved",
   "theorems": [
    "Verif.Netaddr.C86_padding_counterexample",
    "Verif.Netaddr.C86_register",
    "Verif.Netaddr.C86_exclusive",
    "Verif.Netaddr.C86_released",
    "Verif.Netaddr.C86_answers",
    "Verif.Netaddr.C86_own"
   ],
   "note": "Addresses are byte strings; that comparing looks at padding as well is C86_padding_counterexample. Memory is sequentially consistent; copy (a get and a set) is not modelled as one method."
  },
  {
   "property": "C87",
   "status": "partial",
   "theorems": [
    "Verif.Icecand.C87_candidate",
    "Verif.Icecand.C87_once",
    "Verif.Icecand.C87_stay",
    "Verif.Icecand.C87_refused",
    "Verif.Icecand.C87_answer_partial",
    "Verif.Icecand.C87_answer_safe",
    "Verif.Icecand.C87_letter",
    "Verif.Icecand.C87_numbers_counterexample",
    "Verif.Icecand.C87_word_counterexample",
    "Verif.Icecand.C87_password_counterexample",
    "Verif.Icecand.C87_answer_whole"
   ],
   "note": "Candidates: in full for numbers in range. The answer: whole or an error whenever fragment and password fit. Not so (counterexamples): numbers out of range and words that are no numbers are accepted as others, words of several letters are taken for subcommands, and the answer lacks the password when it does not fit (APPEND is never negative)."
  },
  {
   "property": "C88",
   "status": "partial",
   "theorems": [
    "Verif.Dtimer.C88_retransmitted_partial",
    "Verif.Dtimer.C88_after",
    "Verif.Dtimer.C88_one_partial",
    "Verif.Dtimer.C88_retransmitted_counterexample",
    "Verif.Dtimer.C88_one_counterexample"
   ],
   "note": "Not so (counterexamples): tls_connect does not look at the failure of check_timer, so that the active side is left without a timer; a callback that waits for the lock while its task is cancelled and replaced takes the new one for its own, so that there are two. Proved otherwise."
  }
 ]
}