import Verif.Basic
import Verif.Acct.Body
import Verif.Acct.Cases
import Verif.Acct.Counter
import Verif.Acct.Full
import Verif.Acct.Inv
import Verif.Acct.Keep
import Verif.Acct.Local
import Verif.Acct.Model
import Verif.Acct.Off
import Verif.Acct.Props
import Verif.Acct.Row
import Verif.Acct.RowLemmas
import Verif.Acct.RowProps
import Verif.Acct.RowSpec
import Verif.Acct.Spec
import Verif.Acct.Steps
import Verif.Addr.Model
import Verif.Addr.Props
import Verif.Analyze.Jitter
import Verif.Analyze.Model
import Verif.Analyze.Props
import Verif.Bindaddr.Model
import Verif.Bindaddr.Props
import Verif.Cksum.Model
import Verif.Cksum.Props
import Verif.Cli.Cases
import Verif.Cli.Init
import Verif.Cli.Loop
import Verif.Cli.Model
import Verif.Cli.Props
import Verif.Cli.Spec
import Verif.Cmd.Parse
import Verif.Cmd.ParseProps
import Verif.Cmd.Rcache
import Verif.Cmd.RcacheProps
import Verif.Cmd.Reply
import Verif.Cmd.ReplyProps
import Verif.Cmd.Split
import Verif.Cmd.SplitProps
import Verif.Cmd.Stream
import Verif.Cmd.StreamProps
import Verif.Cmd.Swar
import Verif.Cmd.SwarProps
import Verif.Conns.Cases
import Verif.Conns.Init
import Verif.Conns.LockProps
import Verif.Conns.Locks
import Verif.Conns.Model
import Verif.Conns.Props
import Verif.Conns.Round
import Verif.Conns.Spec
import Verif.Conns.Sweep
import Verif.Copy.Cases
import Verif.Copy.Count
import Verif.Copy.Counter
import Verif.Copy.Flow
import Verif.Copy.Good
import Verif.Copy.Install
import Verif.Copy.Model
import Verif.Copy.Project
import Verif.Copy.Props
import Verif.Copy.Spec
import Verif.Copy.Sys
import Verif.Copy.Undo
import Verif.Counters.Model
import Verif.Counters.Props
import Verif.Counters.Sessions
import Verif.Ctl.Cases
import Verif.Ctl.Closed
import Verif.Ctl.Lemmas
import Verif.Ctl.Model
import Verif.Ctl.Props
import Verif.Ctl.Spec
import Verif.Dtimer.Cases
import Verif.Dtimer.Model
import Verif.Dtimer.Props
import Verif.Dtmf.Cases
import Verif.Dtmf.Ctl
import Verif.Dtmf.CtlProps
import Verif.Dtmf.Model
import Verif.Dtmf.Props
import Verif.Dtmf.Ring
import Verif.Dtmf.Trace
import Verif.Eaud.Cases
import Verif.Eaud.Chans
import Verif.Eaud.DecCases
import Verif.Eaud.DecProps
import Verif.Eaud.Decoder
import Verif.Eaud.Ends
import Verif.Eaud.File
import Verif.Eaud.Load
import Verif.Eaud.Mix
import Verif.Eaud.MixCases
import Verif.Eaud.MixProps
import Verif.Eaud.Model
import Verif.Eaud.Order
import Verif.Eaud.Props
import Verif.Eaud.Render
import Verif.Ended.Cases
import Verif.Ended.Inv
import Verif.Ended.Model
import Verif.Ended.Props
import Verif.Ended.Spec
import Verif.Ended.Step
import Verif.Ended.Times
import Verif.G711.Model
import Verif.G711.Props
import Verif.Genuid.Props
import Verif.Hash.Lemmas
import Verif.Hash.Model
import Verif.Hash.Props
import Verif.Hash.Purge
import Verif.Hash.Spec
import Verif.Heard.Cases
import Verif.Heard.Inv
import Verif.Heard.Model
import Verif.Heard.Props
import Verif.Heard.Run
import Verif.Heard.Spec
import Verif.Hep.Cases
import Verif.Hep.Config
import Verif.Hep.Decode
import Verif.Hep.Handle
import Verif.Hep.Lemmas
import Verif.Hep.Model
import Verif.Hep.Props
import Verif.Hep.Spec
import Verif.Icecand.Cases
import Verif.Icecand.Inv
import Verif.Icecand.Model
import Verif.Icecand.Props
import Verif.Icecand.Spec
import Verif.Icecand.Whole
import Verif.Latch.Model
import Verif.Latch.Props
import Verif.Log.Cases
import Verif.Log.Inv
import Verif.Log.Model
import Verif.Log.Props
import Verif.Log.Spec
import Verif.Log.Steps
import Verif.Log.Ticket
import Verif.Log.TicketProps
import Verif.Modman.Cases
import Verif.Modman.Count
import Verif.Modman.Free
import Verif.Modman.Hist
import Verif.Modman.Load
import Verif.Modman.LoadProps
import Verif.Modman.Logs
import Verif.Modman.Model
import Verif.Modman.Mods
import Verif.Modman.Props
import Verif.Modman.Rank
import Verif.Modman.Spec
import Verif.Netaddr.Cases
import Verif.Netaddr.Inv
import Verif.Netaddr.Model
import Verif.Netaddr.Props
import Verif.Netaddr.Spec
import Verif.Netio.Cases
import Verif.Netio.Counter
import Verif.Netio.Inv
import Verif.Netio.Model
import Verif.Netio.Order
import Verif.Netio.Props
import Verif.Netio.Spec
import Verif.Netio.Steps
import Verif.Notify.Cases
import Verif.Notify.Model
import Verif.Notify.Props
import Verif.Notify.Spec
import Verif.Notify.Step
import Verif.Num.Model
import Verif.Num.Props
import Verif.Packetport.Flush
import Verif.Packetport.Model
import Verif.Packetport.Props
import Verif.Pcount.Model
import Verif.Pcount.Props
import Verif.Pearson.Model
import Verif.Pearson.Props
import Verif.Plane.Cases
import Verif.Plane.Chain
import Verif.Plane.Counter
import Verif.Plane.Effs
import Verif.Plane.Inv
import Verif.Plane.Model
import Verif.Plane.Own
import Verif.Plane.PropsDtls
import Verif.Plane.PropsIce
import Verif.Plane.PropsIce2
import Verif.Plane.PropsOwn
import Verif.Plane.Spec
import Verif.Plane.Steps
import Verif.Play.Cases
import Verif.Play.Count
import Verif.Play.Counter
import Verif.Play.Facts
import Verif.Play.Inv
import Verif.Play.Model
import Verif.Play.Props
import Verif.Play.Safe
import Verif.Play.Spec
import Verif.Play.Step
import Verif.Play.Trans
import Verif.Player.Cases
import Verif.Player.Inv
import Verif.Player.Model
import Verif.Player.Props
import Verif.Player.Spec
import Verif.Player.Step
import Verif.Port.Lemmas
import Verif.Port.Model
import Verif.Port.Props
import Verif.Pproc.Model
import Verif.Pproc.Props
import Verif.Pproc.Refs
import Verif.Query.Cases
import Verif.Query.Lemmas
import Verif.Query.Model
import Verif.Query.Props
import Verif.Query.Spec
import Verif.Queue.Lemmas
import Verif.Queue.Model
import Verif.Queue.Props
import Verif.Queue.Spec
import Verif.Record.Ctl
import Verif.Record.CtlProps
import Verif.Record.Ether
import Verif.Record.Frame
import Verif.Record.Model
import Verif.Record.Names
import Verif.Record.Props
import Verif.Record.Spec
import Verif.Refcnt.Lemmas
import Verif.Refcnt.Model
import Verif.Refcnt.Props
import Verif.Refcnt.Spec
import Verif.Resizer.Clock
import Verif.Resizer.Lemmas
import Verif.Resizer.Loop
import Verif.Resizer.Model
import Verif.Resizer.Order
import Verif.Resizer.Props
import Verif.Resizer.Run
import Verif.Resizer.Spec
import Verif.Resizer.Trace
import Verif.Ringbuf.Model
import Verif.Ringbuf.Props
import Verif.Rtcp.Cases
import Verif.Rtcp.Json
import Verif.Rtcp.Loop
import Verif.Rtcp.Model
import Verif.Rtcp.Props
import Verif.Rtcp.Read
import Verif.Rtcp.Spec
import Verif.Rtcp.Text
import Verif.Rtp.Model
import Verif.Rtp.Props
import Verif.Rtp.SamplesProps
import Verif.Rwlock.Lemmas
import Verif.Rwlock.Model
import Verif.Rwlock.Props
import Verif.Sbuf.Model
import Verif.Sbuf.Props
import Verif.Sess.Lemmas
import Verif.Sess.Model
import Verif.Sess.Props
import Verif.Sess.Spec
import Verif.Sess.Steps
import Verif.Sess.TtlProps
import Verif.Setup.Cases
import Verif.Setup.Lemmas
import Verif.Setup.Model
import Verif.Setup.Props
import Verif.Setup.Spec
import Verif.Sinfo.Cases
import Verif.Sinfo.Inv
import Verif.Sinfo.Model
import Verif.Sinfo.Props
import Verif.Sinfo.Spec
import Verif.Sinfo.Steps
import Verif.Sinfo.World
import Verif.Spmc.Model
import Verif.Spmc.Props
import Verif.Spmc.Relaxed
import Verif.Spmc.Spec
import Verif.Srtp.Cases
import Verif.Srtp.Keys
import Verif.Srtp.Model
import Verif.Srtp.Props
import Verif.Srtp.Shake
import Verif.Srtp.Spec
import Verif.Start.Cases
import Verif.Start.Lemmas
import Verif.Start.Model
import Verif.Start.Props
import Verif.Stats.Cases
import Verif.Stats.Model
import Verif.Stats.Props
import Verif.Stats.Reply
import Verif.Stats.Spec
import Verif.Stats.Steps
import Verif.Str.Mem
import Verif.Str.Num
import Verif.Str.NumProps
import Verif.Str.Strlcpy
import Verif.Str.StrlcpyProps
import Verif.Str.Url
import Verif.Str.UrlProps
import Verif.Subc.Cases
import Verif.Subc.Model
import Verif.Subc.Props
import Verif.Subc.Spec
import Verif.Timed.Model
import Verif.Timed.Props
import Verif.Timed.Spec
import Verif.Tset.Cases
import Verif.Tset.Inv
import Verif.Tset.Model
import Verif.Tset.Props
import Verif.Tset.Spec
import Verif.Tset.Step
import Verif.Ulopt.Model
import Verif.Ulopt.Props
import Verif.Util.Dec
import Verif.Util.Tot
import Verif.Wake.Cases
import Verif.Wake.Counter
import Verif.Wake.Inv
import Verif.Wake.Model
import Verif.Wake.Props
import Verif.Wake.Spec
import Verif.Wake.Step
import Verif.Weakref.Model
import Verif.Weakref.Props
import Verif.Wref.Lemmas
import Verif.Wref.Model
import Verif.Wref.Props

/-! Axioms used by every property theorem (printed during the build). Generated by tools/gen.py. -/

#print axioms Verif.Hash.C01_table_refines_multimap
#print axioms Verif.Hash.C01_hash_unobservable
#print axioms Verif.Hash.C01_foreach_visits_every_item_once
#print axioms Verif.Hash.C01_foreach_refines
#print axioms Verif.Hash.C02_at_most_one_per_key
#print axioms Verif.Hash.C02_refused_iff_present
#print axioms Verif.Hash.C02_first_last
#print axioms Verif.Refcnt.C03_destroyed_once_at_last_release
#print axioms Verif.Refcnt.C03_single_destroyer
#print axioms Verif.Refcnt.C03_destroyer_completes
#print axioms Verif.Refcnt.C04_unshared_resurrected_counterexample
#print axioms Verif.Refcnt.C04_two_tries_counterexample
#print axioms Verif.Refcnt.C04_lost_update_counterexample
#print axioms Verif.Refcnt.C04_try_safe_partial
#print axioms Verif.Refcnt.C04_success_means_alive_partial
#print axioms Verif.Wref.C05_overlapping_readers_counterexample
#print axioms Verif.Wref.C05_dying_target_returned_counterexample
#print axioms Verif.Wref.C05_weak_link_safe_partial
#print axioms Verif.Wref.C05_nothing_after_invalidation_partial
#print axioms Verif.Ringbuf.C06_locate_iff_recent
#print axioms Verif.Ringbuf.C06_position_identifies_occurrence
#print axioms Verif.Rtp.C07_parser_partitions_packet
#print axioms Verif.Rtp.C07_duration
#print axioms Verif.Rtp.C08_rtp_taken_for_stun_counterexample
#print axioms Verif.Rtp.C08_demux_unambiguous_partial
#print axioms Verif.Rtp.C09_modular_order
#print axioms Verif.Resizer.C10_clock
#print axioms Verif.Resizer.C10_audio_conserved_partial
#print axioms Verif.Resizer.C10_one_stream_in_order_partial
#print axioms Verif.Resizer.C10_only_late_packets_dropped
#print axioms Verif.Resizer.C10_get_sends_when_full
#print axioms Verif.Resizer.C10_packet_shape_partial
#print axioms Verif.Resizer.C10_wire_partial
#print axioms Verif.Resizer.C10_consecutive_sequence
#print axioms Verif.Resizer.C10_padding_counterexample
#print axioms Verif.Resizer.C10_g722_counterexample
#print axioms Verif.Resizer.C10_ssrc_change_counterexample
#print axioms Verif.Analyze.C11_counted_once
#print axioms Verif.Analyze.C11_one_source_partial
#print axioms Verif.Analyze.C11_next_source_partial
#print axioms Verif.Analyze.C11_underflow_counterexample
#print axioms Verif.Analyze.C11_negative_loss_counterexample
#print axioms Verif.Analyze.C11_old_packet_counterexample
#print axioms Verif.Analyze.C11_offset_counterexample
#print axioms Verif.Analyze.C11_marker_counterexample
#print axioms Verif.Analyze.C12_bounded
#print axioms Verif.Analyze.C12_own
#print axioms Verif.Analyze.C12_each_once
#print axioms Verif.Analyze.C12_last_tracked
#print axioms Verif.Analyze.C12_complete
#print axioms Verif.Analyze.C12_report
#print axioms Verif.Analyze.C12_forgotten_counterexample
#print axioms Verif.Analyze.C12_no_fault
#print axioms Verif.Str.C13_quote_within_bounds
#print axioms Verif.Str.C13_encoding_is_percent_encoding
#print axioms Verif.Str.C13_unquote_decodes_partial
#print axioms Verif.Str.C13_roundtrip
#print axioms Verif.Str.C13_unquote_overread_counterexample
#print axioms Verif.Cmd.C14_strsplit_exact
#print axioms Verif.Cmd.C15_split_stream
#print axioms Verif.Cmd.C15_split_partial
#print axioms Verif.Cmd.C15_long_cookie_counterexample
#print axioms Verif.Cmd.C16_admission
#print axioms Verif.Cmd.C16_arguments_present
#print axioms Verif.Cmd.C16_optional_arguments
#print axioms Verif.Cmd.C16_stats_limit_counterexample
#print axioms Verif.Str.C17_strtol_saferange
#print axioms Verif.Str.C17_atoi_partial
#print axioms Verif.Str.C17_truncation_counterexample
#print axioms Verif.Str.C18_strlcpy
#print axioms Verif.Str.C18_truncation_detectable
#print axioms Verif.Cmd.C19_buffer_partial
#print axioms Verif.Cmd.C19_refused_unchanged
#print axioms Verif.Cmd.C19_cookie
#print axioms Verif.Cmd.C19_deliver
#print axioms Verif.Cmd.C19_error_abort_counterexample
#print axioms Verif.Cmd.C19_overrun_counterexample
#print axioms Verif.Cmd.C19_ul_reply_partial
#print axioms Verif.Cmd.C19_query_reply_partial
#print axioms Verif.Cmd.C19_query_abort_counterexample
#print axioms Verif.Cmd.C20_duplicates
#print axioms Verif.Cmd.C20_within_ttl
#print axioms Verif.Cmd.C20_dropped
#print axioms Verif.Cmd.C21_framing
#print axioms Verif.Cmd.C21_segmentation
#print axioms Verif.Cmd.C21_short_lines_partial
#print axioms Verif.Cmd.C21_long_line_counterexample
#print axioms Verif.Sess.C22_lookup
#print axioms Verif.Sess.C22_update
#print axioms Verif.Sess.C22_media_partial
#print axioms Verif.Sess.C22_media_counterexample
#print axioms Verif.Sess.C22_omitted_tag_counterexample
#print axioms Verif.Sess.C23_delete
#print axioms Verif.Sess.C23_held
#print axioms Verif.Sess.C23_media_partial
#print axioms Verif.Sess.C23_order_counterexample
#print axioms Verif.Sess.C23_hold_taken
#print axioms Verif.Port.C24_offered
#print axioms Verif.Port.C24_offered_range
#print axioms Verif.Port.C24_control_port_counterexample
#print axioms Verif.Port.C24_free_port_counterexample
#print axioms Verif.Port.C24_sequential_partial
#print axioms Verif.Port.C24_all_free_partial
#print axioms Verif.Port.C24_listeners
#print axioms Verif.Port.C25_range
#print axioms Verif.Sess.C26_expiry
#print axioms Verif.Sess.C26_packet
#print axioms Verif.Sess.C26_shared_once
#print axioms Verif.Sess.C26_active
#print axioms Verif.Sess.C26_new_session
#print axioms Verif.Sess.C26_after_packet
#print axioms Verif.Sess.C26_separate
#print axioms Verif.Sess.C26_update
#print axioms Verif.Queue.C27_queue_is_fifo
#print axioms Verif.Queue.C27_no_loss_no_duplication
#print axioms Verif.Queue.C27_order
#print axioms Verif.Queue.C27_limit
#print axioms Verif.Timed.C28_tasks
#print axioms Verif.Timed.C28_safe
#print axioms Verif.Timed.C28_ended_never_runs
#print axioms Verif.Timed.C28_never_early
#print axioms Verif.Timed.C28_next_period
#print axioms Verif.Timed.C28_first_scan
#print axioms Verif.Timed.C28_cancelled_never_runs
#print axioms Verif.Timed.C28_one_shot
#print axioms Verif.Timed.C28_scan_ends
#print axioms Verif.Timed.C28_cancel_while_running
#print axioms Verif.Timed.C28_zero_period_hangs
#print axioms Verif.Timed.C28_shutdown_can_hang
#print axioms Verif.Sinfo.C29_lost_counterexample
#print axioms Verif.Sinfo.C29_abort_counterexample
#print axioms Verif.Sinfo.C29_twice_counterexample
#print axioms Verif.Sinfo.C29_leak_counterexample
#print axioms Verif.Sinfo.C29_clear_necessary
#print axioms Verif.Sinfo.C29_safe_partial
#print axioms Verif.Sinfo.C29_settled_partial
#print axioms Verif.Sinfo.C29_aligned_partial
#print axioms Verif.Sinfo.C29_sync_partial
#print axioms Verif.Sinfo.C29_ends_partial
#print axioms Verif.Sinfo.C29_streams_partial
#print axioms Verif.Sinfo.C29_references_partial
#print axioms Verif.Latch.C30_foreign_packet
#print axioms Verif.Latch.C30_foreign_host_asymmetric
#print axioms Verif.Latch.C30_no_hijack
#print axioms Verif.Latch.C30_sequence_follows
#print axioms Verif.Latch.C30_follows_move
#print axioms Verif.Latch.C30_zero_ssrc_counterexample
#print axioms Verif.Latch.C30_rtcp_redirected_counterexample
#print axioms Verif.Latch.C30_rtcp_partial
#print axioms Verif.Latch.C30_first_packet_locks
#print axioms Verif.Pproc.C31_order
#print axioms Verif.Pproc.C31_unregister_unknown_aborts
#print axioms Verif.Pproc.C31_lookup
#print axioms Verif.Pproc.C31_runs
#print axioms Verif.Pproc.C31_accounted
#print axioms Verif.Pproc.C31_action
#print axioms Verif.Pproc.C31_totals
#print axioms Verif.Pearson.C32_exact
#print axioms Verif.Pearson.C32_256_counterexample
#print axioms Verif.Pearson.C32_duplicates_hang
#print axioms Verif.Pearson.C32_shuffle_covers
#print axioms Verif.Rwlock.C33_exclusion
#print axioms Verif.Rwlock.C33_upgrade_atomic
#print axioms Verif.Rwlock.C33_no_deadlock
#print axioms Verif.Rwlock.C33_foreign_unlock_counterexample
#print axioms Verif.Player.C34_tail_counterexample
#print axioms Verif.Player.C34_codec_counterexample
#print axioms Verif.Player.C34_type_counterexample
#print axioms Verif.Player.C34_overflow_counterexample
#print axioms Verif.Player.C34_memory_counterexample
#print axioms Verif.Player.C34_stream_partial
#print axioms Verif.Player.C34_timestamps
#print axioms Verif.Player.C34_pass
#print axioms Verif.Player.C34_paced_partial
#print axioms Verif.Player.C34_monotone
#print axioms Verif.Record.C35_ether
#print axioms Verif.Record.C35_ether_counterexample
#print axioms Verif.Record.C35_family_counterexample
#print axioms Verif.Record.C35_family_garbled_counterexample
#print axioms Verif.Record.C35_short_write_counterexample
#print axioms Verif.Record.C35_capture_partial
#print axioms Verif.Record.C35_own
#print axioms Verif.Record.C35_failure_partial
#print axioms Verif.Record.C35_remote
#print axioms Verif.Record.C35_stops
#print axioms Verif.Sbuf.C36_contents
#print axioms Verif.Sbuf.C36_terminated
#print axioms Verif.Sbuf.C36_error_counterexample
#print axioms Verif.Sbuf.C36_extend_asserts
#print axioms Verif.Cksum.C37_in_cksum
#print axioms Verif.Cksum.C37_in_cksum_long
#print axioms Verif.Cksum.C37_inserted_verifies
#print axioms Verif.Cksum.C37_udp4
#print axioms Verif.Cksum.C37_udp6
#print axioms Verif.Cksum.C37_udp_zero_checksum_counterexample
#print axioms Verif.Dtmf.C38_single_counterexample
#print axioms Verif.Dtmf.C38_code_counterexample
#print axioms Verif.Dtmf.C38_empty_counterexample
#print axioms Verif.Dtmf.C38_source_counterexample
#print axioms Verif.Dtmf.C38_tag_counterexample
#print axioms Verif.Dtmf.Ctl.C38_command_partial
#print axioms Verif.Dtmf.Ctl.C38_retag_counterexample
#print axioms Verif.Dtmf.Ctl.C38_relay_partial
#print axioms Verif.Dtmf.Ctl.C38_queue_counterexample
#print axioms Verif.Dtmf.C38_safe_partial
#print axioms Verif.Dtmf.C38_exact
#print axioms Verif.Dtmf.C38_once
#print axioms Verif.Dtmf.C38_reported_partial
#print axioms Verif.Rtcp.C39_lost_counterexample
#print axioms Verif.Rtcp.C39_lost_text_counterexample
#print axioms Verif.Rtcp.C39_two_counterexample
#print axioms Verif.Rtcp.C39_version_counterexample
#print axioms Verif.Rtcp.C39_safe
#print axioms Verif.Rtcp.C39_accepts
#print axioms Verif.Rtcp.C39_reports_partial
#print axioms Verif.Rtcp.C39_single
#print axioms Verif.Genuid.C40_distinct
#print axioms Verif.Genuid.C40_answered
#print axioms Verif.Genuid.C40_wraps
#print axioms Verif.Genuid.C40_first_is_none
#print axioms Verif.Genuid.C40_none_once
#print axioms Verif.Bindaddr.C41_stays
#print axioms Verif.Bindaddr.C41_right
#print axioms Verif.Bindaddr.C41_shared
#print axioms Verif.Bindaddr.C41_distinct
#print axioms Verif.Bindaddr.C41_unlabelled_partial
#print axioms Verif.Bindaddr.C41_unlabelled_counterexample
#print axioms Verif.Bindaddr.C41_labels_partial
#print axioms Verif.Bindaddr.C41_labels_counterexample
#print axioms Verif.Bindaddr.C41_foraf
#print axioms Verif.Bindaddr.C41_host2_events
#print axioms Verif.Num.C42_extremes_int
#print axioms Verif.Num.C42_maximum_partial
#print axioms Verif.Num.C42_minimum_partial
#print axioms Verif.Num.C42_minimum_counterexample
#print axioms Verif.Num.C42_bounded
#print axioms Verif.Num.C42_bounded_int
#print axioms Verif.Num.C42_follows
#print axioms Verif.Num.C43_timeval
#print axioms Verif.Num.C43_mtimespec_partial
#print axioms Verif.Num.C43_mtimespec_counterexample
#print axioms Verif.Counters.C44_commands_partial
#print axioms Verif.Counters.C44_commands_no_nomem
#print axioms Verif.Counters.C44_stats_current
#print axioms Verif.Counters.C44_borrow_counterexample
#print axioms Verif.Counters.C44_nomem_counterexample
#print axioms Verif.Counters.C44_sessions
#print axioms Verif.Counters.C44_info
#print axioms Verif.Counters.C44_packet
#print axioms Verif.Addr.C45_addr
#print axioms Verif.Addr.C45_label
#print axioms Verif.Addr.C45_bindarg
#print axioms Verif.Notify.C46_fd_counterexample
#print axioms Verif.Notify.C46_short_counterexample
#print axioms Verif.Notify.C46_served
#print axioms Verif.Notify.C46_alive_partial
#print axioms Verif.Notify.C46_delivers
#print axioms Verif.Notify.C46_others
#print axioms Verif.Notify.C46_order
#print axioms Verif.Notify.C46_descriptors
#print axioms Verif.Eaud.C47_counted_partial
#print axioms Verif.Eaud.C47_recorded_own_partial
#print axioms Verif.Eaud.C47_recorded_capture_partial
#print axioms Verif.Eaud.C47_error_counterexample
#print axioms Verif.Eaud.C47_ipv6_counterexample
#print axioms Verif.Eaud.C47_cut_counterexample
#print axioms Verif.Eaud.C47_length_counterexample
#print axioms Verif.Eaud.C47_endless_counterexample
#print axioms Verif.Eaud.C47_same_ssrc_counterexample
#print axioms Verif.Eaud.C47_channels
#print axioms Verif.Eaud.C47_order_partial
#print axioms Verif.Eaud.C47_kept
#print axioms Verif.Eaud.C47_late_counterexample
#print axioms Verif.Eaud.C47_duplicate_counterexample
#print axioms Verif.Eaud.C47_frame_counterexample
#print axioms Verif.Eaud.C47_timestamp_counterexample
#print axioms Verif.Eaud.C47_gap_counterexample
#print axioms Verif.Eaud.C47_own_partial
#print axioms Verif.Eaud.C47_capture_partial
#print axioms Verif.Eaud.C47_call_partial
#print axioms Verif.Eaud.C48_gsm_counterexample
#print axioms Verif.Eaud.C48_g729_counterexample
#print axioms Verif.Eaud.C48_g729_silence_counterexample
#print axioms Verif.Eaud.C48_g729_stale_counterexample
#print axioms Verif.Eaud.C48_restart_counterexample
#print axioms Verif.Eaud.C48_pause_counterexample
#print axioms Verif.Eaud.C48_safe_partial
#print axioms Verif.Eaud.C48_ends_partial
#print axioms Verif.Eaud.C48_steady_partial
#print axioms Verif.Eaud.C48_timeline_partial
#print axioms Verif.G711.C49_inside
#print axioms Verif.G711.C49_inside_tight
#print axioms Verif.G711.C49_decode_inside
#print axioms Verif.G711.C49_standard
#print axioms Verif.G711.C49_roundtripA
#print axioms Verif.G711.C49_roundtripU_partial
#print axioms Verif.G711.C49_roundtripU_counterexample
#print axioms Verif.G711.C49_buffer
#print axioms Verif.G711.C49_monotone_decode
#print axioms Verif.G711.C49_monotone
#print axioms Verif.G711.C49_error
#print axioms Verif.G711.C49_sign
#print axioms Verif.G711.C49_standard_encoder
#print axioms Verif.G711.C49_no_negative_zero
#print axioms Verif.G711.C49_transcodeAU
#print axioms Verif.G711.C49_transcodeUA_partial
#print axioms Verif.G711.C49_transcodeUA_counterexample
#print axioms Verif.Conns.C50_sockets_counterexample
#print axioms Verif.Conns.C50_memory_counterexample
#print axioms Verif.Conns.C50_hangup_counterexample
#print axioms Verif.Conns.C50_start_partial
#print axioms Verif.Conns.C50_exclusive
#print axioms Verif.Conns.C50_waiting_partial
#print axioms Verif.Conns.C50_overload_counterexample
#print axioms Verif.Conns.C50_full_counterexample
#print axioms Verif.Conns.C50_turn
#print axioms Verif.Conns.C50_accept
#print axioms Verif.Conns.C50_history
#print axioms Verif.Packetport.Flush.C51_flush_partial
#print axioms Verif.Packetport.Flush.C51_flush_lost_counterexample
#print axioms Verif.Packetport.Flush.C51_worker_runs
#print axioms Verif.Packetport.Flush.C51_term_lost_counterexample
#print axioms Verif.Packetport.Flush.C51_send_refuses_newest_counterexample
#print axioms Verif.Packetport.Flush.C51_term_accepted
#print axioms Verif.Packetport.C51_ports
#print axioms Verif.Packetport.C51_ports_all
#print axioms Verif.Packetport.C51_batch
#print axioms Verif.Packetport.C51_signal_drops_packet_counterexample
#print axioms Verif.Packetport.C51_push_partial
#print axioms Verif.Packetport.C51_push_lost_in_race_counterexample
#print axioms Verif.Ulopt.C52_total
#print axioms Verif.Ulopt.C52_meaning_partial
#print axioms Verif.Ulopt.C52_deterministic
#print axioms Verif.Ulopt.C52_ptime_counterexample
#print axioms Verif.Ulopt.C52_peer_partial
#print axioms Verif.Ulopt.C52_peer_counterexample
#print axioms Verif.Weakref.C53_registry_refines_map
#print axioms Verif.Weakref.C53_purge_releases_each_once
#print axioms Verif.Weakref.C53_move_transfers
#print axioms Verif.Weakref.C53_move_needs_shared_seed
#print axioms Verif.Pcount.C54_locations
#print axioms Verif.Pcount.C54_total
#print axioms Verif.Pcount.C54_unattributed
#print axioms Verif.Pcount.C54_attributed_partial
#print axioms Verif.Pcount.C54_fifth_counterexample
#print axioms Verif.Pcount.C54_report
#print axioms Verif.Rtp.C55_rewrite_then_parse
#print axioms Verif.Spmc.C56_linearizable
#print axioms Verif.Spmc.C56_safe
#print axioms Verif.Spmc.C56_fifo
#print axioms Verif.Spmc.C56_empty_only_when_empty
#print axioms Verif.Spmc.C56_short_push_only_when_full
#print axioms Verif.Spmc.C56_consumer_never_waits
#print axioms Verif.Spmc.C56_producer_never_waits
#print axioms Verif.Spmc.Relaxed.C56_relaxed_load_counterexample
#print axioms Verif.Pproc.Refs.C57_no_use_after_free_partial
#print axioms Verif.Pproc.Refs.C57_alive_partial
#print axioms Verif.Pproc.Refs.C57_no_leak_partial
#print axioms Verif.Pproc.Refs.C57_clone_counterexample
#print axioms Verif.Pproc.Refs.C57_leak_counterexample
#print axioms Verif.Counters.C58_answered_once
#print axioms Verif.Counters.C58_unknown_session
#print axioms Verif.Counters.C59_update_partial
#print axioms Verif.Counters.C59_packetport_counterexample
#print axioms Verif.Bindaddr.C60_setup
#print axioms Verif.Bindaddr.C60_labels
#print axioms Verif.Bindaddr.C60_bridging
#print axioms Verif.Record.C61_path_partial
#print axioms Verif.Record.C61_path_counterexample
#print axioms Verif.Record.C61_distinct_partial
#print axioms Verif.Record.C61_distinct_counterexample
#print axioms Verif.Record.C61_media_counterexample
#print axioms Verif.Record.C61_given_name_counterexample
#print axioms Verif.Record.C61_kinds
#print axioms Verif.Record.C61_inside_partial
#print axioms Verif.Record.C61_inside_counterexample
#print axioms Verif.Record.Ctl.C62_consistent
#print axioms Verif.Record.Ctl.C62_start
#print axioms Verif.Record.Ctl.C62_stop
#print axioms Verif.Record.Ctl.C62_end
#print axioms Verif.Record.Ctl.C62_single_shared
#print axioms Verif.Record.Ctl.C62_target_counterexample
#print axioms Verif.Record.Ctl.C62_already_counterexample
#print axioms Verif.Record.Ctl.C62_race_partial
#print axioms Verif.Record.Ctl.C62_race_counterexample
#print axioms Verif.Mix.C63_call_partial
#print axioms Verif.Mix.C63_sources_partial
#print axioms Verif.Mix.C63_report_counterexample
#print axioms Verif.Mix.C63_nosync_counterexample
#print axioms Verif.Mix.C63_mix
#print axioms Verif.Mix.C63_inside
#print axioms Verif.Tset.C64_colon_counterexample
#print axioms Verif.Tset.C64_port_counterexample
#print axioms Verif.Tset.C64_path_counterexample
#print axioms Verif.Tset.C64_source_counterexample
#print axioms Verif.Tset.C64_full_counterexample
#print axioms Verif.Tset.C64_accepted
#print axioms Verif.Tset.C64_refused
#print axioms Verif.Tset.C64_safe
#print axioms Verif.Tset.C64_stable
#print axioms Verif.Tset.C64_named_partial
#print axioms Verif.Tset.C64_unknown
#print axioms Verif.Tset.C64_self
#print axioms Verif.Tset.C64_distinct
#print axioms Verif.Tset.C64_enabled
#print axioms Verif.Play.C65_stopped_counterexample
#print axioms Verif.Play.C65_one_counterexample
#print axioms Verif.Play.C65_held_counterexample
#print axioms Verif.Play.C65_agrees_counterexample
#print axioms Verif.Play.C65_progress_counterexample
#print axioms Verif.Play.C65_deadlock_counterexample
#print axioms Verif.Play.C65_awake_counterexample
#print axioms Verif.Play.C65_safe
#print axioms Verif.Play.C65_held_back
#print axioms Verif.Play.C65_stopped_partial
#print axioms Verif.Play.C65_silent_stays_partial
#print axioms Verif.Play.C65_agrees_partial
#print axioms Verif.Play.C65_one_partial
#print axioms Verif.Play.C65_started_partial
#print axioms Verif.Play.C65_waiting_partial
#print axioms Verif.Play.C65_gone_partial
#print axioms Verif.Play.C65_progress_partial
#print axioms Verif.Play.C65_awake_partial
#print axioms Verif.Copy.C66_terminates_counterexample
#print axioms Verif.Copy.C66_copied_counterexample
#print axioms Verif.Copy.C66_terminates_partial
#print axioms Verif.Copy.C66_refs
#print axioms Verif.Copy.C66_copied_partial
#print axioms Verif.Copy.C66_early_partial
#print axioms Verif.Copy.C66_heard
#print axioms Verif.Copy.C66_silenced
#print axioms Verif.Copy.C66_cycle
#print axioms Verif.Copy.C66_safe_partial
#print axioms Verif.Copy.C66_failed_partial
#print axioms Verif.Copy.C66_failed_counterexample
#print axioms Verif.Copy.C66_undone_partial
#print axioms Verif.Wake.C67_deleted_counterexample
#print axioms Verif.Wake.C67_stuck_counterexample
#print axioms Verif.Wake.C67_overflow_counterexample
#print axioms Verif.Wake.C67_settles_partial
#print axioms Verif.Wake.C67_noticed_partial
#print axioms Verif.Wake.C67_delivered_partial
#print axioms Verif.Wake.C67_rate
#print axioms Verif.Wake.C67_soon
#print axioms Verif.Wake.C67_stops
#print axioms Verif.Wake.C67_ends
#print axioms Verif.Plane.C68_not_locked_counterexample
#print axioms Verif.Plane.C68_off_but_locked_counterexample
#print axioms Verif.Plane.C68_stale_message_counterexample
#print axioms Verif.Plane.C68_failed_start_counterexample
#print axioms Verif.Plane.C68_in_charge
#print axioms Verif.Plane.C68_gate
#print axioms Verif.Plane.C68_no_latching
#print axioms Verif.Plane.C68_completion
#print axioms Verif.Plane.C68_queue_is_received
#print axioms Verif.Plane.C68_off
#print axioms Verif.Plane.C68_address_stays_partial
#print axioms Verif.Plane.C68_completion_locks_partial
#print axioms Verif.Plane.C68_address_while_checking_partial
#print axioms Verif.Plane.C68_start
#print axioms Verif.Plane.C69_any_peer_counterexample
#print axioms Verif.Plane.C69_late_fingerprint_counterexample
#print axioms Verif.Plane.C69_early_datagram_counterexample
#print axioms Verif.Plane.C69_rtcp_in_the_clear_counterexample
#print axioms Verif.Plane.C69_in_charge
#print axioms Verif.Plane.C69_no_media_in_the_clear
#print axioms Verif.Plane.C69_datagrams_wait
#print axioms Verif.Plane.C69_thread_output
#print axioms Verif.Plane.C69_verified_by_the_right_connection
#print axioms Verif.Plane.C69_peer_fingerprint_partial
#print axioms Verif.Plane.C69_given_up_for_good
#print axioms Verif.Plane.C69_off
#print axioms Verif.Plane.C69_no_renegotiation
#print axioms Verif.Plane.C70_released_twice_counterexample
#print axioms Verif.Plane.C70_released_twice_mux_counterexample
#print axioms Verif.Plane.C70_protect_overflow_counterexample
#print axioms Verif.Plane.C70_one_end
#print axioms Verif.Plane.C70_no_abort
#print axioms Verif.Plane.C70_no_fault_partial
#print axioms Verif.Netio.C71_lost_counterexample
#print axioms Verif.Netio.C71_no_fault
#print axioms Verif.Netio.C71_in_order
#print axioms Verif.Netio.C71_idle_all_sent
#print axioms Verif.Netio.C71_stop
#print axioms Verif.Netio.C71_ends
#print axioms Verif.Netio.C71_packet_kept
#print axioms Verif.Netio.C71_socket_kept
#print axioms Verif.Netio.C71_progress
#print axioms Verif.Acct.C72_comma_counterexample
#print axioms Verif.Acct.C72_torn_counterexample
#print axioms Verif.Acct.C72_trunc_counterexample
#print axioms Verif.Acct.C72_stale_counterexample
#print axioms Verif.Acct.C72_big_counterexample
#print axioms Verif.Acct.C72_contents_partial
#print axioms Verif.Acct.C72_once
#print axioms Verif.Acct.C72_lines_partial
#print axioms Verif.Acct.C72_written_partial
#print axioms Verif.Acct.C72_no_fault_partial
#print axioms Verif.Acct.C72_progress_partial
#print axioms Verif.Acct.C72_steps
#print axioms Verif.Acct.C72_line_partial
#print axioms Verif.Acct.C72_names
#print axioms Verif.Acct.C72_values_partial
#print axioms Verif.Acct.C72_all
#print axioms Verif.Acct.C72_ssrc
#print axioms Verif.Modman.C73_numbers
#print axioms Verif.Modman.C73_distinct
#print axioms Verif.Modman.C73_lookup
#print axioms Verif.Modman.C73_parse_partial
#print axioms Verif.Modman.C73_bad_module_counterexample
#print axioms Verif.Modman.C73_no_fault
#print axioms Verif.Modman.C73_order
#print axioms Verif.Modman.C73_all
#print axioms Verif.Modman.C73_once
#print axioms Verif.Modman.C73_asked
#print axioms Verif.Modman.C73_after
#print axioms Verif.Modman.C73_nothing_left
#print axioms Verif.Modman.C73_full
#print axioms Verif.Modman.C73_none_lost
#print axioms Verif.Modman.C73_bound
#print axioms Verif.Modman.C73_progress
#print axioms Verif.Modman.C73_shutdown
#print axioms Verif.Log.C74_twice_counterexample
#print axioms Verif.Log.C74_dropped_counterexample
#print axioms Verif.Log.C74_text_counterexample
#print axioms Verif.Log.C74_no_fault_partial
#print axioms Verif.Log.C74_text_partial
#print axioms Verif.Log.C74_log_partial
#print axioms Verif.Log.C74_dropped_partial
#print axioms Verif.Log.C74_exit_partial
#print axioms Verif.Log.C74_idle_partial
#print axioms Verif.Log.C74_bound_partial
#print axioms Verif.Log.C74_wait_partial
#print axioms Verif.Log.Ticket.C74_stderr
#print axioms Verif.Log.Ticket.C74_stderr_goes
#print axioms Verif.Stats.C75_full_counterexample
#print axioms Verif.Stats.C75_reason_counterexample
#print axioms Verif.Stats.C75_sum
#print axioms Verif.Stats.C75_reply
#print axioms Verif.Stats.C75_no_fault_partial
#print axioms Verif.Stats.C75_rate
#print axioms Verif.Subc.C76_number_counterexample
#print axioms Verif.Subc.C76_stale_counterexample
#print axioms Verif.Subc.C76_tos_counterexample
#print axioms Verif.Subc.C76_complete_counterexample
#print axioms Verif.Subc.C76_stop
#print axioms Verif.Subc.C76_split
#print axioms Verif.Subc.C76_ttl
#print axioms Verif.Subc.C76_tos_partial
#print axioms Verif.Subc.C76_bound_partial
#print axioms Verif.Subc.C76_parse_partial
#print axioms Verif.Query.C77_race_counterexample
#print axioms Verif.Query.C77_empty_counterexample
#print axioms Verif.Query.C77_full_counterexample
#print axioms Verif.Query.C77_gap_counterexample
#print axioms Verif.Query.C77_modifier
#print axioms Verif.Query.C77_reply_partial
#print axioms Verif.Query.C77_simple_partial
#print axioms Verif.Ctl.C78_v6_counterexample
#print axioms Verif.Ctl.C78_takeover_counterexample
#print axioms Verif.Ctl.C78_removed_counterexample
#print axioms Verif.Ctl.C78_left_counterexample
#print axioms Verif.Ctl.C78_relative_counterexample
#print axioms Verif.Ctl.C78_creds_counterexample
#print axioms Verif.Ctl.C78_kind
#print axioms Verif.Ctl.C78_path
#print axioms Verif.Ctl.C78_host_port
#print axioms Verif.Ctl.C78_address
#print axioms Verif.Ctl.C78_no_lookup
#print axioms Verif.Ctl.C78_closed_partial
#print axioms Verif.Ctl.C78_reach_partial
#print axioms Verif.Ctl.C78_gone_partial
#print axioms Verif.Start.C79_group_counterexample
#print axioms Verif.Start.C79_groups_counterexample
#print axioms Verif.Start.C79_tcp_counterexample
#print axioms Verif.Start.C79_sigpipe_counterexample
#print axioms Verif.Start.C79_mode_counterexample
#print axioms Verif.Start.C79_deorbit_counterexample
#print axioms Verif.Start.C79_rights_partial
#print axioms Verif.Start.C79_answer
#print axioms Verif.Start.C79_no_hang
#print axioms Verif.Start.C79_refuse_partial
#print axioms Verif.Start.C79_user
#print axioms Verif.Start.C79_order
#print axioms Verif.Start.C79_stop
#print axioms Verif.Start.C79_no_new_partial
#print axioms Verif.Setup.Cases.C80_address_counterexample
#print axioms Verif.Setup.Cases.C80_unregistered_counterexample
#print axioms Verif.Setup.Cases.C80_rtcp_address_counterexample
#print axioms Verif.Setup.Cases.C80_notify_counterexample
#print axioms Verif.Setup.Cases.C80_advertised_counterexample
#print axioms Verif.Setup.Cases.C80_last_port_counterexample
#print axioms Verif.Setup.C80_reply_partial
#print axioms Verif.Setup.C80_stable
#print axioms Verif.Setup.C80_moved
#print axioms Verif.Setup.C80_interfaces
#print axioms Verif.Setup.C80_apart
#print axioms Verif.Setup.C80_refused_partial
#print axioms Verif.Setup.C80_in_force
#print axioms Verif.Setup.C80_resized
#print axioms Verif.Setup.C80_hold
#print axioms Verif.Setup.C80_destination
#print axioms Verif.Setup.C80_handler
#print axioms Verif.Setup.C80_text
#print axioms Verif.Hep.C81_torn_counterexample
#print axioms Verif.Hep.C81_stranger_counterexample
#print axioms Verif.Hep.C81_overflow_counterexample
#print axioms Verif.Hep.C81_cut_counterexample
#print axioms Verif.Hep.C81_config
#print axioms Verif.Hep.C81_safe_partial
#print axioms Verif.Hep.C81_reports_partial
#print axioms Verif.Hep.C81_once
#print axioms Verif.Hep.C81_agent_counterexample
#print axioms Verif.Hep.C81_own_partial
#print axioms Verif.Hep.C81_patience
#print axioms Verif.Ended.C82_received_partial
#print axioms Verif.Ended.C82_stamp_counterexample
#print axioms Verif.Ended.C82_gap_counterexample
#print axioms Verif.Ended.C82_record
#print axioms Verif.Ended.C82_statistics
#print axioms Verif.Ended.C82_bounds
#print axioms Verif.Ended.C82_times_partial
#print axioms Verif.Cli.C83_number_counterexample
#print axioms Verif.Cli.C83_advertised_counterexample
#print axioms Verif.Cli.C83_order_counterexample
#print axioms Verif.Cli.C83_mode_counterexample
#print axioms Verif.Cli.C83_accepts
#print axioms Verif.Cli.C83_means
#print axioms Verif.Cli.C83_order
#print axioms Verif.Cli.C83_number_partial
#print axioms Verif.Cli.C83_exit
#print axioms Verif.Heard.C84_hidden_counterexample
#print axioms Verif.Heard.C84_unsent_counterexample
#print axioms Verif.Heard.C84_lost_counterexample
#print axioms Verif.Heard.C84_prompt_counterexample
#print axioms Verif.Heard.C84_packet_partial
#print axioms Verif.Heard.C84_injected_partial
#print axioms Verif.Heard.C84_complete_partial
#print axioms Verif.Heard.C84_unchanged_partial
#print axioms Verif.Srtp.C85_rtcp_tag_counterexample
#print axioms Verif.Srtp.C85_refused_counterexample
#print axioms Verif.Srtp.C85_small_letters_counterexample
#print axioms Verif.Srtp.C85_source_counterexample
#print axioms Verif.Srtp.C85_word_counterexample
#print axioms Verif.Srtp.C85_failed_connect_counterexample
#print axioms Verif.Srtp.C85_safe
#print axioms Verif.Srtp.C85_up_partial
#print axioms Verif.Srtp.C85_two_ends
#print axioms Verif.Srtp.C85_role
#print axioms Verif.Srtp.C85_comes_up
#print axioms Verif.Srtp.C85_command
#print axioms Verif.Srtp.C85_accepts
#print axioms Verif.Netaddr.C86_padding_counterexample
#print axioms Verif.Netaddr.C86_register
#print axioms Verif.Netaddr.C86_exclusive
#print axioms Verif.Netaddr.C86_released
#print axioms Verif.Netaddr.C86_answers
#print axioms Verif.Netaddr.C86_own
#print axioms Verif.Icecand.C87_candidate
#print axioms Verif.Icecand.C87_once
#print axioms Verif.Icecand.C87_stay
#print axioms Verif.Icecand.C87_refused
#print axioms Verif.Icecand.C87_answer_partial
#print axioms Verif.Icecand.C87_answer_safe
#print axioms Verif.Icecand.C87_letter
#print axioms Verif.Icecand.C87_numbers_counterexample
#print axioms Verif.Icecand.C87_word_counterexample
#print axioms Verif.Icecand.C87_password_counterexample
#print axioms Verif.Icecand.C87_answer_whole
#print axioms Verif.Dtimer.C88_retransmitted_partial
#print axioms Verif.Dtimer.C88_after
#print axioms Verif.Dtimer.C88_one_partial
#print axioms Verif.Dtimer.C88_retransmitted_counterexample
#print axioms Verif.Dtimer.C88_one_counterexample
