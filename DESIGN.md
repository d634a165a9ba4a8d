# Formal model of rtpproxy — design

## 1. What this is

`/verif/lean` is a Lean 4 (4.33.0) Lake project holding an executable model of
the semantic core of sippy/rtpproxy (the pinned commit in `/repo`) and
machine-checked proofs about it.  The model was written by reading the C code;
the C code was neither compiled nor run.

Layout (one directory per subsystem, `lean/Verif/<Area>/`):

* `Model.lean`  – total, computable functions that follow the C functions one by
  one.  Every definition has a doc comment with the file and lines it models and
  the simplifications made.
* `Spec.lean` (or a `Spec` section at the head of the property file) – the small,
  model-independent vocabulary in which the properties are stated.
* `Lemmas.lean` – helper lemmas.
* `Props.lean`  – the property theorems, named `Cxx_…`; next to each theorem is a
  concrete, non-trivial instance satisfying its hypotheses.

Conventions

* C undefined behaviour, `assert` failure and `abort()` are *distinct outcomes* of
  the model (`Except`/`Option`/an explicit constructor), never silently totalised.
* C integers whose wrap-around can be observed are modelled modularly (`BitVec`,
  `UInt*` or explicit `% 2^n`); others as `Nat`/`Int` with the range as a proved
  invariant or a stated hypothesis.
* `double` clock values are modelled by exact rationals/integers unless stated
  otherwise: rounding of floating-point arithmetic is **not** modelled.
* Threads are modelled as interleavings of atomic steps (sequential consistency).
  Weak memory effects are not modelled.
* Memory allocation failure is modelled only where the comment says so.
* When the property, as a user would like it, is false of the code, the file
  contains (a) a theorem `Cxx_…_counterexample` proving the negation with a
  concrete witness, and (b) the strongest true version, suffixed `_partial`.
  All such disagreements are listed in section 4.

## 2. Trusted base

* Lean 4.33.0's kernel (and its implementation of `Nat` literals / GMP arithmetic).
* Axioms: at most `propext`, `Classical.choice`, `Quot.sound`.  No axioms of our
  own, no `sorry`, no `native_decide`, no `bv_decide`.  The exact list per theorem
  is printed by `lean/Verif/Audit.lean` during the build (section 5).
* The faithfulness of the hand-written model to the C text (that is what the
  citation comments are for) and to the C semantics on a 64-bit LP64
  little-endian platform.
* The operating system, libc (`snprintf`, `strtol`, `qsort`, `memcpy`, …), the
  compiler, and third-party libraries behave as documented.

## 3. Properties: what is modelled, how it is proved

Directories are under `lean/Verif/`; sources under `/repo/src`, `/repo/modules` unless a path is given. The
line numbers are in the comment of each definition.

| properties | directory | code modelled | method |
|---|---|---|---|
| C01, C02 | `Hash` | rtpp_hash_table.c | bucket array of chains, mask over an arbitrary hash; refinement to a list of pairs, induction over operations |
| C03, C04 | `Refcnt` | rtpp_refcnt.c, rtpp_refcnt.h | interleaving of atomic steps; invariant relating the counter with the outstanding references |
| C05 | `Wref` | rtpp_wref.c | interleaving of atomic steps; witness schedule and partial |
| C06 | `Ringbuf` | rtpp_ringbuf.c | refinement to the last n of the pushed values |
| C07, C08, C09, C55 | `Rtp` | rtp_packet.c, rtp.c, rtp_info.h | checked reads over bytes; case analysis; modular arithmetic |
| C10 | `Resizer` | rtp_resizer.c | conservation of bytes over operations |
| C11, C12 | `Analyze` | rtp_analyze.c, rtpp_analyzer.c | invariant with a ghost set of extended numbers; induction over packets |
| C13, C17, C18 | `Str` | rtpp_util.c, rtpp_str.c | induction over strings with checked memory |
| C14, C15, C16, C19, C20, C21 | `Cmd` | rtpp_util.c, rtpp_command.c, rtpp_command_parse.c, rtpp_command_reply.c, rtpp_command_rcache.c, rtpp_command_stream.c, rpcpv1_query.c | word-level lemma for the splitter; invariants of the buffer and cache; refinement of framing to lines |
| C22, C23, C26 | `Sess` | rtpp_session.c, rpcpv1_delete.c, rpcpv1_ul.c, rtpp_ttl.c, rtpp_proc_ttl.c, rtpp_pipe.c | decision logic; induction over the chain and over ticks |
| C24, C25 | `Port` | rtpp_port_table.c, rtpp_command.c, main.c | permutation invariant; arithmetic |
| C27 | `Queue` | rtpp_queue.c | ring and list refine a FIFO list |
| C28 | `Timed` | rtpp_timed.c | invariant over scans, cancellations |
| C29 | `Sinfo` | rtpp_sessinfo.c | logs with two buffers; invariant over all interleavings of commands and the media thread |
| C30 | `Latch` | rtpp_stream.c | invariant over packet sequences |
| C31, C57 | `Pproc` | pproc_manager.c, packet_processor.h, rtpp_types.h | sortedness invariant; reference accounting |
| C32 | `Pearson` | rtpp_pearson.c, rtpp_pearson_perfect.c | permutation; exactness from the final comparison |
| C33 | `Rwlock` | rtpp_rw_lock.c | interleaving invariant |
| C34 | `Player` | rtpp_server.c, rtpp_proc_servers.c, rpcpv1_play.c | induction over polls against an independent reader of the packets |
| C35, C61, C62 | `Record` | rtpp_record.c, rtpp_stream.c, rtpp_session.c, rpcpv1_copy.c | independent reader of the capture; path construction; control state machine |
| C36 | `Sbuf` | rtpp_sbuf.c | invariant |
| C37 | `Cksum` | rtpp_ip_chksum.h, rtpp_network.c | fold equals the sum modulo 65535 |
| C38 | `Dtmf` | rtpp_catch_dtmf.c | invariant over the history of events |
| C39 | `Rtcp` | modules/acct_rtcp_hep/rtcp2json.c, rtcp.h | bounds by induction; independent reader of the text |
| C40 | `Genuid` | rtpp_genuid.c | interleaving of fetch-and-add |
| C41, C60 | `Bindaddr` | rtpp_bindaddrs.c, rtpp_bindargs.c | invariant over requests; decision logic |
| C42, C43 | `Num` | rtpp_math.c, rtpp_time.c | rationals with abstract rounding where stated |
| C44, C58, C59 | `Counters` | rtpp_command.c, rtpp_command_async.c, rpcpv1_ul.c, rtpp_command_parse.c | every path of a command as a trace; induction over histories |
| C45 | `Addr` | rtpp_network.c, rtpp_bindargs.c | string induction |
| C46 | `Notify` | rtpp_notify.c | answers of the kernel as input; induction over the queue |
| C47, C48, C63 | `Eaud` | extractaudio/rtpp_loader.c, decoder.c, eaud_substreams.c, extractaudio.c | sortedness of the list; bounds; codecs as parameters |
| C49 | `G711` | extractaudio/g711.h | evaluation by the kernel over the complete finite table |
| C50 | `Conns` | rtpp_command_async.c, rtpp_controlfd.h | alignment invariant; interleaving for the locks |
| C51 | `Packetport` | rtpp_packetport.c | interleaving; queues by their contract |
| C52 | `Ulopt` | rpcpv1_ul.c | induction on the string of modifiers |
| C53 | `Weakref` | rtpp_weakref.c | on top of C01 and C02 |
| C54 | `Pcount` | rtpp_pcount.c | interleaving of compare-and-swap |
| C65 | `Play` | rtpp_stream.c, rtpp_proc_servers.c, rtpp_hash_table.c (transfer) | interleaving of four threads; invariant per exclusion and count of processors for all executions |
| C66 | `Copy` | rpcpv1_ul_subc_copy.c, pproc_manager.c, rtpp_proc_async.c (relay) | the way of a packet through copies, by induction on rank; counts of processors for all operation lists; projection to the run without copies |
| C67 | `Wake` | rtpp_proc_wakeup.c, rtpp_proc_async.c (loop of the media threads), rtpp_proc.c (wake-up socket) | interleaving of callers, wake-up thread, media threads and destructor; invariant for all executions, strictly decreasing bound for progress |
| C68, C69, C70 | `Plane` | modules/ice_lite/rtpp_ice_lite.c, modules/dtls_gw/rtpp_dtls_gw.c, modules/dtls_gw/rtpp_dtls_conn.c, pproc_manager.c, rtpp_proc_async.c (relay) | session of four streams with chains, module queues and threads as a transition system; invariants for all executions; external libraries as oracles |
| C71 | `Netio` | rtpp_netio_async.c, rtpp_wi_pkt.c, rtpp_socket.c (ctor, dtor, send_pkt_na), rtp_packet.c (get_wi), rtpp_queue.c (destroy) | all interleavings of hand-over, owners, sending thread and shutdown; counts of references, table of descriptors; refinement of the history of hand-overs |
| C72 | `Acct` | modules/acct_csv/rtpp_acct_csv.c (all but the configuration) | the row as `printf` makes it and as a reader takes it apart; any number of processes, each system call a step with any outcome; files, names, descriptors, record locks; invariants, history of rows, measure |
| C73 | `Modman` | rtpp_modman.c, rtpp_module_if.c (all but the look-up of shared objects and modules with a thread of their own), rtpp_cfile.c (parse_modules), rtpp_session.c (dtor) | all interleavings of ends of sessions, packets, threads of modules and shutdown; counts of references; refinement of the history of offers; measure; loading as a function |
| C74 | `Log` | rtpp_syslog_async.c, rtpp_log_stand.c (the lock of stderr) | pointers of the pool and the queue refined to lists; all interleavings; refinement of a bounded queue; lock of tickets with wrap-around |
| C75 | `Stats` | rtpp_stats.c, rpcpv1_stats.c | all interleavings of updates, samples and requests; sums as functions of the history; replies described by the moments of reading |
| C77 | `Query` | rpcpv1_query.c, rtpp_pcnt_strm.c, get_stats of rtpp_pcount.c and rtpp_analyzer.c, get_ttl of rtpp_pipe.c | each read of the handler sees the state after some prefix of the history; cache invariant; refinement to counts over prefixes |
| C78 | `Ctl` | rtpp_controlfd.c, resolve and setbindhost of rtpp_network.c, ehandler of main.c | instances interleaved call by call; what is left of the programme settles the file before it listens; effect of a programme on one path |
| C79 | `Start` | start-up, signals and main loop of main.c, drop_privileges and rtpp_daemon of rtpp_util.c | what holds after each prefix of the plan; order of the plan; parent and child as a transition system; history of signals and sessions |
| C80 | `Setup` | rtpp_command_ul_handle_impl and ul_reply_port of rpcpv1_ul.c, with set-up of the streams in rtpp_session.c and the address text of rtpp_command_reply.c | invariants over histories of commands and packets; latest granted request of each party as the specification; reading of the reply text |
| C81 | `Hep` | modules/acct_rtcp_hep (rtpp_acct_rtcp_hep.c, rtpp_arh_conf.c), external/hepconnector/core_hep.c, conf_helper_mapper of rtpp_cfile.c | simulation of the reused block against the concatenation of fields; a reader of HEP written apart from the writer; induction over packets and failures |
| C82 | `Ended` | rtpp_network_io.c, receiving in rtpp_socket.c, rtpp_pcnt_strm.c, statistics of rtpp_pipe.c, rtpp_session_dtor | all interleavings of packets with the actions of any number of destructors; sums over records; a description of the account of packets apart from the counting |
| C83 | `Cli` | init_config of main.c from the options on, rtpp_log_str2lvl, rtpp_log_str2fac | a description of accepted lines and of each setting by the arguments of its option, apart from the loop; order by equality of the sublists about each thing |
| C84 | `Heard` | record_packet and relay_packet of rtpp_proc_async.c, catching of digits as a processor, copies and players as processors | what is in force told from the history alone; invariant: the handlers are two lists in a fixed frame; erasing events for noninterference |
| C85 | `Srtp` | tls_srtp_keyinfo, setup_srtp_stream, setmode and dtls_recv of rtpp_dtls_conn.c on bytes, rtpp_dtls_fp_gen, the arguments of the subcommand in rtpp_dtls_gw.c | the keying material cut into four parts; what was told from the history alone; text against digest |
| C86 | `Netaddr` | set, get, cmp and isempty of rtpp_netaddr.c, byte by byte, by any number of threads | invariant over all interleavings: who holds the mutex, how far the copy is; observations against one register; a measure for returning |
| C87 | `Icecand` | the words of the ice_lite subcommand, rtpp_cand_decode with the functions of libre it calls, the answer of ice_lite_start | the numbers by induction on their digits, the related address by induction on the pairs; uniqueness and order as an invariant of histories; the response as a prefix with zeros behind, and its last byte as an invariant |
| C88 | `Dtimer` | check_timer, rtpp_dtls_conn_timeout and their callers, with the queue of the timer and a task that has been taken from it | invariant over all histories: the task the connection knows of is alive, and is set while one is wanted; a count of references after the end |
| C76 | `Subc` | rpcpv1_ul_subc.c, rpcpv1_ul_subc_set.c, rpcpv1_ul.c (sessions found: timers, type of service), rpcpv1_query.c (loop), rtpp_ttl.c | one session under all histories of commands, packets in two steps and ticks; limits and types of service as functions of commands and replies; invariants |
| C64 | `Tset` | rtpp_tnotify_set.c | invariant over histories of options and commands; names described without the parser |
| C56 | `Spmc` | external/RTQueue/src/SPMCQueue.c | linearizability under sequential consistency; witness with relaxed loads |

## 4. Disagreements between the code and the desired property

Each item is a theorem whose name ends in `_counterexample`; the positive statement that does hold
is a theorem ending in `_partial`.  Nothing was executed: all of this is about the model, which
cites the source lines it was read from.

- C04/C05: see the comments beside the counterexamples in `Refcnt/Props.lean`, `Wref/Props.lean`.
- C08: an RTP packet whose timestamp equals the STUN magic cookie is taken for STUN.
- C10: merging a padded packet yields an invalid packet; G.722 is split at half of the right
  offset; after a change of SSRC a new packet can be sent between two halves of an old one.
  Also (not a theorem): `rtp_resizer_enqueue` increments `rsp->npkts_resizer_discard` although
  its callers allow `rsp == NULL`.
- C13: `url_unquote2` reads one byte past the string for a trailing `%X`.
- C15: a datagram whose first field has 1023 bytes or more aborts the server (`assert` on the reply buffer).
- C16: the grammar allows `G` to name every counter (29), but more than 22 are refused by the splitter.
- C17: numbers are truncated to `int` after `strtol`: `4294967376` is accepted as 80.
- C19: an error reply to a command with a cookie of about 1020 bytes aborts the server; `handle_query` reserves one byte too
  few, so that a failed sub-command after 1017 bytes of output aborts the server; the buffer functions overrun the buffer
  if used with regard to the reservation after it was consumed (no handler does this).
- C21: a line of 8192 bytes or more is not answered with an error: the server closes the connection, having taken a read of zero bytes for the end of the stream.
- C22: `ematch` compares the to-tag up to the first `;` and the part after the last `;` with that of the from-tag, so `a;b;1` answers for to-tag `a`, from-tag `x;1`; and an omitted to-tag on commands other than U/L is an empty string rather than absent, so a session tagged `;1` answers for `x;1`.
- C23: DELETE returns after tearing down a session whose tag is exactly the one given, so whether `a;1` survives a DELETE for `a` depends on which was created first.
- C26: packets, commands and ticks are atomic events; the `int` timers are mathematical integers (they are only decremented above zero). A session is removed by tick T+1.
- C24: `cfsp->port_ctl` keeps its initial value 0 (main.c:356; only the control socket's own field is set, rtpp_controlfd.c:151, 193), so the exclusion of the control port in the port table never applies (`C24_control_port_counterexample`).
- C24: `get_port` runs `len - 1` steps starting after the last used slot, so the last used port is never tried, a one-port range always fails, and in random mode a busy port can be swapped forward and retried in place of a free one (`C24_free_port_counterexample`).
- C33: the last reader may unlock `write_lock` though another thread locked it (rtpp_rw_lock.c:98,119); POSIX leaves that undefined for the default mutex type. The exclusion theorems take a mutex as a lock bit that anybody can clear (`C33_foreign_unlock_counterexample`). The class has no users in the tree.
- C37: RFC 768 and RFC 8200 want a computed UDP checksum of zero sent as 0xffff; `rtpp_ip_chksum_fin` stores zero (`C37_udp_zero_checksum_counterexample`), so a recorded IPv6 packet can carry the forbidden value. `rtpp_in_cksum` overflows its `int` for inputs of 2^16 bytes and more, as its comment warns (`C37_in_cksum_long`).
- **C30**: (a) SSRC 0 is treated as invalid: a latched source that switches to SSRC 0 unlatches its own stream (`_rtpp_stream_latch` via `rtpp_stream_latch`), and the next packet from anywhere redirects it. (b) `rtpp_stream_guess_addr` overwrites the address of an RTCP stream latched long ago, and unlatches it, when the RTP stream's address is filled in from another host. (c) A first packet arriving before any signalled address locks the stream to its source without recording an SSRC: no later packet can move it and signalled addresses are ignored (`C30_first_packet_locks`).
- **C28**: a task with a period of zero or less whose callback returns CB_MORE makes `rtpp_timed_process` loop for ever (`C28_zero_period_hangs`). Cancelling a periodic task from another thread while its callback runs has no effect: the task is put back and runs again (`C28_cancel_while_running`). A cancellation racing with shutdown can leave the thread blocked on the empty queue (`C28_shutdown_can_hang`).
- C56: `try_pop`/`try_pop_many` (SPMCQueue.c:273-283, 298-308) read `readIdx` relaxed and then `writeIdx` with acquire. Under sequential consistency the ring is proved to be a linearizable bounded FIFO. C11 allows the first load to be satisfied after the second; a consumer can then see `readIdx > writeIdx`, and the assertion SPMCQueue.c:308 fails (`C56_relaxed_load_counterexample`); release builds turn it into `__builtin_unreachable`. x86 does not reorder loads.
- C51: `rtpp_packetport_queue` (rtpp_packetport.c:698-710) gives up with -1 when the ring was full at `try_push` and empty at `try_pop`, i.e. the worker emptied it in between: the newest packet is lost though the ring is empty (`C51_push_lost_in_race_counterexample`); `C51_push_partial` says this is the only loss.
- C51: a signal (nudge, flush, term) in a batch costs the oldest packet when the ring is full, because room is asked for before the work item is looked at (`C51_signal_drops_packet_counterexample`).
- C51: flush coalescing (rtpp_packetport.c:469-473) relies on sequential consistency; with store buffering a flush can be lost (`C51_flush_lost_counterexample`), the packet stays until a later flush.
- C51: the termination signal (rtpp_packetport.c:540) is refused when the work queue is full and the destructor then waits forever (`C51_term_lost_counterexample`); in the same situation it is the newest packet from the library that is refused (`C51_send_refuses_newest_counterexample`).
- C57 (`pproc_manager.c:321`): `clone` attaches the references of the copy to the table of the original, so the copy does not keep its processors alive. Proved: `C57_clone_counterexample`. The program only clones the global manager, whose processors are not counted; under that condition `C57_no_use_after_free_partial` holds.
- C57 (`rtpp_types.h:198-203`, `rtpp_refcnt.h:32`): at most 23 references can be attached to a table; further ones are taken and never given up. Proved: `C57_leak_counterexample`.
- C31 (`pproc_manager.c:297`): unregistering a key that is not registered calls `abort()`. Proved: `C31_unregister_unknown_aborts`.
- C32: with 256 names (the program has 29) the last one would never be found, because its index does not fit the byte table (`rtpp_pearson_perfect.c:74`). Proved: `C32_256_counterexample`, `C32_duplicates_hang`.
- C36 (`rtpp_sbuf.c:51-52`): when the formatting itself fails the terminator may have been overwritten. Proved: `C36_error_counterexample`.
- C54 (`rtpp_pcount.c:131`): a fifth drop location is counted in the total but attributed to none. Proved: `C54_fifth_counterexample`.
- C40 (`rtpp_genuid.c:60`): the first identifier handed out is the reserved value `RTPP_UID_NONE` (it goes to the first session, whose identifier is not compared with it). Proved: `C40_first_is_none`, `C40_none_once`.
- **C44** (`Counters`): a datagram for which the reply cache cannot be borrowed is counted as received, never answered, and counted neither as succeeded nor as failed (rtpp_command.c:345-347, 405-408); a stream command for which there is no memory is counted as failed but not as received (rtpp_command_stream.c:107-119, against rtpp_command.c:319-320). Both need memory exhaustion.
- **C59** (`Counters`): if the packet port cannot take a new session (`reg_streams` fails, rpcpv1_ul.c:861-866) the command is answered with error 89 although the session stays in `sessions_ht` and `sessions_wrt` until it times out; only the creator's reference is dropped.
- **C58**: `abort()` at rtpp_command.c:704 is unreachable; play options would leak if a subcommand were refused with P, which `has_subc` rules out.
- C42: `recfilter_apply` (rtpp_math.c:41) stores `maxval` into `minval`, so the reported minimum is wrong as soon as a value falls below it (`C42_minimum_counterexample`); the integer variant is right.
- C43: `dtime2mtimespec` (rtpp_time.c:67) does not carry, so times within half a nanosecond of the next second get `tv_nsec` = 10^9, which condition-variable waits refuse with EINVAL (`C43_mtimespec_counterexample`).
- C52: the duration of option `z` is stored from `long` to `int` unchecked (rpcpv1_ul.c:341): `z4294967316` is accepted as 20 (`C52_ptime_counterexample`).  A peer announcing RTP port 65535 gets RTCP port 0 (lines 500-501, `C52_peer_counterexample`).
- **C41** (rtpp_bindaddrs.c:67-103): a request without parameters accepts any label, and new objects are put at the front; once a labelled object for the host is made such requests get that one instead of the earlier object (`C41_unlabelled_counterexample`). The check for a taken label and the insertion take the lock separately, so overlapping registrations can give one label to two hosts (`C41_labels_counterexample`). The advertised address plays no part in the comparison: a second registration with another advertised address gets the first object.
- **C49** (g711.h): mu-law code 127 (negative zero) decodes to -2 and encodes back as 126, which means -8 (`C49_roundtripU_counterexample`); the standard expands both zeros to 0, the table to plus and minus 2 (`C49_standard`). The table `_U2A` differs from decoding and encoding for seven codes (`C49_transcodeUA_counterexample`).
- **C11** (rtp_analyze.c:346-524): number 10 followed by 65500 of the same source is counted as sent before, with a 32-bit underflow of the span: 4294967251 sent (`C11_underflow_counterexample`). After a second source, which keeps the offset of the first, the loss can be negative (`C11_negative_loss_counterexample`, `C11_offset_counterexample`). A packet older than the first one counted is an error and not received once the numbers have wrapped (`C11_old_packet_counterexample`). A marker bit on a packet after the wrap starts a new count and hides the gap (`C11_marker_counterexample`).
- **C12** (rtp_analyze.c:526-563): sums accumulated for forgotten sources are reported only if a current source has two packets (`C12_forgotten_counterexample`).
- **C35**: in a single-file capture an RTCP packet is recorded with the addresses it leaves with, but the room for the header is reckoned by the family of the address it came from (rtpp_record.c:614-617 against 427-436).  A bridge between IPv4 and IPv6 makes the file unreadable or writes past the end of the buffer (`C35_family_counterexample`, `C35_family_garbled_counterexample`).  Short writes go unnoticed (293-311, 651; `C35_short_write_counterexample`).
- **C61**: `sprintf` into a buffer of PATH_MAX + 1 bytes (rtpp_record.c:235-247) is overrun by a call-id of 4096 bytes (`C61_path_counterexample`); an equal sign in the call-id makes two calls share a file; streams that differ in the media number only share a file (`from_tag_nmn`); the suffix for the direction is left out for given names; a slash in the call-id leads out of the directory.
- **C62**: recording into a single file joins whatever the other direction is recorded to, e.g. a remote copy (rpcpv1_copy.c:113-115; `C62_target_counterexample`); a request for another target while already recording replies success without effect (`C62_already_counterexample`); `record_packet` fetches the pointer without a reference while `handle_norecord` drops the last one before clearing the slot (`C62_race_counterexample`).
- **C47** (`Eaud/`, extractaudio/rtpp_loader.c). The claim as given is false in several ways, each with a witness. A packet from before a wrap of the sequence numbers that arrives after it is put at the wrong place (`C47_late`) or, if it is a repetition, kept twice (`C47_duplicate`); packets of one frame across a wrap and a simultaneous wrap of time stamps are misordered (`C47_frame`, `C47_timestamp`); after a gap of exactly 65536 packets one is dropped (`C47_gap`). One packet the statistics reject ends the loading of the file (`C47_error`). IPv6 packets of a capture are skipped silently (`C47_ipv6`). Two parties with the same SSRC are merged (`C47_same_ssrc`). Damaged files: header at the end of a page read past the mapping (`C47_cut`), record length not checked against the file (`C47_length`), a record of length 2^32 - 16 is read for ever (`C47_endless`). The theorems `C47_order_partial`, `C47_own_partial`, `C47_capture_partial`, `C47_call_partial`, `C47_recorded_*_partial` say what holds.
- **C48** (`Eaud/Decoder.lean` and after, extractaudio/decoder.c). False as given: a GSM payload that is not a multiple of 33 bytes is read past its end (`C48_gsm`); a G.729 payload of 15-byte frames fails an assertion of the bcg729 wrapper (`C48_g729`); without bcg729 silence after G.729 moves the output pointer twice as far as it should, so that a gap of half a second is written past the buffer (`C48_g729_silence`) and shorter gaps replay old samples (`C48_g729_stale`); time stamps that start anew make a negative `double` that is converted to `unsigned` (`C48_restart`), as does a pause of twelve and a half days with too large a one (`C48_pause`). `C48_safe_partial`: otherwise all calls stay in bounds; `C48_ends_partial`: the end comes; `C48_timeline_partial`: G.711 packets are at the place of their time stamps; `C48_steady_partial` for exact arithmetic.
- **C63** (`Eaud/Mix*.lean`, extractaudio/extractaudio.c:432-555, eaud_substreams.c). `C63_mix`, `C63_inside` hold without restriction in the normal mode; `C63_call_partial` joins them with C48 for two G.711 streams. With `-n` the end of the first channel that ends reads the node just freed (`C63_nosync_counterexample`); the number of samples written that is reported is half of the true one (`C63_report_counterexample`).
- **C38 (DTMF).** The full claim is false in several ways, each with a witness: an event of which only one packet arrives is never reported, even with the end bit set (`C38_single_counterexample`); code 17 passes the bound check and is reported with a NUL as its key (`C38_code_counterexample`); the payload is taken at a fixed offset and its length is not checked, so that a packet without payload blocks the key press with its time stamp (`C38_empty_counterexample`) and a contributing source is taken for the event (`C38_source_counterexample`); `snprintf`'s return value is used as the length, so that a tag over 499 bytes can make the worker copy bytes from outside its buffer (`C38_tag_counterexample`); a second subcommand with another tag keeps the old one (`C38_retag_counterexample`); packets are lost for the other side when the queue of the worker is full (`C38_queue_counterexample`).
- **C39 (RTCP reports).** Proved: no read outside the packet and no overflow of the text buffer for any datagram and any allocation failures (`C39_safe`), acceptance of exactly the compound packets (`C39_accepts`), and that the text of a report, read by a separate JSON lexer and grammar (`Rtcp/Json.lean`), is the report (`C39_reports_partial`, `C39_single`). False parts, each with a witness: `RTCP_GET_LOST` takes the lowest bit of the first byte for the sign and lets the conditional operator swallow the product, so that 65536 lost packets are reported as -1, 131072 as 65536, and the smallest number as 4194304 (`C39_lost_counterexample`, `C39_lost_text_counterexample`); two reports in one packet are printed next to each other, which is no JSON text (`C39_two_counterexample`); the version of later packets is not looked at (`C39_version_counterexample`). The layout of the bit fields is the one of a little-endian machine with gcc's rules. `%lu` and `%ld` are modelled by `Dec.dec` and `Dec.decI`.
- **C46 (notifications).** `C46_served`, `C46_order`, `C46_others`, `C46_descriptors` hold for all answers of the kernel (the last one assumes that `socket` returns unused descriptors). "Never terminates the server" is false for targets given by a descriptor (`fd:N`, library use): the first failed `send` reaches `assert(socket_type != RTPP_TNS_FD)` (`C46_fd_counterexample`; `C46_alive_partial` for the others). A short `send` is not continued, so that the rest of the line is lost and the next notification is glued to it (`C46_short_counterexample`). That calls return at all is assumed.
- **C50 (control connections).** For every order of accepts and turns, and every answer of `poll`, `accept` and the allocator, the two halves of the table agree, every readable connection is served once per turn, every connection that ends is freed once, and the kernel never sees a bad `close` (`C50_turn`, `C50_accept`, `C50_history`; the last assumes the kernel gives out unused descriptors). The threads exclude each other (`C50_exclusive`). False parts: `init_pollset` has no limit, so with more than 100 sockets that are read themselves it writes behind `rccs` (`C50_sockets_counterexample`, `C50_start_partial`); its error path calls the destructor on `rccs[0]`, which is NULL (`C50_memory_counterexample`); a socket given by descriptor whose other end hangs up with nothing to read is neither served nor removed, and `poll` returns at once for ever (`C50_hangup_counterexample`). Two deadlocks: with overload protection on, a new session command calls `chk_overload`, which takes `cmd_mutex` while the table is locked, and the accepting thread takes them in the other order (`C50_overload_counterexample`); each accepted connection writes two wake-up messages and a turn reads one, and the accepting thread writes with `cmd_mutex` held, which the command thread needs before it can read (`C50_full_counterexample`, for every size of the socket buffer). Otherwise every wait ends (`C50_waiting_partial`).
- **C29 (poll tables)** Each media thread has a log of changes it applies to its poll table. With memory, the table and the kernel's set are exactly the streams with a socket, in any interleaving of additions, updates, removals and the thread's own work. Without memory: a failed `realloc` in `rtpp_sinfo_sync_polltbl` throws the whole log away, so that new sockets are never polled (`C29_lost_counterexample`) and the end of such a session fails the assertion of line 448 (`C29_abort_counterexample`); a failed removal leaves the old socket in the table and its reference is lost (`C29_twice_counterexample`, `C29_leak_counterexample`). `append` and `update` without memory change nothing, but their callers do not look at the result and report the port of a socket that is closed.
- **C34 (player)** Sequence numbers, timestamps, marker, pace and repetitions are right for every known codec and every packetisation time that can be asked for. What is not: the rest of the file after the last whole piece is never played (`C34_tail_counterexample`); a codec number the player does not know is accepted and then neither plays nor ends, while the stream counts as playing (`C34_codec_counterexample`); the payload type is the codec number modulo 128 (`C34_type_counterexample`); `P-2147483648` overflows the counter of repetitions (`C34_overflow_counterexample`); without memory for a packet, the pace is lost by its duration (`C34_memory_counterexample`).
- **C64 (names of targets)** For all names, resolvers and histories a name selects the first target configured under its full form, or the host of the controller; what was selected never changes. Not so for a path with a colon given without `unix:`, which is accepted and never found (rtpp_tnotify_set.c:392-410, `C64_colon_counterexample`). The port is read with `atoi` (`C64_port_counterexample`: `80x` and `4294967376` are 80); a path of more than 107 bytes is cut off (`C64_path_counterexample`); later commands of a host get a target bound to the local address of the first (`C64_source_counterexample`); after 64 hosts the next gets none (`C64_full_counterexample`).
- C65: `hash_table_transfer` (src/rtpp_hash_table.c:553-577) takes a player out of one table before it puts it in the other. A NOPLAY in between finds it in neither, returns, and the prompt goes on; a PLAY leaves two prompts on one stream, and when both have ended the media of the opposite party is held back for good (`C65_stopped_`, `C65_one_`, `C65_held_counterexample`).
- C65: when `handle_play` fails after `_s_rtps` (src/rtpp_stream.c:562-567), the number of the player stays in the stream, NOPLAY cannot clear it, and `isplayer_active` then keeps the media of that party out of recordings (src/rtpp_proc_async.c:308; `C65_agrees_counterexample`).
- C65: when the player thread drops the last reference to a stream (session deleted during the callback), the destructor takes the mutex of the table that the thread holds already, and the thread stops for good (`C65_progress_counterexample`).
- C65: `handle_play` takes the mutex of the stream and then that of the table; the player thread, sending a prompt through a copy of a session to another stream, takes them in the other order: deadlock (`C65_deadlock_counterexample`).
- C65: the player thread looks at the table and then waits on a condition that carries no flag (src/rtpp_proc_servers.c:184-186, src/rtpp_queue.c:434-450): a wake-up in between is lost (`C65_awake_counterexample`).
- **C66.** Nothing keeps copies from leading back. With two sessions copied to each other, what their parties send is stopped, but a packet of a prompt, or one copied from a third session, recurses in `rtpp_pproc_mgr_handleat` until the stack is exhausted (`C66_terminates_counterexample`; the limit of 16 at pproc_manager.c:189 is an assertion, checked in debug builds only).
- **C66.** The error path of the copy uninstalls all eight processors though only some are registered; unregistering one that is not there aborts (rpcpv1_ul_subc_copy.c:276-277, pproc_manager.c:297; `C66_failed_counterexample`).
- **C66.** The same copy asked for again is made again, and every packet is sent twice (`C66_copied_counterexample`).
- **C67.** Deleting a session takes its sockets out of the sets without a `nudge` (rtpp_session.c:300; also rpcpv1_ul.c:707). The media threads keep them open, and their ports taken, until something else wakes them (`C67_deleted_counterexample`).
- **C67.** A deadline that `dtime2mtimespec` does not carry (see C43) makes `pthread_cond_timedwait` return `EINVAL` at once with the mutex held; the loop at rtpp_proc_wakeup.c:95-107 never ends and every later `nudge` blocks (`C67_stuck_counterexample`).
- **C67.** `requested_i_wake` is an `int` that is only incremented (rtpp_proc_wakeup.c:200; `C67_overflow_counterexample`).
- **C68.** A queued STUN message keeps a reference to its agent (modules/ice_lite/rtpp_ice_lite.c:683-690) and is handled after `D`, `U` or a restart: it locks the stream to its source although ICE is off or the new checks have not begun (`C68_off_but_locked_counterexample`, `C68_stale_message_counterexample`).
- **C68.** `__rtpp_stream_fill_addr` does not latch if the address equals the previous one (src/rtpp_stream.c:821-824). After a packet with SSRC 0 has cleared the latch, completed checks with the previous address leave the stream open to be taken over by the first packet from anywhere (`C68_not_locked_counterexample`).
- **C68.** If `S` fails half way the agent stays: media is dropped from then on, a second `S` is answered with success since the local address is set already (rtpp_ice_lite.c:410), and no check is ever answered (`C68_failed_start_counterexample`).
- **C69.** Without a recorded fingerprint any peer is accepted, and one recorded after the handshake is not compared (rtpp_dtls_conn.c:432-436; `C69_any_peer_counterexample`, `C69_late_fingerprint_counterexample`).
- **C69.** The first datagram that looks like DTLS, from anyone, moves the connection out of `RDC_INIT` (rtpp_dtls_conn.c:383-384), after which the negotiation of the role is refused (294-299; `C69_early_datagram_counterexample`).
- **C69.** RTCP that is not multiplexed is relayed in the clear: the module is in the chains of the RTP streams only (`C69_rtcp_in_the_clear_counterexample`).
- **C70.** The multiplexers of the ICE module return what the other chain returned (rtpp_ice_lite.c:697-713). That chain has released the packet if it dropped it or found nobody to take it (pproc_manager.c:219-222); the outer chain then releases it again (`C70_released_twice_counterexample`, `C70_released_twice_mux_counterexample`).
- **C70.** `srtp_protect` appends a tag in place (rtpp_dtls_conn.c:502-507); a packet that fills its buffer of 8192 bytes overflows it (`C70_protect_overflow_counterexample`).
- **C71** (`C71_lost_counterexample`): `rtpp_anetio_sthread` leaves its loop at the item that ends it (rtpp_netio_async.c:113-116) and forgets the items behind it in the same batch: they are neither sent nor released, so their packets are leaked and their sockets stay open. Items still in the queue at that time are released, unsent, by `rtpp_queue_destroy`. `send_pkt_to` of a stream with a packet port returns -1 without releasing the packet (rtpp_stream.c:1099-1100); its only caller is the ICE module, which cannot be attached to such a stream in the model of C68.
- **C72.** After a failed `lockf` or `fstat` the descriptor is closed but `pvt->fd` keeps its number (rtpp_acct_csv.c:239-244); the next record closes, locks or writes to whatever has that number by then (`C72_stale_counterexample`).
- **C72.** The offset is an `int` (rtpp_acct_csv.c:393-409): in a file of two gigabytes or more it is negative, the record is dropped and the lock stays, so that all other processes block at their next record until the file is renamed (`C72_big_counterexample`).
- **C72.** The result of writing a row is not looked at (rtpp_acct_csv.c:387): a short write loses the rest of the row and joins the next row to it (`C72_torn_counterexample`). A file emptied in place gets no line of names (`C72_trunc_counterexample`).
- **C72.** Call-ID and tag are not quoted: a comma in a Call-ID moves the values after it under wrong names (`C72_comma_counterexample`).
- C73: when a module named in the configuration file cannot be loaded, or its parameters are wrong, `parse_modules` (rtpp_cfile.c:229-233) releases the only reference to the object and calls its method `kaput` after that: use after free, and the queue it destroys is NULL (`C73_bad_module_counterexample`).
- C73: a record that does not fit into the queue of 128 of a module is left out, with a message in the log: `C73_once` counts it as such.  When there is no memory for the record of an RTCP packet, or the session is not found, the packet is dropped for the modules that come after as well (`acct_rtcp_enqueue` returns `PPROC_ACT_DROP`); no message tells that.
- **C74**: `_rtpp_log_open` (rtpp_log_stand.c:89-91) tests `syslog_async_opened` and sets it in two steps, and `syslog_async_init` registers the exit handler every time; two logs opened at the same time give two handlers, and the second one calls `pthread_join` on a thread that has been joined (`C74_twice_counterexample`).
- **C74**: `syslog_dropped_items` is an `int` that is only ever increased; it overflows after 2^31 - 1 dropped messages (`C74_dropped_counterexample`). It is never read.
- **C74**: a negative result of `vsnprintf` in `vsyslog_async` moves the pointer back by one byte: the last byte of the prefix is lost (`C74_text_counterexample`).
- **C75**: a statistics request (`G`) whose answer, with the cookie, is exactly 1023 bytes long aborts the server: `appendf` accepts the text, but the newline and terminator asserted at rpcpv1_stats.c:77 need two more bytes (`C75_full_counterexample`: cookie of 1000 bytes, twelve counters that are zero). The client chooses the cookie, so the length can be arranged.
- **C75**: `handle_get_stats` reports `ECODE_STSFAIL` both for an unknown name and for a value that does not fit (rpcpv1_stats.c:72-74), so the client cannot tell them apart (`C75_reason_counterexample`).
- C76: a packet that restarts its timer loads the limit and stores it in two steps (`rtpp_ttl.c:84-93`); an `S ttl=` between the two answers success, but the leg keeps the longer time until the next packet (`C76_stale_counterexample`).
- C76: `S tos=` sets the media socket first; if the control socket cannot be set the reply is an error although half of it was done, and on addresses of the new family it always fails (`rpcpv1_ul_subc_set.c:55-72,107-117`, `C76_tos_counterexample`). `tos=0` cannot be asked for.
- C76: `S ttl=4294967301` is taken for `ttl=5`, and any letter other than `r` after `S` is ignored (`rpcpv1_ul_subc_set.c:130-148`, `C76_number_counterexample`).
- C76: a new port asked for by the first party makes an incomplete session complete, so that it gets the time of complete sessions (`rpcpv1_ul.c:741-748`, `C76_complete_counterexample`). The DTLS module does the same with the configured time, ignoring `S ttl=` (`rtpp_dtls_gw.c:263-266`, not modelled).
- `Q … rtpa_nlost` (and the accounting) read the analyzer without a lock: a packet analysed between the reads of the highest sequence number and of the packet count makes the number of lost packets 4294967295 (`C77_race_counterexample`).
- `Q` without names ignores that its answer did not fit and replies with an empty line (`C77_empty_counterexample`, rpcpv1_query.c:147-149).
- `Q` whose answer takes exactly 1023 bytes with the cookie aborts the process at the assertion for the line end (`C77_full_counterexample`, rpcpv1_query.c:298).
- The longest gap between packets uses zero as "no packet yet" and the absolute value of the difference (`C77_gap_counterexample`).
- C78: starting a second instance with the same local control socket takes the path away from the running one (`unlink` before `bind`, rtpp_controlfd.c:96), and the first one removes the file of the second when it ends (rtpp_controlfd.c:322): `C78_takeover_counterexample`, `C78_removed_counterexample`. A start that fails after the first local socket, and a daemon whose socket has a relative name, leave the file behind: `C78_left_counterexample`, `C78_relative_counterexample`. An IPv6 host without a port is cut at its last colon: `C78_v6_counterexample`.
- C79: `-u user` without a group does not change the group, although the group of the user is looked up, and supplementary groups are never given up (rtpp_util.c:100-118): `C79_group_counterexample`, `C79_groups_counterexample`. The manual says that the superuser is refused remote control; only UDP is, TCP is not (main.c:532, 765): `C79_tcp_counterexample`. Commands are served before `SIGPIPE` is ignored (main.c:1153, 1163): `C79_sigpipe_counterexample`. The mode of `-w` is decimal (main.c:659): `C79_mode_counterexample`. A session may be granted after the main loop has decided to end: `C79_deorbit_counterexample`.
- The control port is meant to be kept out of the ports for media (C24), but the program passes 0 to the port table whatever `-s` says: `port_ctl` of the configuration is set to 0 at main.c:356 and never again, and the tables are built before the control sockets are. C24 is about the table as it is constructed.
- A U or L that asks for another port (N) on another local address and gets none is refused, but the local address of the stream has been changed already (rpcpv1_ul.c:700-704 before 714): the next command is answered with the old port on the new address, where nothing listens (`C80_address_counterexample`).
- The result of entering new sockets in the table of polled sockets is ignored (rpcpv1_ul.c:726-728, rtpp_session.c:228): without memory the command is granted with a port whose sockets are closed at once (`C80_unregistered_counterexample`).
- A change of the local address is not made for the RTCP stream (rpcpv1_ul.c:701-703), whose `laddr` goes into recorded and exported packets (`C80_rtcp_address_counterexample`).
- A U with an unknown notification target is granted and drops the handler there was (rpcpv1_ul.c:884-900, `C80_notify_counterexample`).
- The advertised address is not told for a wildcard socket (rpcpv1_ul.c:140, `C80_advertised_counterexample`).
- A party that gives port 65535 gets RTCP sent to port 0 (rpcpv1_ul.c:497-498, `C80_last_port_counterexample`).
- **C81**, heap overflow by an RTCP datagram: `hep_append_*` of core_hep.c keep the length of a field in 16 bits with 6 bytes of header added; a text of 65530..65535 bytes (e.g. of a 7864-byte RTCP packet) makes it wrap, the block grows by 0..5 bytes and the whole text is copied (`C81_overflow_counterexample`).
- **C81**, texts over 65535 bytes are silently cut to their length modulo 65536: of 68258 bytes 2722 arrive (`C81_cut_counterexample`).
- **C81**, the capture agent is put by `htons` into a field of four bytes: the default 101 reads 6619136 (`C81_agent_counterexample`).
- **C81**, after 51 failures to send, the socket is closed; if the name does not resolve then, the number of the closed descriptor remains in use: reports go to whatever has got it, and it is closed later (`C81_stranger_counterexample`). The count of failures is never reset by success.
- **C81**, a connection (`capt_ptype = tcp`) that takes a part of a report gets no more of it, so all that follows cannot be read (`C81_torn_counterexample`).
- **C82**, `_recvfromto` stops reading control messages at the address (rtpp_network_io.c:91), so a time stamp that follows it is lost and the time of the look is used (`C82_stamp_counterexample`). Where `SO_TS_CLOCK` exists (FreeBSD), the stamp is monotonic but is stored as wall time (rtpp_socket.c:345), so packet times in records and reports are times since boot; that build is not modelled.
- **C82**, `longest_ipi` is measured against the latest packet, so a packet with an earlier time makes it longer than any pause (`C82_gap_counterexample`). The two log lines of `rtpp_pipe_get_stats` call stream 0 once "callee" and once "caller" (rtpp_pipe.c:199-213).
- **C83**, numbers on the command line are cut to 32 bits: `-T 4294967297` is accepted as 1 (`C83_number_counterexample`, from C17).
- **C83**, `-A c` after `-A a/b` replaces the first address only; `-A /b` is accepted with an empty first address though an empty argument is refused (`C83_advertised_counterexample`, main.c:507-521).
- **C83**, `-w 0` before `-u a:b` counts as no mode, so that the socket gets 0755; after it, it counts (`C83_order_counterexample`, main.c:650-662). The mode is read as a decimal number: `-w 770` lets others write to the control socket and not the group (`C83_mode_counterexample`).
- **C83**, not in the theorem: `--overload_prot` sets thresholds that nothing is compared with, as `rtpp_command_async_reg_overload` (rtpp_command_async.c:518) is called by nobody.
- **C84 (listening in).** A digit that is to be hidden from the peer is in the recording all the same, since the recorder is registered first, and in the copies that were asked for before the catching, but not in those asked for after it (`C84_hidden_counterexample`). A packet that is not sent for want of an address is recorded (`C84_unsent_counterexample`). When there is no memory or the queue of the worker is full, a caught digit is dropped, though it was not to be hidden (`C84_lost_counterexample`). What is played to the peer is not in the recording (`C84_prompt_counterexample`). The exact conditions are proved (`C84_packet_partial`, `C84_injected_partial`), and so are the completeness of recordings (`C84_complete_partial`) and that listening changes nothing for the peer (`C84_unchanged_partial`).
- C85: with the profile SRTP_AES128_CM_SHA1_32 the policy function for RTP is used for RTCP as well (rtpp_dtls_conn.c:346-347), so that RTCP has a tag of 4 bytes where RFC 5764 asks for 10. A command refused for its source has replaced the fingerprint expected (lines 312-319). A fingerprint in small letters is accepted, but compared with capital letters. Sources are cut to 32 bits, so that 4294967296 means any. The letter of the subcommand is the bitwise or of two characters (rtpp_dtls_gw.c:294), so that `!A` is taken for `a`. A connection refused because it could not be begun goes on as a server (`C85_*_counterexample`).
- C86: two addresses are compared by all of their bytes (rtpp_netaddr.c:149), so that the same host and port with other padding compare as different (`C86_padding_counterexample`); the kernel and `getaddrinfo` leave zeros there.
- C87: `APPEND` of `rtpp_ice_lite.c:399` is 0 or 1 and its callers ask whether it is negative, so that a part of the answer to `S` that does not fit is left out without an error. The local fragment and password are made as long as those of the other side (`rtpp_ice_lite.c`, the call of `ice_lite_activate` for `A`), which RFC 8839 allows to be 256 each, while the response has 512 bytes: the answer is then without the password (`C87_password_counterexample`), with a piece of it behind the candidate.
- C87: `rtpp_cand_decode` takes component 257 for 1 and 256 for 0, port 65537 for 1, a priority that is no number for 0 and a type that is none (`C87_numbers_counterexample`); the word of the subcommand is the disjunction of its first two characters (`C87_word_counterexample`).
- C88: `tls_connect` (`rtpp_dtls_conn.c:773`) does not look at the result of `check_timer`, as `tls_accept` does: if the task cannot be allocated, the active side waits without retransmitting (`C88_retransmitted_counterexample`).
- C88: `rtpp_dtls_conn_timeout` takes any `ttp` for its own task. If it waited for the lock while its task was cancelled (too late) and replaced, it lets go of the new task, which stays in the queue beside the one that is set then, and holds the connection until its time (`C88_one_counterexample`).

## 5. Axioms per theorem

As printed by `lean/Verif/Audit.lean` in the build (namespaces left out).

No axioms (24 theorems): C30_rtcp_redirected_counterexample, C36_error_counterexample, C36_extend_asserts, C38_queue_counterexample, C40_first_is_none, C41_labels_counterexample, C41_unlabelled_counterexample, C47_duplicate_counterexample, C47_frame_counterexample, C47_gap_counterexample, C47_late_counterexample, C47_timestamp_counterexample, C49_inside_tight, C51_push_lost_in_race_counterexample, C52_peer_counterexample, C74_text_counterexample, C79_deorbit_counterexample, C80_address_counterexample, C80_last_port_counterexample, C80_notify_counterexample, C80_rtcp_address_counterexample, C80_unregistered_counterexample, C82_gap_counterexample, C82_stamp_counterexample.

`propext` (84 theorems): C04_lost_update_counterexample, C04_two_tries_counterexample, C04_unshared_resurrected_counterexample, C05_dying_target_returned_counterexample, C05_overlapping_readers_counterexample, C19_overrun_counterexample, C20_dropped, C21_long_line_counterexample, C22_omitted_tag_counterexample, C23_order_counterexample, C24_control_port_counterexample, C24_free_port_counterexample, C26_update, C30_first_packet_locks, C30_foreign_host_asymmetric, C30_sequence_follows, C30_zero_ssrc_counterexample, C33_foreign_unlock_counterexample, C34_timestamps, C35_ether_counterexample, C35_remote, C35_stops, C37_udp_zero_checksum_counterexample, C38_relay_partial, C39_lost_counterexample, C40_answered, C44_borrow_counterexample, C44_nomem_counterexample, C46_delivers, C46_fd_counterexample, C46_short_counterexample, C49_decode_inside, C49_roundtripA, C49_roundtripU_counterexample, C49_roundtripU_partial, C49_transcodeAU, C49_transcodeUA_counterexample, C49_transcodeUA_partial, C50_exclusive, C50_memory_counterexample, C50_overload_counterexample, C50_sockets_counterexample, C51_flush_lost_counterexample, C51_send_refuses_newest_counterexample, C51_signal_drops_packet_counterexample, C51_term_accepted, C53_move_needs_shared_seed, C54_report, C56_relaxed_load_counterexample, C57_clone_counterexample, C57_leak_counterexample, C59_packetport_counterexample, C61_given_name_counterexample, C61_inside_counterexample, C61_path_counterexample, C62_already_counterexample, C62_race_counterexample, C62_target_counterexample, C64_refused, C65_agrees_counterexample, C67_deleted_counterexample, C70_one_end, C71_lost_counterexample, C73_bad_module_counterexample, C73_parse_partial, C74_twice_counterexample, C76_complete_counterexample, C76_split, C76_stale_counterexample, C76_tos_counterexample, C79_sigpipe_counterexample, C79_tcp_counterexample, C80_moved, C82_received_partial, C83_advertised_counterexample, C83_exit, C83_mode_counterexample, C83_order_counterexample, C84_hidden_counterexample, C84_lost_counterexample, C84_prompt_counterexample, C84_unsent_counterexample, C85_rtcp_tag_counterexample, C86_padding_counterexample.

`propext`, `Quot.sound` (162 theorems): C10_g722_counterexample, C10_padding_counterexample, C10_ssrc_change_counterexample, C11_marker_counterexample, C11_negative_loss_counterexample, C11_offset_counterexample, C11_old_packet_counterexample, C11_underflow_counterexample, C12_each_once, C12_forgotten_counterexample, C13_encoding_is_percent_encoding, C13_quote_within_bounds, C13_unquote_overread_counterexample, C17_truncation_counterexample, C18_strlcpy, C19_cookie, C19_refused_unchanged, C22_media_partial, C24_sequential_partial, C26_packet, C26_separate, C26_shared_once, C28_cancel_while_running, C28_shutdown_can_hang, C28_zero_period_hangs, C29_abort_counterexample, C29_clear_necessary, C29_leak_counterexample, C29_lost_counterexample, C29_twice_counterexample, C30_follows_move, C30_foreign_packet, C30_no_hijack, C30_rtcp_partial, C31_lookup, C31_unregister_unknown_aborts, C32_256_counterexample, C32_duplicates_hang, C32_exact, C32_shuffle_covers, C35_ether, C35_family_counterexample, C35_family_garbled_counterexample, C35_short_write_counterexample, C36_contents, C36_terminated, C38_code_counterexample, C38_empty_counterexample, C38_retag_counterexample, C38_single_counterexample, C38_source_counterexample, C38_tag_counterexample, C40_wraps, C41_foraf, C41_host2_events, C41_stays, C41_unlabelled_partial, C44_info, C44_sessions, C44_stats_current, C45_addr, C45_bindarg, C47_channels, C47_kept, C49_buffer, C49_error, C49_inside, C49_monotone, C49_monotone_decode, C49_no_negative_zero, C49_standard, C49_standard_encoder, C50_accept, C50_full_counterexample, C50_waiting_partial, C51_term_lost_counterexample, C51_worker_runs, C52_peer_partial, C54_attributed_partial, C54_fifth_counterexample, C54_locations, C54_total, C54_unattributed, C56_producer_never_waits, C57_alive_partial, C57_no_leak_partial, C57_no_use_after_free_partial, C58_answered_once, C58_unknown_session, C59_update_partial, C60_setup, C61_distinct_counterexample, C61_distinct_partial, C61_inside_partial, C61_kinds, C61_media_counterexample, C61_path_partial, C62_consistent, C62_end, C62_race_partial, C62_single_shared, C62_start, C62_stop, C63_nosync_counterexample, C63_report_counterexample, C65_held_back, C65_held_counterexample, C65_one_counterexample, C65_safe, C65_stopped_counterexample, C66_copied_counterexample, C66_cycle, C66_heard, C66_refs, C66_terminates_counterexample, C66_terminates_partial, C67_overflow_counterexample, C68_failed_start_counterexample, C68_not_locked_counterexample, C68_off_but_locked_counterexample, C68_stale_message_counterexample, C69_any_peer_counterexample, C69_early_datagram_counterexample, C69_late_fingerprint_counterexample, C69_no_renegotiation, C69_rtcp_in_the_clear_counterexample, C70_protect_overflow_counterexample, C70_released_twice_counterexample, C70_released_twice_mux_counterexample, C74_dropped_counterexample, C74_text_partial, C76_bound_partial, C76_number_counterexample, C76_stop, C76_tos_partial, C76_ttl, C78_gone_partial, C79_answer, C79_groups_counterexample, C79_no_hang, C79_no_new_partial, C79_order, C79_rights_partial, C79_stop, C79_user, C80_advertised_counterexample, C80_apart, C80_destination, C80_handler, C80_hold, C80_in_force, C80_interfaces, C80_refused_partial, C80_reply_partial, C80_resized, C80_stable, C83_number_counterexample, C85_command, C86_own, C87_letter, C88_one_counterexample, C88_retransmitted_counterexample.

`propext`, `Classical.choice`, `Quot.sound` (404 theorems): C01_foreach_refines, C01_foreach_visits_every_item_once, C01_hash_unobservable, C01_table_refines_multimap, C02_at_most_one_per_key, C02_first_last, C02_refused_iff_present, C03_destroyed_once_at_last_release, C03_destroyer_completes, C03_single_destroyer, C04_success_means_alive_partial, C04_try_safe_partial, C05_nothing_after_invalidation_partial, C05_weak_link_safe_partial, C06_locate_iff_recent, C06_position_identifies_occurrence, C07_duration, C07_parser_partitions_packet, C08_demux_unambiguous_partial, C08_rtp_taken_for_stun_counterexample, C09_modular_order, C10_audio_conserved_partial, C10_clock, C10_consecutive_sequence, C10_get_sends_when_full, C10_one_stream_in_order_partial, C10_only_late_packets_dropped, C10_packet_shape_partial, C10_wire_partial, C11_counted_once, C11_next_source_partial, C11_one_source_partial, C12_bounded, C12_complete, C12_last_tracked, C12_no_fault, C12_own, C12_report, C13_roundtrip, C13_unquote_decodes_partial, C14_strsplit_exact, C15_long_cookie_counterexample, C15_split_partial, C15_split_stream, C16_admission, C16_arguments_present, C16_optional_arguments, C16_stats_limit_counterexample, C17_atoi_partial, C17_strtol_saferange, C18_truncation_detectable, C19_buffer_partial, C19_deliver, C19_error_abort_counterexample, C19_query_abort_counterexample, C19_query_reply_partial, C19_ul_reply_partial, C20_duplicates, C20_within_ttl, C21_framing, C21_segmentation, C21_short_lines_partial, C22_lookup, C22_media_counterexample, C22_update, C23_delete, C23_held, C23_hold_taken, C23_media_partial, C24_all_free_partial, C24_listeners, C24_offered, C24_offered_range, C25_range, C26_active, C26_after_packet, C26_expiry, C26_new_session, C27_limit, C27_no_loss_no_duplication, C27_order, C27_queue_is_fifo, C28_cancelled_never_runs, C28_ended_never_runs, C28_first_scan, C28_never_early, C28_next_period, C28_one_shot, C28_safe, C28_scan_ends, C28_tasks, C29_aligned_partial, C29_ends_partial, C29_references_partial, C29_safe_partial, C29_settled_partial, C29_streams_partial, C29_sync_partial, C31_accounted, C31_action, C31_order, C31_runs, C31_totals, C33_exclusion, C33_no_deadlock, C33_upgrade_atomic, C34_codec_counterexample, C34_memory_counterexample, C34_monotone, C34_overflow_counterexample, C34_paced_partial, C34_pass, C34_stream_partial, C34_tail_counterexample, C34_type_counterexample, C35_capture_partial, C35_failure_partial, C35_own, C37_in_cksum, C37_in_cksum_long, C37_inserted_verifies, C37_udp4, C37_udp6, C38_command_partial, C38_exact, C38_once, C38_reported_partial, C38_safe_partial, C39_accepts, C39_lost_text_counterexample, C39_reports_partial, C39_safe, C39_single, C39_two_counterexample, C39_version_counterexample, C40_distinct, C40_none_once, C41_distinct, C41_labels_partial, C41_right, C41_shared, C42_bounded, C42_bounded_int, C42_extremes_int, C42_follows, C42_maximum_partial, C42_minimum_counterexample, C42_minimum_partial, C43_mtimespec_counterexample, C43_mtimespec_partial, C43_timeval, C44_commands_no_nomem, C44_commands_partial, C44_packet, C45_label, C46_alive_partial, C46_descriptors, C46_order, C46_others, C46_served, C47_call_partial, C47_capture_partial, C47_counted_partial, C47_cut_counterexample, C47_endless_counterexample, C47_error_counterexample, C47_ipv6_counterexample, C47_length_counterexample, C47_order_partial, C47_own_partial, C47_recorded_capture_partial, C47_recorded_own_partial, C47_same_ssrc_counterexample, C48_ends_partial, C48_g729_counterexample, C48_g729_silence_counterexample, C48_g729_stale_counterexample, C48_gsm_counterexample, C48_pause_counterexample, C48_restart_counterexample, C48_safe_partial, C48_steady_partial, C48_timeline_partial, C49_sign, C50_hangup_counterexample, C50_history, C50_start_partial, C50_turn, C51_batch, C51_flush_partial, C51_ports, C51_ports_all, C51_push_partial, C52_deterministic, C52_meaning_partial, C52_ptime_counterexample, C52_total, C53_move_transfers, C53_purge_releases_each_once, C53_registry_refines_map, C55_rewrite_then_parse, C56_consumer_never_waits, C56_empty_only_when_empty, C56_fifo, C56_linearizable, C56_safe, C56_short_push_only_when_full, C60_bridging, C60_labels, C63_call_partial, C63_inside, C63_mix, C63_sources_partial, C64_accepted, C64_colon_counterexample, C64_distinct, C64_enabled, C64_full_counterexample, C64_named_partial, C64_path_counterexample, C64_port_counterexample, C64_safe, C64_self, C64_source_counterexample, C64_stable, C64_unknown, C65_agrees_partial, C65_awake_counterexample, C65_awake_partial, C65_deadlock_counterexample, C65_gone_partial, C65_one_partial, C65_progress_counterexample, C65_progress_partial, C65_silent_stays_partial, C65_started_partial, C65_stopped_partial, C65_waiting_partial, C66_copied_partial, C66_early_partial, C66_failed_counterexample, C66_failed_partial, C66_safe_partial, C66_silenced, C66_undone_partial, C67_delivered_partial, C67_ends, C67_noticed_partial, C67_rate, C67_settles_partial, C67_soon, C67_stops, C67_stuck_counterexample, C68_address_stays_partial, C68_address_while_checking_partial, C68_completion, C68_completion_locks_partial, C68_gate, C68_in_charge, C68_no_latching, C68_off, C68_queue_is_received, C68_start, C69_datagrams_wait, C69_given_up_for_good, C69_in_charge, C69_no_media_in_the_clear, C69_off, C69_peer_fingerprint_partial, C69_thread_output, C69_verified_by_the_right_connection, C70_no_abort, C70_no_fault_partial, C71_ends, C71_idle_all_sent, C71_in_order, C71_no_fault, C71_packet_kept, C71_progress, C71_socket_kept, C71_stop, C72_all, C72_big_counterexample, C72_comma_counterexample, C72_contents_partial, C72_line_partial, C72_lines_partial, C72_names, C72_no_fault_partial, C72_once, C72_progress_partial, C72_ssrc, C72_stale_counterexample, C72_steps, C72_torn_counterexample, C72_trunc_counterexample, C72_values_partial, C72_written_partial, C73_after, C73_all, C73_asked, C73_bound, C73_distinct, C73_full, C73_lookup, C73_no_fault, C73_none_lost, C73_nothing_left, C73_numbers, C73_once, C73_order, C73_progress, C73_shutdown, C74_bound_partial, C74_dropped_partial, C74_exit_partial, C74_idle_partial, C74_log_partial, C74_no_fault_partial, C74_stderr, C74_stderr_goes, C74_wait_partial, C75_full_counterexample, C75_no_fault_partial, C75_rate, C75_reason_counterexample, C75_reply, C75_sum, C76_parse_partial, C77_empty_counterexample, C77_full_counterexample, C77_gap_counterexample, C77_modifier, C77_race_counterexample, C77_reply_partial, C77_simple_partial, C78_address, C78_closed_partial, C78_creds_counterexample, C78_host_port, C78_kind, C78_left_counterexample, C78_no_lookup, C78_path, C78_reach_partial, C78_relative_counterexample, C78_removed_counterexample, C78_takeover_counterexample, C78_v6_counterexample, C79_group_counterexample, C79_mode_counterexample, C79_refuse_partial, C80_text, C81_agent_counterexample, C81_config, C81_cut_counterexample, C81_once, C81_overflow_counterexample, C81_own_partial, C81_patience, C81_reports_partial, C81_safe_partial, C81_stranger_counterexample, C81_torn_counterexample, C82_bounds, C82_record, C82_statistics, C82_times_partial, C83_accepts, C83_means, C83_number_partial, C83_order, C84_complete_partial, C84_injected_partial, C84_packet_partial, C84_unchanged_partial, C85_accepts, C85_comes_up, C85_failed_connect_counterexample, C85_refused_counterexample, C85_role, C85_safe, C85_small_letters_counterexample, C85_source_counterexample, C85_two_ends, C85_up_partial, C85_word_counterexample, C86_answers, C86_exclusive, C86_register, C86_released, C87_answer_partial, C87_answer_safe, C87_answer_whole, C87_candidate, C87_numbers_counterexample, C87_once, C87_password_counterexample, C87_refused, C87_stay, C87_word_counterexample, C88_after, C88_one_partial, C88_retransmitted_partial.

## 6. Not modelled

The kernel and libc, except where their answers are inputs of a model (e.g. `Notify`, `Conns`, `Sinfo`, `Record`, `Start`, `Cli`);
`getopt_long` itself; the DTLS, SRTP and ICE libraries, whose answers are inputs of `Plane`; the mixed producer queue of the packet port, which is
used by its contract; codecs, which are parameters of `Eaud`; the text of log lines; the parsing of the configuration file by libucl and `dlopen`,
whose answers are inputs of `Modman` and `Cli`; the memory debugger and the leak checks; builds as a library except where a model says so; the
bindings for other languages, and the test-suite.
