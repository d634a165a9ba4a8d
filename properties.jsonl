{"id": "C01", "title": "Keyed table is a faithful multimap across growth", "statement": "After any sequence of insert, delete and delete-by-key calls, looking a key up yields exactly the values inserted under that key and not yet deleted, in insertion order; the reported length equals their total number; the growth of the bucket array is never observable.", "quantifier": "for every hash function, every key/value type, every sequence of operations of any length (hence any number of resizes), with every pattern of hash collisions", "why_tests_cant": "A test sees a few hundred keys and one hash seed; the claim covers every collision pattern, every key and every history, including those in which a resize separates or merges chains.", "anchors": ["src/rtpp_hash_table.c:hash_table_append_raw", "src/rtpp_hash_table.c:rtpp_ht_hashkey", "src/rtpp_hash_table.c:hash_table_find_raw", "src/rtpp_hash_table.c:hash_table_remove", "src/rtpp_hash_table.c:hash_table_remove_by_key", "src/rtpp_hash_table.c:hash_table_resize_locked", "src/rtpp_hash_table.c:hash_table_get_length"]}
{"id": "C02", "title": "Duplicate rejection and first/last transition reporting of keyed tables", "statement": "In a table created with the no-duplicates flag an insert of a present key is refused and changes nothing, so at most one value per key is ever stored; and the first/last indication handed to the caller is raised exactly on the empty-to-nonempty and nonempty-to-empty transitions.", "quantifier": "for every sequence of operations, every hash function, every table size", "why_tests_cant": "Whether two entries with one key can ever coexist depends on the whole history of inserts, removals and resizes.", "anchors": ["src/rtpp_hash_table.c:hash_table_insert_locked", "src/rtpp_hash_table.c:hash_table_append_refcnt", "src/rtpp_hash_table.c:hash_table_resize_locked", "src/rtpp_hash_table.h:rtpp_ht_opstats"]}
{"id": "C03", "title": "Reference counted objects are destroyed exactly once, at the last release", "statement": "Every attached destructor runs exactly once, in the reverse order of attachment, at the release that drops the last outstanding reference and never earlier; taking and releasing references in any interleaving of threads, each of which holds a reference when it takes another, never frees a held object.", "quantifier": "for every number of threads, every interleaving of acquire/release steps, every number of attached destructors", "why_tests_cant": "Interleavings of atomic operations cannot be enumerated by a test and failures are timing dependent.", "anchors": ["src/rtpp_refcnt.c:rtpp_refcnt_incref", "src/rtpp_refcnt.c:rtpp_refcnt_decref", "src/rtpp_refcnt.c:rtpp_refcnt_attach", "src/rtpp_refcnt.c:rtpp_refcnt_traceen"]}
{"id": "C04", "title": "Conditional acquire never resurrects a dead object", "statement": "A conditional acquire (try-reference) succeeds only while some other holder keeps the object alive, so success implies the destructors have not run and will not run until it is released.", "quantifier": "for every interleaving of conditional acquires, acquires and releases by any number of threads", "why_tests_cant": "The failing schedules need two conditional acquires and a final release to overlap within a few instructions.", "anchors": ["src/rtpp_refcnt.c:rtpp_refcnt_tryincref", "src/rtpp_refcnt.c:rtpp_refcnt_decref"]}
{"id": "C05", "title": "Weak link never yields a target after invalidation", "statement": "Once the invalidation call on a weak link has returned, no later or concurrent attempt to obtain the target succeeds, and before it returns every successful attempt leaves the target referenced.", "quantifier": "for every number of reader threads and every interleaving of their steps with the invalidation", "why_tests_cant": "Only rare interleavings of counter operations expose a stale target.", "anchors": ["src/rtpp_wref.c:rtpp_wref_setref", "src/rtpp_wref.c:rtpp_wref_inval", "src/rtpp_wref.c:rtpp_wref_getref"]}
{"id": "C06", "title": "Ring buffer remembers exactly the last N pushed values", "statement": "After any sequence of pushes and flushes a lookup reports a position iff the value is among the last N values pushed since the last flush, and the position identifies such an occurrence; nothing outside the storage is touched.", "quantifier": "for every capacity N>0 and every sequence of pushes, flushes and lookups", "why_tests_cant": "Wrap-around behaviour depends on the length of the history modulo N.", "anchors": ["src/rtpp_ringbuf.c:rtpp_ringbuf_push", "src/rtpp_ringbuf.c:rtpp_ringbuf_flush", "src/rtpp_ringbuf.c:rtpp_ringbuf_locate"]}
{"id": "C07", "title": "RTP parser stays inside the packet and accounts for every byte", "statement": "For every received byte string the RTP parser either reports an error or yields payload offset and sizes such that header, payload and padding exactly partition the packet, the payload lies inside the packet and is non-negative in size; sequence number, timestamp, SSRC and payload type are the big-endian header fields; no byte outside the packet is ever inspected.", "quantifier": "for every byte string of every length", "why_tests_cant": "The input space is all byte strings; the boundary combinations of CSRC count, extension length and padding count are too many to sample.", "anchors": ["src/rtp.c:rtp_packet_parse_raw", "src/rtp.h:rtp_info", "src/rtp_packet.c:rtp_packet_parse"]}
{"id": "C08", "title": "Media demultiplexing is unambiguous", "statement": "A datagram is never classified both as RTCP and as valid RTP, nor as RTP and STUN, nor as RTP/RTCP and DTLS, and each classifier inspects only bytes that were received.", "quantifier": "for every byte string of every length", "why_tests_cant": "All byte strings of all lengths are covered.", "anchors": ["src/rtp_packet.c:rtpp_is_rtcp_tst", "src/rtp_packet.c:rtpp_is_stun_tst", "src/rtp_packet.c:rtpp_is_dtls_tst", "src/rtp.c:rtp_packet_parse_raw"]}
{"id": "C09", "title": "Sequence and timestamp order is consistent modulo wrap-around", "statement": "Comparison of RTP timestamps agrees with the order of the unwrapped positions on every window smaller than half of the number space, so the order of packets does not depend on where the counter wraps; the distance between two sequence numbers is the forward distance modulo 65536: zero exactly for equal numbers, one for neighbours, also across the wrap.", "quantifier": "for every pair/triple of 32-bit timestamps and 16-bit sequence numbers", "why_tests_cant": "2^64 pairs, with the interesting ones near the wrap.", "anchors": ["src/rtp.h:ts_less", "src/rtp.h:SEQ_DIST", "src/rtpp_stream.c:_rtpp_stream_check_latch_override"]}
{"id": "C10", "title": "Packet resizer neither loses, duplicates nor reorders audio", "statement": "For every sequence of packets fed to the resizer the concatenation of the payload bytes of all packets it emits followed by what it still buffers equals the concatenation of the accepted payloads in timestamp order; output timestamps are those of the first sample emitted; emitted packets carry the requested packetisation time and fit into the packet buffer.", "quantifier": "for every sequence of enqueue and get calls with every payload size and timestamp", "why_tests_cant": "Chunking depends on the entire history of fractional packets left in the buffer.", "anchors": ["src/rtp_resizer.c:rtp_resizer_enqueue", "src/rtp_resizer.c:rtp_resizer_get", "src/rtp_resizer.c:append_packet", "src/rtp_resizer.c:append_chunk", "src/rtp_resizer.c:move_chunk", "src/rtp.c:rtp_calc_samples", "src/rtp.c:rtp_packet_first_chunk_find"]}
{"id": "C11", "title": "RTP statistics count every packet exactly once", "statement": "For every stream of RTP packets each packet is counted exactly once, either as received or as duplicate (or as an SSRC reset), the number of packets reported received equals the number of distinct extended sequence numbers, and the number reported sent is the span of the sequence numbers so that loss = sent - received is never negative.", "quantifier": "for every sequence of RTP packets with arbitrary sequence numbers, SSRCs and arrival order", "why_tests_cant": "Sequence wrap, reordering across the wrap and SSRC change interact over unbounded histories.", "anchors": ["src/rtp_analyze.c:update_rtpp_stats", "src/rtp_analyze.c:update_rtpp_totals", "src/rtp_analyze.h:rtpp_session_stat_last"]}
{"id": "C12", "title": "Jitter bookkeeping is bounded and keyed by SSRC", "statement": "At any time at most ten SSRCs are tracked, no SSRC is tracked twice, and statistics of a packet are always recorded under its own SSRC.", "quantifier": "for every sequence of packets with arbitrary SSRCs", "why_tests_cant": "The replacement policy depends on the entire sequence of SSRCs seen.", "anchors": ["src/rtp_analyze.c:jdata_by_ssrc", "src/rtp_analyze.c:update_jitter_stats", "src/rtp_analyze.c:get_jitter_stats"]}
{"id": "C13", "title": "URL-style quoting round-trips within bounds", "statement": "Unquoting the quoted form of any byte string gives the string back; quoting never writes beyond the destination it was given and reports failure otherwise; unquoting writes only inside the source string and reads no byte past its end.", "quantifier": "for every byte string and every destination size", "why_tests_cant": "All byte strings and all buffer sizes; the off-by-one cases are at the end of the string.", "anchors": ["src/rtpp_util.c:url_quote", "src/rtpp_util.c:url_unquote2", "src/rtpp_util.c:url_unquote"]}
{"id": "C14", "title": "Word-at-a-time tokenizer equals the byte-by-byte one", "statement": "Splitting a command line with the accelerated scanner gives exactly the fields obtained by splitting at single blank characters, for every alignment and every byte content, without reading outside the string.", "quantifier": "for every byte string and every alignment", "why_tests_cant": "The SWAR zero-byte trick has to be exact for all 2^64 words.", "anchors": ["src/rtpp_util.c:rtpp_strsplit", "src/rtpp_util.c:rtpp_strsep"]}
{"id": "C15", "title": "Control command line is parsed into a bounded, faithful argument vector", "statement": "A control message is either rejected with a parse error or split into cookie, command and sub-commands whose non-empty fields appear in order and contain no blanks; argument and sub-command counts never exceed the fixed arrays; a message without a command is rejected.", "quantifier": "for every byte string used as a control message", "why_tests_cant": "All byte strings; overflow of fixed arrays occurs only for adversarial inputs.", "anchors": ["src/rtpp_command.c:rtpp_command_split", "src/rtpp_command_args.h", "src/rtpp_command_private.h:MAX_SUBC_NUM"]}
{"id": "C16", "title": "Command admission follows the documented grammar", "statement": "A command is accepted exactly when its letter is known, the number of arguments lies in the range documented for it, modifiers are given only where allowed and sub-commands are attached only where allowed; the error code reported identifies the first violated rule, and every argument the handlers later dereference is present when accepted.", "quantifier": "for every command letter, every argument count, every modifier string, every sub-command count", "why_tests_cant": "The table has many combinations and handlers dereference arguments on the strength of it.", "anchors": ["src/rtpp_command_parse.c:fill_cmd_props", "src/rtpp_command_parse.c:rtpp_command_pre_parse", "src/rtpp_command.c:handle_command"]}
{"id": "C17", "title": "Numeric fields are accepted only when they denote the number", "statement": "A decimal field is accepted iff it is a complete decimal numeral whose value lies in the permitted range, and the value delivered is the value denoted.", "quantifier": "for every byte string and every permitted range", "why_tests_cant": "Overflow and truncation happen only for inputs far outside what tests use.", "anchors": ["src/rtpp_util.c:atoi_safe", "src/rtpp_util.c:atoi_safe_sep", "src/rtpp_util.c:atoi_saferange", "src/rtpp_util.c:strtol_saferange"]}
{"id": "C18", "title": "Bounded string copy", "statement": "The bounded copy always terminates the destination when it has room for at least one byte, writes at most the given number of bytes, copies the longest prefix that fits and returns the full source length so that truncation is detectable.", "quantifier": "for every source string, every destination size", "why_tests_cant": "All lengths against all sizes, including zero and one.", "anchors": ["src/rtpp_util.c:strlcpy"]}
{"id": "C19", "title": "Reply buffer never overflows and replies are well formed", "statement": "Whatever a command handler appends, the bytes used plus reserved never exceed the reply buffer; an append that does not fit is refused and leaves the reply unchanged; a successfully delivered reply is exactly cookie, blank, body, newline; building a reply never aborts the server.", "quantifier": "for every cookie, every sequence of appends/reservations and every body length", "why_tests_cant": "Sizes are attacker controlled through the cookie and through the number of sub-command results.", "anchors": ["src/rtpp_command_reply.c:rtpc_reply_append", "src/rtpp_command_reply.c:rtpc_reply_appendf", "src/rtpp_command_reply.c:rtpc_reply_reserve", "src/rtpp_command_reply.c:rtpc_reply_commit", "src/rtpp_command_reply.c:rtpc_reply_deliver_error"]}
{"id": "C20", "title": "Retransmitted commands are executed at most once and answered identically", "statement": "While the answer of a command is retained, a datagram carrying the same cookie is answered with the identical reply and is not executed again; answers are retained for at least the configured time and are dropped eventually.", "quantifier": "for every sequence of command arrivals, cookies and clock readings", "why_tests_cant": "Depends on all arrival histories and on the timing of the cleanup.", "anchors": ["src/rtpp_command_rcache.c:rtpp_cmd_rcache_insert", "src/rtpp_command_rcache.c:rtpp_cmd_rcache_lookup", "src/rtpp_command_rcache.c:rtpp_cmd_rcache_cleanup", "src/rtpp_command.c:rtpp_command_guard_retrans"]}
{"id": "C21", "title": "Stream-oriented control connection framing is independent of segmentation", "statement": "The sequence of command lines obtained from a stream control connection equals the lines of the byte stream, regardless of how the stream is cut into reads; an over-long line is reported and cannot write beyond the buffer.", "quantifier": "for every byte stream and every segmentation into reads", "why_tests_cant": "Exponentially many segmentations.", "anchors": ["src/rtpp_command_stream.c:rtpp_command_stream_doio", "src/rtpp_command_stream.c:rtpp_command_stream_get", "src/rtpp_command_stream.c:rtpp_command_stream_compact"]}
{"id": "C22", "title": "Session lookup by tags finds the right call leg", "statement": "A lookup by call-id and tags returns a session of that call-id whose tag equals the requested from-tag (then the caller leg) or else matches the requested to-tag up to an identical media suffix (then the callee leg), returns the first such session in creation order, and reports none iff no such session exists.", "quantifier": "for every set of sessions, every call-id and every pair of tags", "why_tests_cant": "The interplay of tags with media suffixes and omitted tags ranges over all strings.", "anchors": ["src/rtpp_session.c:compare_session_tags", "src/rtpp_session.c:rtpp_session_ematch", "src/rtpp_session.c:find_stream"]}
{"id": "C23", "title": "DELETE removes exactly the addressed sessions, once all holders agree", "statement": "A DELETE affects only sessions of the given call-id matching the tags; a session is torn down iff its strong and weak holds are all gone; success is reported iff at least one session matched, and other sessions are untouched.", "quantifier": "for every set of sessions with any combination of strong/weak holds and every tag pair", "why_tests_cant": "The combinations of holds and multi-media sessions form an unbounded state space.", "anchors": ["src/commands/rpcpv1_delete.c:rtpp_cmd_delete_ematch", "src/commands/rpcpv1_delete.c:do_delete", "src/commands/rpcpv1_delete.c:handle_delete"]}
{"id": "C24", "title": "Port allocation offers only configured ports and finds a free one", "statement": "Every port offered to the binder lies in the configured range, is even, is never the control port nor the one below it; the set of ports in rotation is never lost or duplicated by the randomisation; if the binder refuses all busy ports and some port in the range is free the allocation succeeds.", "quantifier": "for every configured range, control port, pseudo-random sequence and every history of allocations", "why_tests_cant": "Depends on the random sequence and on which ports are busy at the time.", "anchors": ["src/rtpp_port_table.c:rtpp_port_table_ctor", "src/rtpp_port_table.c:rtpp_ptbl_get_port", "src/main.c:init_config"]}
{"id": "C25", "title": "Configured port range is normalised soundly", "statement": "For every accepted pair of minimum and maximum port settings every RTP port p that can be allocated is even and both p and the RTCP port p+1 lie within the configured range; the port table is non-empty.", "quantifier": "for every pair of settings", "why_tests_cant": "All 2^32 pairs of settings.", "anchors": ["src/main.c:init_config", "src/rtpp_port_table.c:rtpp_port_table_ctor", "src/rtpp_session.c:rtpp_session_ctor"]}
{"id": "C26", "title": "Idle sessions expire exactly after their time-to-live and active ones never do", "statement": "A session that receives no packet for its time-to-live number of ticks is removed at the next tick and not earlier; a session that receives at least one packet on each monitored direction between ticks is never removed; with shared timers the timer is decremented once per tick.", "quantifier": "for every set of sessions and every interleaving of packets and ticks", "why_tests_cant": "Unbounded histories of ticks and packets.", "anchors": ["src/rtpp_ttl.c:rtpp_ttl_reset", "src/rtpp_ttl.c:rtpp_ttl_decr", "src/rtpp_proc_ttl.c:rtpp_proc_ttl_foreach", "src/rtpp_pipe.c:rtpp_pipe_get_ttl", "src/rtpp_pipe.c:rtpp_pipe_decr_ttl"]}
{"id": "C27", "title": "Inter-thread queue is FIFO, lossless and bounded", "statement": "Items leave the queue in the order they entered, each exactly once, none is lost or invented; the queue never holds more than its configured maximum; extracting the first item satisfying a predicate removes exactly that item and preserves the order of the others.", "quantifier": "for every capacity and every sequence of put, get, get-many and conditional extraction calls", "why_tests_cant": "Overflow from the ring into the linked list and back occurs only for particular histories.", "anchors": ["src/rtpp_queue.c:rtpp_queue_put_item", "src/rtpp_queue.c:rtpp_queue_get_item", "src/rtpp_queue.c:rtpp_queue_get_items", "src/rtpp_queue.c:rtpp_queue_get_first_matching", "src/rtpp_queue.c:circ_buf_popmany", "src/rtpp_queue.c:circ_buf_remove"]}
{"id": "C28", "title": "Deferred tasks never run early, run at most once per period and stay cancelled", "statement": "A scheduled task is never run before its due time, is run by the first scan at or after it, a one-shot task runs exactly once, a periodic task is rescheduled to its next multiple of the period strictly in the future, and a task cancelled before it is picked up never runs.", "quantifier": "for every set of tasks, every sequence of scans at non-decreasing times and every cancellation", "why_tests_cant": "Unbounded histories of times and cancellations.", "anchors": ["src/rtpp_timed.c:rtpp_timed_schedule_base", "src/rtpp_timed.c:rtpp_timed_process", "src/rtpp_timed.c:rtpp_timed_cancel", "src/rtpp_timed.c:rtpp_timed_istime"]}
{"id": "C29", "title": "Poll table converges to the set of live sockets", "statement": "After each synchronisation the poll table of the media thread contains exactly the sockets added and not removed or replaced since the start, each once, with parallel arrays aligned; additions and removals in any order are neither lost nor applied twice.", "quantifier": "for every sequence of additions, updates, removals and synchronisations", "why_tests_cant": "Update logs are applied in batches; the number of orders is unbounded.", "anchors": ["src/rtpp_sessinfo.c:rtpp_sinfo_append", "src/rtpp_sessinfo.c:rtpp_sinfo_update", "src/rtpp_sessinfo.c:rtpp_sinfo_remove", "src/rtpp_sessinfo.c:rtpp_sinfo_sync_polltbl"]}
{"id": "C30", "title": "Latched media source cannot be hijacked outside the grace window", "statement": "Once a stream has latched onto a source and the grace window after the last signalling update has passed, packets from another source redirect the stream only if they are valid RTP carrying the latched SSRC with a sequence number close to the last one; other packets are discarded and leave the remote address unchanged.", "quantifier": "for every sequence of packets, signalling updates and clock readings", "why_tests_cant": "Security property over all attacker packet sequences.", "anchors": ["src/rtpp_stream.c:rtpp_stream_rx", "src/rtpp_stream.c:_rtpp_stream_latch", "src/rtpp_stream.c:_rtpp_stream_check_latch_override", "src/rtpp_stream.c:_rtpp_stream_fill_addr", "src/rtpp_stream.c:rtpp_stream_prefill_addr"]}
{"id": "C31", "title": "Packet processors run in order and every packet is accounted for exactly once", "statement": "Processors of a stream are run in non-decreasing order of their stage, in registration order within a stage, until one takes or drops the packet; every packet handed in is either taken by exactly one processor or released and counted as discarded exactly once.", "quantifier": "for every sequence of registrations/unregistrations, every set of processors and every packet", "why_tests_cant": "All processor configurations and outcomes.", "anchors": ["src/advanced/pproc_manager.c:rtpp_pproc_mgr_register", "src/advanced/pproc_manager.c:rtpp_pproc_mgr_handleat", "src/advanced/pproc_manager.c:rtpp_pproc_mgr_unregister", "src/advanced/pproc_manager.c:rtpp_pproc_mgr_lookup"]}
{"id": "C32", "title": "Perfect hash of option names is exact", "statement": "Looking a name up in the statistics/name index returns i exactly when the i-th registered name equals it and nothing otherwise.", "quantifier": "for every set of distinct names, every query string, every pseudo-random permutation found", "why_tests_cant": "The hash function is randomised at start-up and queries are arbitrary strings.", "anchors": ["src/rtpp_pearson_perfect.c:compute_perfect_hash", "src/rtpp_pearson_perfect.c:rtpp_pearson_perfect_hash", "src/rtpp_pearson.c:rtpp_pearson_shuffle", "src/rtpp_pearson.c:rtpp_pearson_hash8"]}
{"id": "C33", "title": "Reader/writer lock excludes", "statement": "At no time does a writer hold the lock together with another writer or any reader, for lock, unlock and upgrade operations; a successful upgrade is atomic, an unsuccessful one leaves the reader hold in place.", "quantifier": "for every number of threads and every interleaving", "why_tests_cant": "All interleavings.", "anchors": ["src/rtpp_rw_lock.c:rtpp_rw_lock_lock", "src/rtpp_rw_lock.c:rtpp_rw_lock_unlock", "src/rtpp_rw_lock.c:rtpp_rw_lock_upgrade"]}
{"id": "C34", "title": "Announcement playback produces a continuous, correctly paced RTP stream", "statement": "For every prompt the packets produced have consecutive sequence numbers (mod 2^16), timestamps advancing by the duration of each packet, the marker bit on the first packet only, payload equal to consecutive chunks of the file repeated the requested number of times, no packet is produced before its time, and every packet fits into the packet buffer.", "quantifier": "for every prompt length, codec, packetisation time, repeat count and every sequence of polling times", "why_tests_cant": "All combinations of lengths, codecs and polling schedules.", "anchors": ["src/rtpp_server.c:rtpp_server_ctor", "src/rtpp_server.c:rtpp_server_get", "src/rtpp_server.c:rtpp_server_get_seq"]}
{"id": "C35", "title": "Recorder writes every packet exactly once, in order", "statement": "The bytes written to the recording file plus those still buffered are the concatenation, in arrival order, of header and payload of every recorded packet; the buffer never overflows; closing the recorder flushes everything.", "quantifier": "for every sequence of packets of any size", "why_tests_cant": "Buffer boundaries are hit at arbitrary packet size sequences.", "anchors": ["src/rtpp_record.c:rtpp_record_write_locked", "src/rtpp_record.c:flush_rbuf", "src/rtpp_record.c:rtpp_record_close"]}
{"id": "C36", "title": "Growable string buffer keeps its contents", "statement": "After any sequence of writes, extensions and resets the buffer holds the concatenation of the successfully written strings since the last reset, terminated, and its bookkeeping never exceeds its allocation; a short write leaves the previous contents intact.", "quantifier": "for every sequence of writes, extensions and resets", "why_tests_cant": "All histories and lengths.", "anchors": ["src/rtpp_sbuf.c:rtpp_sbuf_write", "src/rtpp_sbuf.c:rtpp_sbuf_extend", "src/rtpp_sbuf.c:rtpp_sbuf_reset"]}
{"id": "C37", "title": "Internet checksum equals RFC 1071", "statement": "The checksum computed over any byte sequence equals the one's complement of the one's-complement sum of its 16-bit words (last byte padded), so that inserting it makes the packet verify; accumulation never overflows for any datagram.", "quantifier": "for every byte string up to the maximum datagram size", "why_tests_cant": "All byte strings.", "anchors": ["src/rtpp_network.c:rtpp_in_cksum", "src/rtpp_ip_chksum.h"]}
{"id": "C38", "title": "DTMF digits are reported once per key press", "statement": "For every stream of telephone-event packets a report is sent exactly when a packet completes an event among the four latest, with the key, volume and longest duration; no event is reported twice unless four others were begun in between; an event of at least two packets is reported exactly once; nothing outside the table of digits, the history or the buffers is accessed; the subcommand sets payload type and action as asked or changes nothing.", "quantifier": "for every sequence of packets with arbitrary bytes and every list of subcommand arguments", "why_tests_cant": "Retransmissions, reorderings and arbitrary event codes form an unbounded input space.", "anchors": ["modules/catch_dtmf/rtpp_catch_dtmf.c:rtpp_catch_dtmf_worker", "modules/catch_dtmf/rtpp_catch_dtmf.c:rtp_dtmf_event"]}
{"id": "C39", "title": "RTCP report parser is memory safe, accepts exactly the compound packets and reports the fields of RFC 3550", "statement": "Turning any datagram into a JSON report never reads outside the packet, never overflows the text buffer and terminates, whatever the allocations do. When memory lasts it succeeds exactly when the datagram is a non-empty sequence of whole RTCP packets of which the first has version 2 and every sender or receiver report has room for the blocks it announces. The text sent to the collector holds, in order, each report as a JSON object with the SSRC, the sender information and, per block, the source, the fraction lost, the cumulative number of packets lost as the signed 24-bit quantity of RFC 3550, the highest sequence number, the jitter and both delays.", "quantifier": "for every byte string of at most 65535 bytes, every size of the text buffer, every pattern of allocation failures", "why_tests_cant": "All byte strings, lengths announced inside the packet are attacker controlled.", "anchors": ["modules/acct_rtcp_hep/rtcp2json.c:rtcp2json", "modules/acct_rtcp_hep/rtcp.h:RTCP_GET_LOST"]}
{"id": "C40", "title": "Unique identifiers", "statement": "Identifiers handed to objects are pairwise distinct under any number of concurrent requests until 2^64 have been issued.", "quantifier": "for every number of threads and every interleaving", "why_tests_cant": "All interleavings.", "anchors": ["src/rtpp_genuid.c:rtpp_genuid_gen", "src/rtpp_genuid.c:rtpp_genuid_ctor"]}
{"id": "C41", "title": "Local listening addresses are shared, not duplicated", "statement": "Requesting a local address for the same host, family and label always returns the same address object, different ones return different objects; an address object once returned stays valid; a label designates at most one host.", "quantifier": "for every sequence of requests", "why_tests_cant": "All histories of requests.", "anchors": ["src/rtpp_bindaddrs.c:addr2bindaddr_i", "src/rtpp_bindaddrs.c:host2bindaddr", "src/rtpp_bindaddrs.c:label2bindaddr", "src/rtpp_bindaddrs.c:bindaddr4af"]}
{"id": "C42", "title": "Recursive filter tracks its extremes", "statement": "After any non-empty sequence of samples the exponential filter's reported minimum and maximum are the least and greatest filtered values observed since initialisation (when peak detection is on) and the filter output always lies between the extremes of its inputs.", "quantifier": "for every sequence of samples and coefficients in [0,1]", "why_tests_cant": "All sequences.", "anchors": ["src/rtpp_math.c:recfilter_apply", "src/rtpp_math.c:recfilter_apply_int", "src/rtpp_math.c:recfilter_init"]}
{"id": "C43", "title": "Time conversion keeps times normalised", "statement": "Converting a time in seconds to a seconds/fraction pair always yields a fraction below one second and differs from the original by less than one unit of the fraction.", "quantifier": "for every non-negative time value", "why_tests_cant": "The failing values are those that round up to a whole second.", "anchors": ["src/rtpp_time.c:dtime2mtimespec", "src/rtpp_time.c:dtime2timeval"]}
{"id": "C44", "title": "QUERY and statistics counters are consistent", "statement": "At any time the number of sessions created equals the number destroyed plus those alive; each accepted command is counted in exactly one of succeeded or failed; each received media packet is counted in at most one of relayed or dropped.", "quantifier": "for every history of commands and packets", "why_tests_cant": "Consistency of counters over all histories.", "anchors": ["src/rtpp_stats.c", "src/rtpp_session.c:rtpp_session_dtor", "src/rtpp_command_async.c:process_commands", "src/rtpp_command_reply.c:rtpc_reply_deliver", "src/rtpp_pcount.c:rtpp_pcount_reg_drop"]}
{"id": "C45", "title": "Address and label extraction", "statement": "An argument of the form addr/label splits into its parts, every malformed one is rejected, and the parts never alias bytes outside the argument.", "quantifier": "for every byte string", "why_tests_cant": "All byte strings.", "anchors": ["src/rtpp_network.c:extractaddr", "src/rtpp_network.c:extractlabel", "src/rtpp_bindargs.c:bindarg_parse"]}
{"id": "C46", "title": "Timeout notification makes a bounded number of attempts", "statement": "Each notification is served in the order of the queue with at most four connection attempts and at most four sends, each of the tag and a newline over a connection to its own target; a success ends it, so that it is delivered at most once; it is given up only when the connection cannot be made or four sends fail. Failures of one target leave the connections of the others alone, no descriptor is leaked or closed twice, and no failure terminates the server.", "quantifier": "for every set of targets, every queue of notifications and every pattern of answers of socket, bind, connect and send", "why_tests_cant": "All failure patterns.", "anchors": ["src/rtpp_notify.c:do_notification", "src/rtpp_notify.c:reconnect_handler", "src/rtpp_notify.c:rtpp_notify_queue_run"]}
{"id": "C47", "title": "Recorded conversation is reassembled in sequence order without duplicates", "statement": "Loading a recording yields for each SSRC the list of its packets in RTP order with duplicates removed, no packet is lost.", "quantifier": "for every sequence of recorded packets", "why_tests_cant": "All arrival orders.", "anchors": ["extractaudio/rtpp_loader.c:load_adhoc", "extractaudio/rtpp_loader.c:load_pcap", "extractaudio/extractaudio.c:channel_insert"]}
{"id": "C48", "title": "Audio decoding stays inside its buffers and keeps the time line", "statement": "Decoding any payload with any codec or generating silence never reads past the payload and never writes past the half-second output buffer; the samples of a packet are given out at the place its time stamp says, and the end is reported after finitely many samples.", "quantifier": "for every payload length, every gap length and every sequence of packets", "why_tests_cant": "All lengths.", "anchors": ["extractaudio/decoder.c:decode_frame", "extractaudio/decoder.c:generate_silence", "extractaudio/decoder.c:decoder_get"]}
{"id": "C49", "title": "G.711 companding tables are consistent", "statement": "Encoding a decoded G.711 code gives back the same code (up to the two encodings of zero in mu-law), decoding is monotone within each sign, and table lookups never leave the table.", "quantifier": "for every 8-bit code and every 16-bit sample", "why_tests_cant": "The tables have 24k entries written out by hand; the property is about all of them.", "anchors": ["src/g711.h:_u2sl", "src/g711.h:_sl2u", "src/g711.h:_A2sl", "src/g711.h:_sl2A"]}
{"id": "C50", "title": "Control connection table stays consistent", "statement": "Accepting and closing control connections in any order keeps the polled descriptors and the connection records aligned, never exceeds the table, never drops a live connection, and each broken connection is removed exactly once.", "quantifier": "for every sequence of accept, hang-up and command events", "why_tests_cant": "All event orders.", "anchors": ["src/rtpp_command_async.c:rtpp_cmd_acceptor_run", "src/rtpp_command_async.c:rtpp_cmd_queue_run", "src/rtpp_command_async.c:init_pollset"]}
{"id": "C51", "title": "In-process packet port drops oldest under pressure and preserves order", "statement": "Packets pushed into an in-process packet port are delivered in order; under overload only the oldest are dropped; port numbers handed out are even, non-zero and not reused before the number space is exhausted.", "quantifier": "for every sequence of pushes, flushes and drains", "why_tests_cant": "All histories.", "anchors": ["src/rtpp_packetport.c:rtpp_packetport_push", "src/rtpp_packetport.c:rtpp_packetport_nport_alloc", "src/rtpp_packetport.c:rtpp_packetport_drain_out"]}
{"id": "C52", "title": "Offer/answer command options are parsed deterministically", "statement": "Every modifier string of an offer/answer command is either rejected with a definite error or yields option values that are exactly those denoted by its letters, the numeric arguments in range, the remainder consumed entirely, and nothing is read past the end of the string.", "quantifier": "for every modifier string", "why_tests_cant": "All strings.", "anchors": ["src/commands/rpcpv1_ul.c:rtpp_command_ul_opts_parse", "src/commands/rpcpv1_ul.c:rtpp_command_ul_opts_parse_inner"]}
{"id": "C53", "title": "Registry of weakly held objects", "statement": "Looking up an identifier in the registry returns the registered object with an additional reference iff it is registered; registering and unregistering fire the first/last callbacks exactly at the transitions of the registry between empty and non-empty; purging releases every object exactly once.", "quantifier": "for every sequence of operations", "why_tests_cant": "All histories.", "anchors": ["src/rtpp_weakref.c:rtpp_weakref_reg", "src/rtpp_weakref.c:rtpp_weakref_unreg", "src/rtpp_weakref.c:rtpp_wrt_get_by_idx", "src/rtpp_weakref.c:rtpp_weakref_move", "src/rtpp_weakref.c:rtpp_wrt_purge"]}
{"id": "C54", "title": "Drop location register keeps first-come distinct reasons", "statement": "Every dropped packet is attributed to exactly one registered drop location, locations never exceed the fixed table, a location is registered at most once even under concurrent registration.", "quantifier": "for every number of threads and every interleaving", "why_tests_cant": "All interleavings.", "anchors": ["src/rtpp_pcount.c:rtpp_pcount_reg_drop", "src/rtpp_pcount.c:rtpp_pcount_get_stats"]}
{"id": "C55", "title": "Rewriting sequence number or timestamp touches nothing else", "statement": "When the proxy rewrites the sequence number or timestamp of an outgoing packet, the packet keeps its length and every other byte, still parses, and parsing it yields the old header with exactly that field changed, so the in-memory header never disagrees with the bytes on the wire.", "quantifier": "for every accepted packet, every 16-bit sequence number and every 32-bit timestamp", "why_tests_cant": "All packets times all values; header layouts with CSRC lists, extensions and padding multiply.", "anchors": ["src/rtp_packet.c:rtp_packet_set_seq", "src/rtp_packet.c:rtp_packet_set_ts", "src/rtp.c:rtp_packet_parse_raw"]}
{"id": "C56", "title": "The lock-free ring is a bounded FIFO", "statement": "Whatever the interleaving of the one producer and of any number of consumers, the items pushed into the lock-free ring are handed out in the order of pushing, each exactly once, to some consumer; never more than the capacity are inside; a consumer is told the ring is empty only when it is; a push takes less than it was given only when it filled the ring; no thread waits for another.", "quantifier": "all capacities, all numbers of consumer threads, all batches, all interleavings of single memory accesses", "why_tests_cant": "Interleavings of lock-free index updates are unbounded and the bad ones are rare; a stress test samples a few of them on one memory model.", "anchors": ["external/RTQueue/src/SPMCQueue.c:230-326", "external/RTQueue/src/SPMCQueue.c:137-159"]}
{"id": "C57", "title": "A packet processor's object outlives its registration and the packets being handled with it", "statement": "While a processor is registered with a stream, or a packet is being handled with a table that lists it, the object behind the processor is not freed; once it is unregistered everywhere and the packets in flight are done, exactly the references held by its owners remain.", "quantifier": "for every interleaving of registration, unregistration, cloning and destruction of processor tables with packets being handled in other threads", "why_tests_cant": "The window between a packet fetching the table and the processor being unregistered cannot be hit reliably, and the number of interleavings is unbounded.", "anchors": ["src/advanced/pproc_manager.c:rtpp_pproc_mgr_register", "src/advanced/pproc_manager.c:rtpp_pproc_mgr_unregister", "src/advanced/pproc_manager.c:rtpp_pproc_mgr_clone", "src/advanced/pproc_manager.c:rtpp_pproc_mgr_handleat", "src/rtpp_types.h:RTPP_OBJ_BORROW"]}
{"id": "C58", "title": "Every command is answered exactly once", "statement": "Every command message that reaches the dispatcher is answered with exactly one reply, whatever fails on the way, and the option objects allocated for it are released exactly once; a command for a session that does not exist is answered with an error.", "quantifier": "for every command, every outcome of every allocation, lookup, listener and subcommand", "why_tests_cant": "The number of failure combinations is far beyond what a test can force, and most need memory exhaustion.", "anchors": ["src/rtpp_command.c:handle_command", "src/commands/rpcpv1_ul.c:rtpp_command_ul_handle_impl", "src/commands/rpcpv1_copy.c:handle_copy", "src/commands/rpcpv1_play.c", "src/commands/rpcpv1_query.c"]}
{"id": "C59", "title": "A session that cannot be set up leaves nothing behind", "statement": "A U command for a new session either succeeds and leaves exactly one session, registered in both the session table and the session registry, or is answered with an error and leaves no session and no reference.", "quantifier": "for every failure point of the set-up", "why_tests_cant": "Failure of the individual steps cannot be forced from outside.", "anchors": ["src/commands/rpcpv1_ul.c:rtpp_command_ul_handle_impl", "src/commands/rpcpv1_ul.c:handle_nomem"]}
{"id": "C60", "title": "Listening addresses are set up consistently or refused", "statement": "Whatever listening addresses are given on the command line, start-up either refuses them with a message or ends with a primary address; a second primary address exists exactly in bridging mode, where the first belongs to the internal and the second to the external host; a label designates at most one address. The final consistency check never fails.", "quantifier": "for every list of address arguments and every outcome of name resolution", "why_tests_cant": "The order and combination of families, slashes, labels and advertised addresses is unbounded.", "anchors": ["src/rtpp_bindargs.c:init_bindaddrs", "src/rtpp_bindargs.c:bindarg_parse", "src/rtpp_bindaddrs.c:host2bindaddr"]}
{"id": "C61", "title": "Recordings keep apart and stay in their directory", "statement": "The name of a recording fits its buffer, lies directly in the configured directory, and is different for different calls, tags, directions and kinds of recording.", "quantifier": "for every call-id, tag, directory and given name", "why_tests_cant": "Names come from the signalling; the colliding or escaping ones are never used in tests.", "anchors": ["src/rtpp_record.c:rtpp_record_ctor", "src/rtpp_session.c:rtpp_session_ctor"]}
{"id": "C62", "title": "Recordings start, stop and end consistently", "statement": "Whatever sequence of requests to copy, record and stop, with whatever failures: no assertion fails, each recorder is referenced exactly by the streams that write to it and is closed when the last one stops or the session ends; a success means that the stream is recorded where asked; a stop concerns its direction only; packets being recorded at the same time do no harm.", "quantifier": "for every sequence of requests and failures, and every interleaving with packets", "why_tests_cant": "Sequences of starts, failures and stops of the two directions, and the race with the packet threads, are too many to try.", "anchors": ["src/commands/rpcpv1_copy.c:handle_copy", "src/commands/rpcpv1_norecord.c:handle_norecord", "src/rtpp_stream.c:rtpp_stream_dtor", "src/rtpp_proc_async.c:record_packet"]}
{"id": "C63", "title": "Extracted audio is the mix of the channels on one time line", "statement": "The file extractaudio writes has, for every 1/8000 s from the first packet of the recording to the end of the last channel, the mean of both sides (or both, in stereo); a channel is heard from the time of its first packet to its end, no other is, and mixing never leaves sixteen bits.", "quantifier": "for all numbers of channels, start times, lengths and samples", "why_tests_cant": "The set of active channels changes while the list is walked; all interleavings of starts and ends.", "anchors": ["extractaudio/extractaudio.c:main", "extractaudio/eaud_substreams.c:eaud_ss_syncactive", "extractaudio/extractaudio.c:channel_remove"]}
{"id": "C64", "title": "Names of notification targets select what was configured", "statement": "A name permitted at start (-n) and given in a command selects the target configured under that name: the first one with that full name (unix: may be omitted), or, for tcp:%%CC_SELF%%:port, the host the command came from at that port, the same target for the same host and port and different targets otherwise. A name not permitted selects nothing. A target that has been selected never changes, and no name or history can abort the server or make it read outside a string.", "quantifier": "All byte strings as names, all resolvers, all histories of options and commands with any controller and local addresses, all answers of the allocator.", "why_tests_cant": "Names and histories are unbounded; the interplay of prefixes, wildcards and automatic entries that share one table of 64 can only be settled for all orders by an invariant.", "anchors": ["src/rtpp_tnotify_set.c:rtpp_tnotify_set_append", "src/rtpp_tnotify_set.c:rtpp_tnotify_set_lookup", "src/rtpp_tnotify_set.c:get_tp4wp", "src/rtpp_tnotify_set.c:parse_timeout_sock"]}
{"id": "C65", "title": "A prompt is played to a stream from PLAY to its end or NOPLAY", "statement": "A PLAY that succeeds leaves exactly one player on the stream, active if the party can be sent to and waiting otherwise. After NOPLAY, or when the prompt ends, nothing is played, the stream has no player and the media of the opposite party is no longer held back; a destroyed stream leaves no player. The player thread neither aborts, nor blocks for ever, nor sleeps while there is an active player.", "quantifier": "All interleavings of commands, address changes, deletions and the player thread, for any number of streams and prompts.", "why_tests_cant": "Four threads change the tables, the stream and the set of processors under different mutexes; the order of their steps cannot be enumerated.", "anchors": ["src/rtpp_stream.c:rtpp_stream_handle_play", "src/rtpp_stream.c:rtpp_stream_handle_noplay", "src/rtpp_stream.c:rtpp_stream_finish_playback", "src/rtpp_proc_servers.c:rtpp_proc_servers_run", "src/rtpp_proc_servers.c:rtpp_proc_servers_plr_start"]}
{"id": "C66", "title": "Copying a session hands each packet to the target once and ends with it", "statement": "After a copy of one session to another, a packet that gets past the processors of the source is handled in the source exactly as before and once more in the target, where it leaves through the corresponding stream; what the parties of the target send themselves is neither relayed nor copied. Each reference to the packet is given up exactly once. A command that fails leaves nothing behind, and destroying the target leaves every stream as if the copies had never been made.", "quantifier": "All sessions, streams, processors, packets and sequences of copies, registrations and deletions.", "why_tests_cant": "Copies chain through any number of sessions and every failure point of eight registrations matters; the stack use and what is left behind are not visible in a test.", "anchors": ["src/commands/rpcpv1_ul_subc_copy.c:rtpp_command_ul_copy_as_subc", "src/commands/rpcpv1_ul_subc_copy.c:ul_subc_copy_enqueue", "src/commands/rpcpv1_ul_subc_copy.c:rtpp_subcommand_ul_copy_uninstall", "src/advanced/pproc_manager.c:rtpp_pproc_mgr_handleat", "src/advanced/pproc_manager.c:rtpp_pproc_mgr_unregister"]}
{"id": "C67", "title": "A change to the set of sockets is noticed by the media threads", "statement": "After a session has got new sockets and the media threads have been asked to look, both media threads take the change over without any packet having to come in: no request is lost, whatever the timing. Requests are passed on at most a thousand times a second, and one that has to wait is passed on within a millisecond. When the server ends, the wake-up thread and the media threads end as well.", "quantifier": "All interleavings of any number of requests and changes with the wake-up thread, both media threads, the clock, spurious wake-ups and the shutdown.", "why_tests_cant": "A lost wake-up depends on the interleaving of three threads, a condition variable and a timer; it leaves a call without media until the next packet and cannot be provoked reliably.", "anchors": ["src/rtpp_proc_wakeup.c:rtpp_proc_wakeup_run", "src/rtpp_proc_wakeup.c:rtpp_proc_wakeup_nudge", "src/rtpp_proc_wakeup.c:rtpp_proc_wakeup_dtor", "src/rtpp_proc_async.c:rtpp_proc_async_run", "src/rtpp_proc.c:process_rtp_only"]}
{"id": "C68", "title": "ICE gates the media and settles its address", "statement": "Once ICE was started for a side, no datagram received by that side's RTP stream is relayed, recorded, analysed or handed to DTLS until the connectivity checks are completed, and no STUN message ever is; checks go to the agent of that side. The checks complete only on a STUN message actually received by that stream with every valid pair nominated, and then media goes to the source of that message. After that neither media from elsewhere nor signalling nor further checks move it until ICE is switched off, which restores the chains and normal latching and never aborts.", "quantifier": "All sequences of datagrams, injected packets, ICE and DTLS commands for both sides, work of the module threads, other processors coming and going, and all answers of the ICE library.", "why_tests_cant": "It is a statement about all interleavings of commands, packets and queued work; a single leaked packet or a stale queue entry at the wrong time breaks it, and an attacker chooses the timing.", "anchors": ["modules/ice_lite/rtpp_ice_lite.c:rtpp_ice_lite_enqueue", "modules/ice_lite/rtpp_ice_lite.c:ril_ice_taste", "modules/ice_lite/rtpp_ice_lite.c:rtpp_ice_lite_worker", "modules/ice_lite/rtpp_ice_lite.c:ice_lite_activate", "modules/ice_lite/rtpp_ice_lite.c:rtpp_ice_lite_handle_command", "src/rtpp_stream.c:rtpp_stream_rx", "src/rtpp_stream.c:_rtpp_stream_latch"]}
{"id": "C69", "title": "With DTLS on, media is neither sent in the clear nor accepted unverified", "statement": "While DTLS is on for the RTP stream of a side, the only media relayed to that side is what that connection's SRTP context produced after its handshake; this includes prompts, copies of other sessions and multiplexed RTCP. Datagrams that arrive there are not relayed, recorded or analysed before that very connection has verified them. A connection comes up only with a peer whose certificate has the fingerprint given by signalling; one that was given up never comes back, and its queued packets go nowhere. Switching off removes the module from both directions and never aborts.", "quantifier": "All sequences of datagrams, injected packets, ICE and DTLS commands for both sides, work of the module threads, and all answers of OpenSSL and libsrtp.", "why_tests_cant": "Confidentiality is a statement about every packet on every path; tests show encrypted packets on the paths they try, not the absence of a clear one on all others.", "anchors": ["modules/dtls_gw/rtpp_dtls_gw.c:rtpp_dtls_gw_enqueue", "modules/dtls_gw/rtpp_dtls_gw.c:rtpp_dtls_gw_worker", "modules/dtls_gw/rtpp_dtls_gw.c:rtpp_dtls_gw_handle_command", "modules/dtls_gw/rtpp_dtls_conn.c:rtpp_dtls_conn_dtls_recv", "modules/dtls_gw/rtpp_dtls_conn.c:rtpp_dtls_conn_setmode", "modules/dtls_gw/rtpp_dtls_conn.c:rtpp_dtls_conn_rtp_send", "src/advanced/pproc_manager.c:rtpp_pproc_mgr_handleat"]}
{"id": "C70", "title": "A packet in the processor chains is disposed of exactly once", "statement": "A packet that is handed to the chain of a stream ends in exactly one way: it is sent, queued for a module, kept by a processor, or released and counted as dropped; it is never released twice or forgotten, even when a processor passes it on to the chain of another stream. The nesting of chains stays within the limit of the code, and neither packets nor commands make the server abort.", "quantifier": "All chains and processors; all states of a session with the ICE and DTLS modules that any sequence of packets and commands leads to.", "why_tests_cant": "Double release and leak need particular combinations of modules, directions and missing addresses, and show up, if at all, as corruption much later.", "anchors": ["src/advanced/pproc_manager.c:rtpp_pproc_mgr_handleat", "src/advanced/pproc_manager.c:rtpp_pproc_mgr_unregister", "modules/ice_lite/rtpp_ice_lite.c:rtpp_ice_lite_rtcp_dmx", "modules/ice_lite/rtpp_ice_lite.c:rtpp_ice_lite_rtcp_mx", "src/rtpp_proc_async.c:relay_packet"]}
{"id": "C71", "title": "What is handed over for sending is sent from that socket, in order, and released once", "statement": "A packet or reply handed to the asynchronous sender goes out from the socket it was handed to (never from a different socket that has been given the same descriptor number), to the address that held at the time of the hand-over, with its own contents and in the order of the hand-overs; small packets twice if so configured. An attempt is repeated after temporary errors, up to three times, and no message is attempted after its copies were accepted or another error occurred. Packets and sockets are not released before the last attempt and are released after it; everything handed over before shutdown is dealt with.", "quantifier": "All interleavings of hand-overs, of the owners of sockets, packets and addresses, of the sending thread and of shutdown; all results of sendto; all contents.", "why_tests_cant": "The reuse of a descriptor number by another call while packets wait in the queue, and the moment of shutdown relative to a batch, depend on timing that tests do not control.", "anchors": ["src/rtpp_netio_async.c:rtpp_anetio_sthread", "src/rtpp_netio_async.c:rtpp_anetio_send_pkt_na", "src/rtpp_netio_async.c:rtpp_netio_async_destroy", "src/rtpp_wi_pkt.c:rtpp_wi_malloc_pkt_na", "src/rtpp_wi_pkt.c:rtpp_wi_pkt_free", "src/rtpp_socket.c:rtpp_socket_dtor"]}
{"id": "C72", "title": "The accounting file has one whole line for each session, under the right names", "statement": "Every file that the accounting module makes begins with the line of the names, written once whatever the number of processes that share the file; after it come only whole rows, one for each record that was handed to the module, in order, each written once and in one file, also while the file is renamed, removed or made anew by others. Under each name a reader finds the value of that session. The processes never block each other for ever, a row takes a bounded number of calls, and no descriptor of another part of the program is closed, locked or written to.", "quantifier": "All numbers of processes, all interleavings of their system calls with those of programs that rename, remove or make files, all results of the calls, all records.", "why_tests_cant": "Two processes that find the same empty file, a rotation between the look-up of the name and the lock, or a failing lock need a timing that tests do not produce; the columns are checked by tests for a few records only.", "anchors": ["modules/acct_csv/rtpp_acct_csv.c:rtpp_acct_csv_open", "modules/acct_csv/rtpp_acct_csv.c:rtpp_acct_csv_do", "modules/acct_csv/rtpp_acct_csv.c:rtpp_acct_csv_lockf", "modules/acct_csv/rtpp_acct_csv.c:rtpp_acct_csv_unlockf", "modules/acct_csv/rtpp_acct_csv.c:rtpp_acct_csv_dtor"]}
{"id": "C73", "title": "Accounting modules get each session once, and are shut down without losing any", "statement": "The end of every session is handed to each module that asks for it exactly once, in order, unless a message in the log tells that it was left out, which happens only when 128 records are waiting or there is no memory; the same for the RTCP packets. A module is called with a record only while the record is there and before its destructor; records are freed once. At shutdown each module gets all that is waiting, its destructor is called once after that, nothing is left allocated, and the shutdown always gets to its end. A command that names a module by its numbers finds that module; a module that cannot be loaded makes the configuration be refused.", "quantifier": "All numbers of modules, whatever each asks for; all numbers of sessions and packets; all interleavings of the threads that end sessions, handle packets, run the modules and shut down; all failures of allocation.", "why_tests_cant": "A session that ends while the manager is being released, a full queue or a failing allocation at the moment of the hand-over need a timing that tests do not produce; a missing record is noticed by nobody.", "anchors": ["src/rtpp_modman.c:rtpp_modman_dtor", "src/rtpp_modman.c:rtpp_modman_do_acct", "src/rtpp_modman.c:rtpp_modman_get_next_id", "src/rtpp_modman.c:rtpp_modman_get_ul_subc_h", "src/rtpp_module_if.c:rtpp_mif_kaput", "src/rtpp_module_if.c:rtpp_mif_run_acct", "src/rtpp_module_if.c:rtpp_mif_do_acct", "src/rtpp_module_if.c:acct_rtcp_enqueue", "src/rtpp_cfile.c:parse_modules"]}
{"id": "C74", "title": "Log messages reach syslog once, in order, whole; lines on stderr are not mixed", "statement": "While threads log concurrently through the pool of 64 work items, what has been passed to syslog() is exactly the sequence of the messages handed in, each once, in the order of being handed in, with its own priority and with text = prefix, message and suffix cut at 2047 bytes; a message is dropped only when all 64 items are out, and the drop counter has their number; the exit handler returns only after everything handed in before it has been passed to syslog, and while it waits for an item some thread can go on; the queue thread does at most three steps per message. On stderr the three parts of each message are adjacent and the messages are in ticket order, with tickets wrapping at 2^32.", "quantifier": "for all numbers of threads, all messages and all interleavings of the threads, the queue thread and the exit handler", "why_tests_cant": "depends on interleavings over an intrusive pool shared by all threads, on ticket wrap-around, and on the moment of process exit", "anchors": ["src/rtpp_syslog_async.c:83-290", "src/rtpp_log_stand.c:227-246", "src/rtpp_log_stand.c:250-288"]}
{"id": "C75", "title": "Statistics and the command that shows them", "statement": "Every counter holds the exact sum of what all threads added to it; each reply to the statistics command shows, in the order asked for, values the statistics had while the command was being answered; the packet rate is the packets received between the last two samples over the time between them; an unknown name is answered with an error and changes nothing; no request crashes the server.", "quantifier": "all interleavings of updates by any number of threads, samples of the rate and statistics requests; all names, amounts and hash tables", "why_tests_cant": "Lost updates and values torn between two moments depend on the interleaving, and a reply that just fills the buffer on the exact lengths of cookie and counters.", "anchors": ["src/rtpp_stats.c", "src/commands/rpcpv1_stats.c", "src/main.c"]}
{"id": "C76", "title": "Subcommands of a session: order, timers, types of service", "statement": "Subcommands are executed in the order given, each addressing the leg the command and the look-ups before it select; they stop at the first that fails and the reply shows the result of each that was run; a look-up given as a subcommand does what it does as a command; the time a leg may be silent is what the last successful 'S ttl=' for it said, otherwise the configured one, and is never exceeded; every socket of a leg sends with the type of service last set for it; 'S' is accepted exactly with a known parameter and a positive number and means that number.", "quantifier": "all sessions, lists of subcommands, histories of commands, packets and ticks, shared and separate timers, outcomes of system calls, arguments", "why_tests_cant": "Direction, order, session state and timing of packets combine without bound; a race between a packet and a command needs one exact interleaving.", "anchors": ["src/commands/rpcpv1_ul_subc.c", "src/commands/rpcpv1_ul_subc_set.c", "src/commands/rpcpv1_ul.c", "src/commands/rpcpv1_query.c", "src/rtpp_ttl.c"]}
{"id": "C77", "title": "The command Q shows what happened to the session", "statement": "A query answers with the counters asked for, in the order asked, labelled if 'v' is given, or with the five basic ones if none is named: the timer, the packets received by the stream and by the other one, the longest gap between packets, the packets relayed and dropped, the counts of the analysis and the jitter; each value is the one that the events up to a moment during the command imply, and a counter named twice gets one answer (but for the timer); unknown modifiers, unknown names and answers that do not fit give the errors 19, 62 and 26.", "quantifier": "all histories of packets, analyses, relays, drops and timer changes, all interleavings of these with the reads of the command, all lists of names, modifiers, reply prefixes and subcommand results", "why_tests_cant": "The values are read one after another while media threads change them; wrong values need one exact interleaving or long histories.", "anchors": ["src/commands/rpcpv1_query.c", "src/rtpp_pcnt_strm.c", "src/rtpp_pcount.c", "src/rtpp_analyzer.c", "src/rtp_analyze.c", "src/rtpp_pipe.c"]}
{"id": "C78", "title": "Control sockets are what -s says, are opened only with owner and mode in place, and their files follow the life of the program", "statement": "For every argument of -s: a word of the manual followed by anything is a socket of that kind with that name, anything else is the path of a local socket. A network socket is bound to the host before the last colon and the port after it, 22222 if there is none; names are not looked up if --no_resolve is given or the host is written as an address. For every interleaving of the system calls of any number of instances, with any call failing: whoever can connect through a socket file finds it with the owner and mode asked for by -u and -w; an instance that has come up is reached through each of its local sockets; one that ends in good order leaves no file. Partial: instances that share a path agree about user, group and mode; nobody else makes calls on the path; relative names only if the working directory is kept.", "quantifier": "all arguments of -s; all interleavings of start, system calls, end and death of any number of instances; all outcomes of the calls", "why_tests_cant": "Tests start one instance and wait until it answers; they do not look at the file between bind and listen, do not run instances against each other, and do not make the calls fail.", "anchors": ["src/rtpp_controlfd.c:86-134", "src/rtpp_controlfd.c:137-224", "src/rtpp_controlfd.c:227-289", "src/rtpp_controlfd.c:314-371", "src/rtpp_network.c:223-256", "src/rtpp_network.c:377-426", "src/main.c:237-249"]}
{"id": "C79", "title": "Commands are taken only with the rights asked for, the exit status tells whether the daemon came up, and the program ends when it should", "statement": "For every configuration and every run of the start-up, with any action failing and the program or its parent killed at any moment: while commands are taken, user and group of the process are those of -u, control sockets are there and modules have been started. The program that was started ends with 0 only if the daemon has come up and with anything else only if it died without coming up, and it never waits for ever. A superuser's program with a UDP control socket, without -u and -F, makes no socket and takes no command. -u reads user:group, user and :group and refuses unknown names; -u and -w commute. The main loop is left exactly when a signal to end has been received, or SIGHUP and no session is standing; after SIGHUP no new session is granted but the one in hand.", "quantifier": "all options; all runs of start-up actions, failures and deaths; all interleavings of signals, commands and looks of the main loop", "why_tests_cant": "Tests start the program as an ordinary user in the foreground and look at it once it answers; they do not make single actions fail, kill the parent, or send signals between two actions.", "anchors": ["src/main.c:208-249", "src/main.c:624-663", "src/main.c:765-778", "src/main.c:987-1250", "src/rtpp_util.c:100-118", "src/rtpp_util.c:153-281", "src/commands/rpcpv1_ul.c:798-838"]}
{"id": "C80", "title": "U and L answer with what is listened on and put in force what was said last", "statement": "The port and local address in the reply to a granted U or L are those the RTP socket of that side is bound to, RTCP being on the next port; a port once given stays bound and is answered again until the same party asks for another one; a command with N is answered with the listener made for it on the local address it names. A command of one party never moves the port of the other, and a refused command leaves the session as it was. What the latest granted command of each party said is in force and nothing else: asymmetric or not, codecs, packet size, hold, the destination of media and RTCP until a packet arrives, the handler for time-outs. The reply can be read in one way only: port, then the address unless bound to every address, then 6 exactly if it is not IPv4.", "quantifier": "For every sequence of U and L by both parties with any modifiers, any outcome of creating listeners, resolving names and allocating, any packets in between, and any port, address and advertised address.", "why_tests_cant": "Port and address are kept in several places (stream, socket, options, reply) that are updated at different points of a long function with early exits; tests look at the reply of the usual offer and answer, hardly at what is left after a failed change of port, at long sequences of re-offers by both parties, or at whether the port answered is the one bound.", "anchors": ["src/commands/rpcpv1_ul.c:131-179", "src/commands/rpcpv1_ul.c:640-994", "src/rtpp_session.c:93-250", "src/rtpp_command_reply.c:181-206", "src/rtpp_stream.c:872-939", "src/rtpp_sessinfo.c:210-313"]}
{"id": "C81", "title": "RTCP reports reach the collector whole, each once and with the data of its own packet", "statement": "For every sequence of packets and every failure in between: each compound RTCP packet of a session is exported as one HEP datagram in which a collector reads the addresses, ports and time of that packet, the call it belongs to, and its reports, with nothing left over from other packets; packets that are not RTCP give none; nothing is written outside the block that is sent. Reports go only to the collector's socket; it is opened anew after more than 50 failures, not before. The section of the configuration file puts in force exactly what its last valid lines say and refuses the rest.", "quantifier": "all configurations, all sequences of packets with any contents and lengths, all outcomes of allocation, sending, resolving and connecting", "why_tests_cant": "Lengths are kept in 16 bits over a block that is reallocated field by field and reused; tests send one small report to a collector that answers and never fail an allocation, a name or 51 sends.", "anchors": ["modules/acct_rtcp_hep/rtpp_acct_rtcp_hep.c", "modules/acct_rtcp_hep/rtpp_arh_conf.c", "external/hepconnector/core_hep.c", "src/rtpp_cfile.c:245-283"]}
{"id": "C82", "title": "What is told of an ended session is what happened in it, and the statistics agree with the records", "statement": "A packet is taken to have come to the address and at the time the system tells, else to the address of the stream and at the time of the look. For each stream the number of packets, the first, the latest and the longest pause are kept exactly. Each session that has ended gives one record, with the times of its making and end and a true account of every stream that contains all packets from before the end began, also if packets still come while it is being taken down. While none is being taken down, the numbers of sessions ended, completed, without media, with one-way media (for RTP and RTCP) and the total duration are exactly those of the records; at any moment no session is counted both as silent and as one-way, nor if it was never completed.", "quantifier": "all sequences of control messages and arrival times; all interleavings of creation, completion, packets and actions of destructors of any number of sessions", "why_tests_cant": "Packets that arrive while a session is being destroyed, and counters read between two actions of a destructor, need timing that tests cannot arrange; the equalities hold over whole histories.", "anchors": ["src/rtpp_network_io.c:40-102", "src/rtpp_socket.c:299-358", "src/rtpp_pcnt_strm.c:108-132", "src/rtpp_pipe.c:180-239", "src/rtpp_session.c:280-335"]}
{"id": "C83", "title": "The command line means what it says, whatever the order of its options", "statement": "The proxy starts exactly if every option exists and has an allowed argument, nothing is left over and the options fit together (-S with -r, standard input with -f, room for a pair of ports, at most 16 listening addresses, no remote control of a superuser without -F or -u). It then uses, for each setting, what the last option about it said, or the documented value if there was none; all listening addresses, control sockets, notification targets and modules in the order given; clients in bridge mode are taken to be asymmetric unless --bridge_symmetric is given. Options about different things can be given in any order. A numeral is taken for the number it denotes. The exit code is 0 only if a version or the like was asked for.", "quantifier": "all lists of options with arbitrary byte strings as arguments, all answers of the rest of the program", "why_tests_cant": "The lines that can be written are endless, with any repetition and order; tests try a few.", "anchors": ["src/main.c:331-807", "src/rtpp_log_stand.c:172-193", "src/rtpp_log_stand.c:342-383", "src/rtpp_util.c:363-400"]}
{"id": "C84", "title": "Listening in: recordings, copies and caught digits against what the peer hears", "statement": "For every history of commands, players, copies and packets on a stream: a packet of the party is recorded exactly when a recording is running and nothing holds the party back, is sent on exactly when nothing holds it back, the peer has an address and it is not a digit to be hidden, and is caught and copied exactly where asked for, each once. Every packet sent on during a recording is in the recording, in the same order. Recordings, copies and the catching of digits change nothing in what the peer is sent.", "quantifier": "all histories of events on a stream (recordings, copies in both directions, catching of digits with and without hiding, players, addresses, packets of the party, injected packets), all packets", "why_tests_cant": "The outcome depends on the order in which processors of the same stage were registered over the whole life of the session; tests try a few orders only.", "anchors": ["src/rtpp_proc_async.c:268-313", "modules/catch_dtmf/rtpp_catch_dtmf.c:297-433", "src/commands/rpcpv1_ul_subc_copy.c:81-110", "src/rtpp_stream.c:481-628", "src/advanced/pproc_manager.c:135-298"]}
{"id": "C85", "title": "Keys, roles and fingerprints of DTLS-SRTP", "statement": "A DTLS connection that has come up is with the peer whose certificate the latest command named; what it sends is protected with the client's or the server's part of the exported keying material according to its role, what it receives is opened with the other part, with the cipher, the key and salt lengths and the tags of the profile agreed upon, and only the source named is taken. Two ends always open what the other sends. The peer named is let in. Key buffers are never overrun and no check aborts. Of the fingerprint algorithms SHA-256 is taken in letters of either case and no other.", "quantifier": "all histories of subcommands and handshake datagrams, all keying material, certificates, previous stack contents, profiles offered and arguments", "why_tests_cant": "The keying material, the certificate and the contents of the stack are arbitrary bytes, and commands and datagrams come in any order; tests see one handshake.", "anchors": ["modules/dtls_gw/rtpp_dtls_conn.c:788-868", "modules/dtls_gw/rtpp_dtls_conn.c:277-465", "modules/dtls_gw/rtpp_dtls_util.c:34-60", "modules/dtls_gw/rtpp_dtls_gw.c:288-362"]}
{"id": "C86", "title": "The address of a party is read whole, whoever sets it meanwhile", "statement": "Any number of threads set, read and compare the address of a party and ask whether there is one. Whatever is read was set as a whole and is what was set last; comparing answers for the address set last; there is no address exactly until one is set. Nothing outside the memory of the object or of the caller is touched. Nobody keeps the mutex, and a method that is let through answers as the address demands.", "quantifier": "all interleavings of all threads down to single bytes, all addresses of up to 128 bytes", "why_tests_cant": "Torn reads show up only in interleavings that a test cannot bring about.", "anchors": ["src/rtpp_netaddr.c:100-112", "src/rtpp_netaddr.c:122-152", "src/rtpp_netaddr.c:197-210"]}
{"id": "C87", "title": "Remote ICE candidates are taken as written, and the answer tells the credentials", "statement": "A candidate line for UDP with numbers in range is accepted whatever candidates are known, and adds one candidate, at the end, with exactly the foundation, component, priority, address, port, type, related address and related port written in it, unless a candidate for that component at that address is known, in which case nothing changes. After any sequence of subcommands no two candidates are for the same component at the same address, and known candidates are neither changed nor lost. A line is refused exactly for fewer than eight words, a missing typ, another transport, or an address that is not numeric. The answer to the subcommand S is the username fragment, the password and every local candidate, quoted, in order; nothing is written or read outside of the response.", "quantifier": "All words of a candidate line, all lists of known candidates, all sequences of subcommands with any failures of allocation, any inet_pton; all fragments, passwords and lists of pieces of local candidates.", "why_tests_cant": "Tests send a few lines as browsers write them; they do not try related addresses in another order, numbers beyond the fields, sequences with failures of allocation, or credentials so long that the response fills up.", "anchors": ["libre/rtpp_re_icesdp.c:rtpp_cand_decode", "modules/ice_lite/rtpp_ice_lite.c:rtpp_ice_lite_handle_command", "modules/ice_lite/rtpp_ice_lite.c:ice_lite_start", "modules/ice_lite/rtpp_ice_lite.c:cand_printf_handler"]}
{"id": "C88", "title": "A DTLS handshake is retransmitted until it is over, and the timer does not outlive the connection", "statement": "While a DTLS handshake goes on and OpenSSL wants a timeout, a task for it is in the queue of the timer or has just been taken by the timer thread, and the connection knows of it, in whatever order packets, roles, timeouts and late callbacks come. Once the connection has been ended no timer is set any more, it stays dead, and every task that is left lets go of the connection when it comes and does nothing else. There is at most one task, which is the one that can be cancelled.", "quantifier": "All histories of packets, roles, tasks taken by the timer thread, callbacks and endings, with any answers of OpenSSL and any failures of allocation.", "why_tests_cant": "The races between a callback that waits for the lock and a handshake that cancels and sets timers, and failures of allocation, do not show in tests, which run handshakes without loss.", "anchors": ["modules/dtls_gw/rtpp_dtls_conn.c:check_timer", "modules/dtls_gw/rtpp_dtls_conn.c:rtpp_dtls_conn_timeout", "modules/dtls_gw/rtpp_dtls_conn.c:tls_connect", "modules/dtls_gw/rtpp_dtls_conn.c:rtpp_dtls_conn_godead", "src/rtpp_timed.c:rtpp_timed_cancel"]}
