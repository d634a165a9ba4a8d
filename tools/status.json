{
 "C01": {
  "status": "proved",
  "note": ""
 },
 "C02": {
  "status": "proved",
  "note": ""
 },
 "C03": {
  "status": "proved",
  "note": "sequentially consistent interleavings"
 },
 "C04": {
  "status": "partial",
  "note": "false of the code in general (three counterexamples); proved when conditional acquires start after the object's first acquire, do not overlap each other, and are not in flight when the memory is released"
 },
 "C05": {
  "status": "partial",
  "note": "false of the code for overlapping readers (two counterexamples); proved for non-overlapping getref calls, any interleaving with everything else"
 },
 "C06": {
  "status": "proved",
  "note": ""
 },
 "C07": {
  "status": "proved",
  "note": ""
 },
 "C08": {
  "status": "partial",
  "note": "The RTP/STUN exclusion is false of the code (proved counterexample: RTP timestamp equal to the STUN magic cookie); all other exclusions and read bounds are proved."
 },
 "C09": {
  "status": "proved",
  "note": ""
 },
 "C10": {
  "status": "partial",
  "note": "Proved for every history: no fault, no audio lost or duplicated, play-out times kept (G.711, G.729, GSM), size/ptime limits, consecutive sequence numbers, valid headers for unpadded packets. Order proved for one RTP stream within half of the timestamp space. False, with counterexamples: padded packets, G.722 splitting, SSRC change."
 },
 "C11": {
  "status": "partial",
  "note": "Every packet is counted exactly once, whatever arrives (C11_counted_once, up to 2^32 packets). For streams of one source in which the extended numbers stay near each other the reported counts are exact and the loss is not negative (C11_one_source_partial, C11_next_source_partial). Fails in general: five counterexamples (underflow of the span, negative loss, old packets after a wrap, the offset kept over a change of source, a marker after the wrap)."
 },
 "C12": {
  "status": "proved",
  "note": "Bounded, no SSRC twice, each record is the fold of the packets of its own source; complete up to ten sources; counts of the report. Floating-point values are abstract."
 },
 "C13": {
  "status": "partial",
  "note": "Quoting, bounds and round trip proved; decoding proved except for a truncated escape at the end, where the code reads one byte too far (counterexample)"
 },
 "C14": {
  "status": "proved",
  "note": ""
 },
 "C15": {
  "status": "partial",
  "note": "Proved for stream connections and for datagrams with a cookie of at most 1022 bytes; longer cookies abort the server (counterexample)"
 },
 "C16": {
  "status": "partial",
  "note": "Admission, error order and presence of arguments proved; a G naming more than 22 counters is within the grammar but refused earlier (counterexample)"
 },
 "C17": {
  "status": "partial",
  "note": "strtol-based range parsing proved; values beyond int are truncated (counterexample)"
 },
 "C18": {
  "status": "proved",
  "note": ""
 },
 "C19": {
  "status": "partial",
  "note": "Proved for the way handlers use the buffer, for deliver_number/error, U/L and QUERY replies given room; three counterexamples"
 },
 "C20": {
  "status": "proved",
  "note": "Holds for answers that could be stored; when memory for the cache entry cannot be allocated the answer is not retained (memOk). Clock readings are exact integers."
 },
 "C21": {
  "status": "partial",
  "note": "Framing, segmentation independence and memory safety are proved; false that an over-long line (8192 bytes) is reported: the connection is closed without an answer."
 },
 "C22": {
  "status": "partial",
  "note": "The look-up is characterised exactly for every history (C22_lookup, C22_update). The claim that the callee's leg is found only under the to-tag plus the media number is false for tags with several separators and for commands that omit the to-tag; the _partial theorem covers tags with at most one separator."
 },
 "C23": {
  "status": "partial",
  "note": "The effect of DELETE is characterised exactly for every history (C23_delete, C23_held). That all addressed sessions are dealt with independently of creation order is false (C23_order_counterexample); the _partial theorem covers requests with no exact match."
 },
 "C24": {
  "status": "partial",
  "note": "Safety (range, parity, permutation, listeners) proved for every history. Exclusion of the control port is false because port_ctl is never set; finding a free port is false (last used port, single port, random mode); the _partial theorems cover sequential mode and the all-free case."
 },
 "C25": {
  "status": "proved",
  "note": "All settings."
 },
 "C26": {
  "status": "proved",
  "note": "Every history; ticks and packets are atomic events."
 },
 "C27": {
  "status": "proved",
  "note": "Full refinement of a list by ring plus overflow list, for every capacity and operation sequence; waiting and wake-ups are not modelled."
 },
 "C28": {
  "status": "proved",
  "note": "Over all interleavings of clients, callbacks and the timer thread. Periods must be positive: a task with period zero that asks for more hangs the timer (C28_zero_period_hangs)."
 },
 "C29": {
  "status": "partial",
  "note": "All interleavings of additions, updates, removals and the threads that apply them: tables, kernel set and references exact; false when realloc fails in the synchronisation or in a removal (counterexamples)."
 },
 "C30": {
  "status": "partial",
  "note": "Proved for the RTP stream over all event sequences (source keeping non-zero SSRCs). False for a source that switches to SSRC 0 (stream is unlatched) and for the RTCP companion, which is redirected when the RTP stream's address is filled in; both proved by witness."
 },
 "C31": {
  "status": "proved",
  "note": "Processor table order and stability for every sequence of registrations; which processors run; kept xor released and counted once; totals; action reported. What processors do is a parameter."
 },
 "C32": {
  "status": "partial",
  "note": "Exact for up to 255 distinct names and every random stream for which the search ends; shuffle covers every nonzero byte; duplicates never end the search. Missing: more names; of 256 names the last is not found (C32_256_counterexample), so the statement for every set of names is false."
 },
 "C33": {
  "status": "proved",
  "note": "For any number of threads and interleavings, mutexes as lock bits; unlocking by a thread other than the locker is needed (C33_foreign_unlock_counterexample)."
 },
 "C34": {
  "status": "partial",
  "note": "All prompts, known codecs, packetisation times up to 999 ms, counts, start times and calls: every packet right and paced, every packet fits; the tail of a prompt is dropped, unknown codecs never end, INT_MIN repetitions overflow (counterexamples)."
 },
 "C35": {
  "status": "partial",
  "note": "Proved for the recorder's own format, for remote copies, and for captures (incl. a reader of the frames with checksums), including the state after failed writes; false if RTCP of a single file changes its address family on the way (counterexamples) and for short writes (counterexample)."
 },
 "C36": {
  "status": "proved",
  "note": "Contents, bookkeeping, results and termination over all histories of writes, extensions (with any allocator behaviour) and resets; an extension that does not extend fails an assertion."
 },
 "C37": {
  "status": "proved",
  "note": "in_cksum for all strings below 2^16 bytes, UDP sums for all addresses/ports/data; a zero UDP checksum is not replaced by all ones (C37_udp_zero_checksum_counterexample)."
 },
 "C38": {
  "status": "partial",
  "note": "False: an event of which one packet arrives is not reported; code 17 is reported as NUL; a packet without payload or with contributing sources is misread; a tag over 498 bytes may make the worker read outside its buffer; a second subcommand keeps the old tag; packets are dropped when the worker's queue is full."
 },
 "C39": {
  "status": "partial",
  "note": "Memory safety, termination, the exact set of accepted packets and the reported fields are proved; losses outside 0..65535 and -1 are decoded wrongly, and two reports in one packet give no JSON text (counterexamples)."
 },
 "C40": {
  "status": "proved",
  "note": "All interleavings of requests; sharp at 2^64; the first identifier is the reserved value 0."
 },
 "C41": {
  "status": "partial",
  "note": "Requests that name a label (or name that they want none) get the same object exactly if host, family and label agree, under every interleaving; objects stay; requests without parameters get the same object only while no request with parameters is made (C41_unlabelled_counterexample: a labelled object for the same address takes over); a label designates one host if registrations do not overlap (C41_labels_counterexample)."
 },
 "C42": {
  "status": "partial",
  "note": "integer variant: extremes proved for any rounding; floating variant: maximum proved, minimum false (stores maxval), proved only while nothing falls below the initial value; bounds with exact arithmetic"
 },
 "C43": {
  "status": "partial",
  "note": "timeval proved for any order-preserving rounding exact on integers; timespec within one unit, but the fraction may be 10^9 (counterexample)"
 },
 "C44": {
  "status": "partial",
  "note": "false for two out-of-memory cases (theorems C44_*_counterexample); with enough memory and for sessions and packets it holds"
 },
 "C45": {
  "status": "proved",
  "note": "extractaddr, extractlabel and bindarg_parse characterised exactly on byte memory"
 },
 "C46": {
  "status": "partial",
  "note": "Bounded attempts, order, at most one delivery, descriptor hygiene and independence of targets proved for all answers of the kernel; that the worker never stops is proved without descriptor targets (one failed send to such a target aborts), and a short send counts as delivered (counterexamples)."
 },
 "C47": {
  "status": "partial",
  "note": "Under stated conditions on a source (a packet arriving late is from the same run of sequence numbers, time stamps ascend, no gap of 65536) the loaded list is in order without duplicates; files of the recorder's own format and captures are loaded completely when the statistics report no error; recording followed by loading gives the packets of the call. Without these conditions the claim fails: counterexamples."
 },
 "C48": {
  "status": "partial",
  "note": "Memory safety, termination and the timeline of PCMU/PCMA proved for whole frames, bcg729 and defined conversions; partial GSM frames, G.729E, silence of the other G.729 library and converted negative numbers are counterexamples."
 },
 "C49": {
  "status": "partial",
  "note": "The A-law part is complete. For mu-law the round trip holds except for the code of negative zero (127), which comes back as 126 (C49_roundtripU_counterexample). Additional: order, sign and error bound of encoding for all samples, the decoders are those of ITU-T G.711 except for the mu-law zeros, the direct transcoding tables (the one from mu-law to A-law differs from decoding and encoding for seven codes)."
 },
 "C50": {
  "status": "partial",
  "note": "Table (C50_turn, C50_accept, C50_history, C50_start_partial) and locks (C50_exclusive, C50_waiting_partial) for all executions. False parts: more than 100 directly read sockets write behind the array, an allocation failure at start-up frees a NULL record, a hang-up of an fd: socket is never removed, overload protection deadlocks the two threads, a full wake-up socket deadlocks them."
 },
 "C51": {
  "status": "partial",
  "note": "Ports: full. Batches to the host: full (order, bounds, termination, drop count). Push: newest packet refused when the worker empties the ring in between (counterexample). Flush: full under sequential consistency, lost under store buffering (counterexample). Termination signal and newest packets refused when the work queue is full (counterexamples). reg_streams not modelled."
 },
 "C52": {
  "status": "partial",
  "note": "strings accepted exactly when they read as acceptable modifiers, with the options they denote; numbers beyond int wrap (counterexample); RTCP port of a peer at 65535 wraps to 0 (counterexample)"
 },
 "C53": {
  "status": "proved",
  "note": "move requires both registries to share the hash seed, as the only caller arranges; needed, see C53_move_needs_shared_seed"
 },
 "C54": {
  "status": "partial",
  "note": "All interleavings: each location registered once, in order, counts equal attributions; every drop counted; attributed to its own location if at most four locations occur. With a fifth location a drop is attributed to none (counterexample)."
 },
 "C55": {
  "status": "proved",
  "note": ""
 },
 "C56": {
  "status": "partial",
  "note": "Full under sequential consistency (linearizable to a bounded FIFO, safe, FIFO, progress); with the load reordering that C11 permits the assertion can fail (C56_relaxed_load_counterexample)."
 },
 "C57": {
  "status": "partial",
  "note": "Proved for all interleavings in which only tables without counted processors are cloned (the only use in the program); clone of a counted processor leaves a dangling reference (counterexample), and more than 23 counted processors leak (counterexample)."
 },
 "C58": {
  "status": "proved",
  "note": "handle_command with all handlers as control flow; replies fit the buffer (C19)"
 },
 "C59": {
  "status": "partial",
  "note": "false if the packet port cannot take the session (C59_packetport_counterexample)"
 },
 "C60": {
  "status": "proved",
  "note": "Allocation failures in set-up are not modelled; name resolution is an arbitrary function."
 },
 "C61": {
  "status": "partial",
  "note": "Proved under length and character restrictions; overrun of the name buffer, collisions and escapes from the directory are counterexamples."
 },
 "C62": {
  "status": "partial",
  "note": "Reference counts, slots, stop and end proved for all sequences of requests; the target of a recording and the race with packet threads are counterexamples."
 },
 "C63": {
  "status": "partial",
  "note": "Proved for any number of channels; with option -n freed memory is read, and the number of samples reported is half of those written."
 },
 "C64": {
  "status": "partial",
  "note": "C64_accepted, C64_refused, C64_safe, C64_stable, C64_unknown, C64_self, C64_distinct and C64_enabled hold for all histories. C64_named_partial leaves out names with a colon but no prefix, which are accepted and never found (C64_colon_counterexample). Also false: ports are read leniently, long paths are cut, the local address of the first command is kept for later ones, and after 64 hosts the next gets no target (C64_port_, C64_path_, C64_source_, C64_full_counterexample)."
 },
 "C65": {
  "status": "partial",
  "note": "C65_safe and C65_held_back hold in all executions. C65_stopped_, C65_silent_stays_, C65_agrees_, C65_one_, C65_started_, C65_waiting_, C65_gone_ and C65_progress_partial leave out failed registrations, NOPLAY looking for a player that is being moved between the tables, and a stream whose last reference is dropped by the player thread; C65_awake_partial leaves out a player that becomes active between the check and the wait. Each exclusion is needed: C65_stopped_, C65_one_, C65_held_, C65_agrees_, C65_progress_, C65_deadlock_ and C65_awake_counterexample."
 },
 "C66": {
  "status": "partial",
  "note": "Proved where copies do not lead back (C66_terminates_partial, C66_copied_partial, C66_early_partial), where no registration fails half way (C66_safe_partial, C66_failed_partial) and where memory is not short (C66_undone_partial). Counterexamples: copies in a circle exhaust the stack, a copy asked for twice doubles every packet, a registration that fails half way aborts the server. References, silence of the target and delivery are proved without restriction."
 },
 "C67": {
  "status": "partial",
  "note": "No request is lost and the threads come to rest in a bounded number of steps, proved for every execution in which no deadline is refused and fewer than 2^31 requests are made; rate, shutdown of the wake-up thread and of the media threads without these restrictions. Counterexamples: a refused deadline leaves the mutex locked for ever, the 2^31st request overflows an int, the sockets of a deleted session are not given up until something else wakes the media thread."
 },
 "C68": {
  "status": "partial",
  "note": "Who is in charge, the gate, completion, origin of queued messages and switching off are proved for every execution. That the address stays is proved for a stream that is locked (completed, latched, no messages of an earlier agent in the queue), and completion is proved to lock unless the address is the one from before a change by signalling; counterexamples show both exceptions, and that a failed start leaves the gate closed. Atomic commands; answers of the ICE library are arbitrary."
 },
 "C69": {
  "status": "partial",
  "note": "No media in the clear, nothing unverified used, the right connection, given up for good and switching off are proved for every execution. The fingerprint is proved to be compared if one was recorded by the time the handshake ends; counterexamples: none recorded, recorded later, negotiation blocked by an early datagram. RTCP that is not multiplexed is outside (counterexample). Cryptography is an oracle."
 },
 "C70": {
  "status": "partial",
  "note": "Exactly one end of every passage that does not fail, for arbitrary chains and processors; no abort in any reachable state. Absence of undefined behaviour is proved for packets other than RTCP, without ICE, or when all streams can send and other processors only look, given that encrypted packets fit; counterexamples: multiplexed RTCP that is dropped is released twice, encryption of a full-size packet overflows its buffer."
 },
 "C71": {
  "status": "partial",
  "note": "Proved for all executions except for shutdown: an item that the thread takes in the same batch behind the order to stop is neither sent nor released (C71_lost_counterexample)."
 },
 "C72": {
  "status": "partial",
  "note": "Proved for all numbers of processes and all interleavings, if no write is cut short, no file is emptied in place, files stay below two gigabytes, new files can be locked, and the texts have no comma; each of these conditions is needed (five counterexamples)."
 },
 "C73": {
  "status": "partial",
  "note": "The delivery, the shutdown and the numbers are proved for all interleavings. That a module which cannot be loaded is refused is false: the object is used after it is freed (C73_bad_module_counterexample)."
 },
 "C74": {
  "status": "partial",
  "note": "Proved for one set-up, formats that vsnprintf accepts and fewer than 2^31 drops; C74_twice_counterexample (two initialisations register the exit handler twice, the second joins a joined thread), C74_dropped_counterexample (int counter overflows), C74_text_counterexample (vsnprintf error eats the last byte of the prefix)."
 },
 "C75": {
  "status": "partial",
  "note": "sums, replies and rates proved for all interleavings; that no request crashes the server is false when the answer fills the buffer but for one byte (C75_full_counterexample); doubles are rationals"
 },
 "C76": {
  "status": "partial",
  "note": "Order, stop at the first failure, look-ups as subcommands and limits of the timers hold in full. Types of service: for addresses of the old family on systems that set them (C76_tos_counterexample). The timer never exceeds its limit unless a command comes between the two halves of a packet's restart (C76_stale_counterexample). Numbers beyond the range of int are accepted with another value (C76_number_counterexample)."
 },
 "C77": {
  "status": "partial",
  "note": "Holds in full for the timers, packet counts, relayed and dropped packets, parse errors, jitter records, repeated names and errors. Counts of the analysis: if no packet of the stream is analysed while they are read; otherwise the number of lost packets can be 2^32-1 (C77_race_counterexample). Longest gap: for clocks that are positive and do not go back (C77_gap_counterexample). A query without names whose answer does not fit yields an empty line (C77_empty_counterexample); a reply of 1023 bytes aborts (C77_full_counterexample)."
 },
 "C78": {
  "status": "partial",
  "note": "false in general: a second instance with the same path takes the file away from one that is up, which removes the other's file when it ends; a failed start and a daemon with a relative name leave the file; an IPv6 host without a port is cut at its last colon; instances that differ about user and group change each other's open sockets. Proved for paths that are not shared"
 },
 "C79": {
  "status": "partial",
  "note": "false in general: a user without a group keeps the group of the starter, supplementary groups are always kept, TCP control sockets are not refused to the superuser, a client that goes away before SIGPIPE is ignored ends the program, the session of a command in hand at SIGHUP may be lost, and -w is read in base ten. The rest is proved in full"
 },
 "C80": {
  "status": "partial",
  "note": "Proved for all histories: kept ports, moved ports, independence of the parties, settings, hold, destination, handler, text. The reply names the bound socket only if no change of the local address failed before and the sockets could be registered; a refused command may change the local address. Counterexamples: the address after a failed change, sockets that cannot be registered, the address of the RTCP stream, an unknown notification target, the advertised address of a wildcard socket, RTCP for port 65535. The library's packet ports are left out."
 },
 "C81": {
  "status": "partial",
  "note": "Proved for packets whose report and call-id fit 65535 bytes (bound 129 + call-id + 9 x packet) and datagrams sent whole; ownership of the descriptor while names resolve. Counterexamples: heap overflow by a 7864-byte packet, silent cut of longer texts, capture agent in the wrong half, torn streams, use of a closed descriptor's number. Not modelled: select with an uninitialised set, leak of address lists."
 },
 "C82": {
  "status": "partial",
  "note": "Times are integers, rounding of double is not modelled. Missing: a time stamp told after the address is not used (C82_stamp_counterexample); when times go back, the longest pause may be too long, never too short (C82_gap_counterexample). Counters of relayed and dropped packets, jitter and loss in the record are those of C54, C11, C12."
 },
 "C83": {
  "status": "partial",
  "note": "Numbers too large for an int are cut (-T 4294967297 is 1); -A a/b -A c keeps b, -A /b is accepted; -w 0 and -u depend on their order; -w is read as a decimal number."
 },
 "C84": {
  "status": "partial",
  "note": "false as it stands: a hidden digit is recorded, and copied or not depending on the order of the commands; packets that are not sent for want of an address are recorded; catching without room for the worker costs the peer the digit; what is played to the peer is not recorded (counterexamples). Proved: the exact conditions for each, completeness of the recording for packets of the party, and that listening changes nothing for the peer when nothing is hidden and there is room. RTP streams; the processors of other orders are in C31 and C70."
 },
 "C85": {
  "status": "partial",
  "note": "Proved for histories in which no command was refused, with the RTCP tag only outside the short-tag profile, sources that are numbers of 32 bits, and letting in for fingerprints in capital letters. Missing because false: C85_rtcp_tag, C85_refused, C85_small_letters, C85_source, C85_word and C85_failed_connect counterexamples."
 },
 "C86": {
  "status": "proved",
  "note": "Addresses are byte strings; that comparing looks at padding as well is C86_padding_counterexample. Memory is sequentially consistent; copy (a get and a set) is not modelled as one method."
 },
 "C87": {
  "status": "partial",
  "note": "Candidates: in full for numbers in range. The answer: whole or an error whenever fragment and password fit. Not so (counterexamples): numbers out of range and words that are no numbers are accepted as others, words of several letters are taken for subcommands, and the answer lacks the password when it does not fit (APPEND is never negative)."
 },
 "C88": {
  "status": "partial",
  "note": "Not so (counterexamples): tls_connect does not look at the failure of check_timer, so that the active side is left without a timer; a callback that waits for the lock while its task is cancelled and replaced takes the new one for its own, so that there are two. Proved otherwise."
 }
}