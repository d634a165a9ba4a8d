rows = [
("C01, C02","Hash","rtpp_hash_table.c","bucket array of chains, mask over an arbitrary hash; refinement to a list of pairs, induction over operations"),
("C03, C04","Refcnt","rtpp_refcnt.c, rtpp_refcnt.h","interleaving of atomic steps; invariant relating the counter with the outstanding references"),
("C05","Wref","rtpp_wref.c","interleaving of atomic steps; witness schedule and partial"),
("C06","Ringbuf","rtpp_ringbuf.c","refinement to the last n of the pushed values"),
("C07, C08, C09, C55","Rtp","rtp_packet.c, rtp.c, rtp_info.h","checked reads over bytes; case analysis; modular arithmetic"),
("C10","Resizer","rtp_resizer.c","conservation of bytes over operations"),
("C11, C12","Analyze","rtp_analyze.c, rtpp_analyzer.c","invariant with a ghost set of extended numbers; induction over packets"),
("C13, C17, C18","Str","rtpp_util.c, rtpp_str.c","induction over strings with checked memory"),
("C14, C15, C16, C19, C20, C21","Cmd","rtpp_util.c, rtpp_command.c, rtpp_command_parse.c, rtpp_command_reply.c, rtpp_command_rcache.c, rtpp_command_stream.c, rpcpv1_query.c","word-level lemma for the splitter; invariants of the buffer and cache; refinement of framing to lines"),
("C22, C23, C26","Sess","rtpp_session.c, rpcpv1_delete.c, rpcpv1_ul.c, rtpp_ttl.c, rtpp_proc_ttl.c, rtpp_pipe.c","decision logic; induction over the chain and over ticks"),
("C24, C25","Port","rtpp_port_table.c, rtpp_command.c, main.c","permutation invariant; arithmetic"),
("C27","Queue","rtpp_queue.c","ring and list refine a FIFO list"),
("C28","Timed","rtpp_timed.c","invariant over scans, cancellations"),
("C29","Sinfo","rtpp_sessinfo.c","logs with two buffers; invariant over all interleavings of commands and the media thread"),
("C30","Latch","rtpp_stream.c","invariant over packet sequences"),
("C31, C57","Pproc","pproc_manager.c, packet_processor.h, rtpp_types.h","sortedness invariant; reference accounting"),
("C32","Pearson","rtpp_pearson.c, rtpp_pearson_perfect.c","permutation; exactness from the final comparison"),
("C33","Rwlock","rtpp_rw_lock.c","interleaving invariant"),
("C34","Player","rtpp_server.c, rtpp_proc_servers.c, rpcpv1_play.c","induction over polls against an independent reader of the packets"),
("C35, C61, C62","Record","rtpp_record.c, rtpp_stream.c, rtpp_session.c, rpcpv1_copy.c","independent reader of the capture; path construction; control state machine"),
("C36","Sbuf","rtpp_sbuf.c","invariant"),
("C37","Cksum","rtpp_ip_chksum.h, rtpp_network.c","fold equals the sum modulo 65535"),
("C38","Dtmf","rtpp_catch_dtmf.c","invariant over the history of events"),
("C39","Rtcp","modules/acct_rtcp_hep/rtcp2json.c, rtcp.h","bounds by induction; independent reader of the text"),
("C40","Genuid","rtpp_genuid.c","interleaving of fetch-and-add"),
("C41, C60","Bindaddr","rtpp_bindaddrs.c, rtpp_bindargs.c","invariant over requests; decision logic"),
("C42, C43","Num","rtpp_math.c, rtpp_time.c","rationals with abstract rounding where stated"),
("C44, C58, C59","Counters","rtpp_command.c, rtpp_command_async.c, rpcpv1_ul.c, rtpp_command_parse.c","every path of a command as a trace; induction over histories"),
("C45","Addr","rtpp_network.c, rtpp_bindargs.c","string induction"),
("C46","Notify","rtpp_notify.c","answers of the kernel as input; induction over the queue"),
("C47, C48, C63","Eaud","extractaudio/rtpp_loader.c, decoder.c, eaud_substreams.c, extractaudio.c","sortedness of the list; bounds; codecs as parameters"),
("C49","G711","extractaudio/g711.h","evaluation by the kernel over the complete finite table"),
("C50","Conns","rtpp_command_async.c, rtpp_controlfd.h","alignment invariant; interleaving for the locks"),
("C51","Packetport","rtpp_packetport.c","interleaving; queues by their contract"),
("C52","Ulopt","rpcpv1_ul.c","induction on the string of modifiers"),
("C53","Weakref","rtpp_weakref.c","on top of C01 and C02"),
("C54","Pcount","rtpp_pcount.c","interleaving of compare-and-swap"),
("C65","Play","rtpp_stream.c, rtpp_proc_servers.c, rtpp_hash_table.c (transfer)","interleaving of four threads; invariant per exclusion and count of processors for all executions"),
("C66","Copy","rpcpv1_ul_subc_copy.c, pproc_manager.c, rtpp_proc_async.c (relay)","the way of a packet through copies, by induction on rank; counts of processors for all operation lists; projection to the run without copies"),
("C67","Wake","rtpp_proc_wakeup.c, rtpp_proc_async.c (loop of the media threads), rtpp_proc.c (wake-up socket)","interleaving of callers, wake-up thread, media threads and destructor; invariant for all executions, strictly decreasing bound for progress"),
("C68, C69, C70","Plane","modules/ice_lite/rtpp_ice_lite.c, modules/dtls_gw/rtpp_dtls_gw.c, modules/dtls_gw/rtpp_dtls_conn.c, pproc_manager.c, rtpp_proc_async.c (relay)","session of four streams with chains, module queues and threads as a transition system; invariants for all executions; external libraries as oracles"),
("C71","Netio","rtpp_netio_async.c, rtpp_wi_pkt.c, rtpp_socket.c (ctor, dtor, send_pkt_na), rtp_packet.c (get_wi), rtpp_queue.c (destroy)","all interleavings of hand-over, owners, sending thread and shutdown; counts of references, table of descriptors; refinement of the history of hand-overs"),
("C72","Acct","modules/acct_csv/rtpp_acct_csv.c (all but the configuration)","the row as `printf` makes it and as a reader takes it apart; any number of processes, each system call a step with any outcome; files, names, descriptors, record locks; invariants, history of rows, measure"),
("C73","Modman","rtpp_modman.c, rtpp_module_if.c (all but the look-up of shared objects and modules with a thread of their own), rtpp_cfile.c (parse_modules), rtpp_session.c (dtor)","all interleavings of ends of sessions, packets, threads of modules and shutdown; counts of references; refinement of the history of offers; measure; loading as a function"),
("C74","Log","rtpp_syslog_async.c, rtpp_log_stand.c (the lock of stderr)","pointers of the pool and the queue refined to lists; all interleavings; refinement of a bounded queue; lock of tickets with wrap-around"),
("C75","Stats","rtpp_stats.c, rpcpv1_stats.c","all interleavings of updates, samples and requests; sums as functions of the history; replies described by the moments of reading"),
("C77","Query","rpcpv1_query.c, rtpp_pcnt_strm.c, get_stats of rtpp_pcount.c and rtpp_analyzer.c, get_ttl of rtpp_pipe.c","each read of the handler sees the state after some prefix of the history; cache invariant; refinement to counts over prefixes"),
("C78","Ctl","rtpp_controlfd.c, resolve and setbindhost of rtpp_network.c, ehandler of main.c","instances interleaved call by call; what is left of the programme settles the file before it listens; effect of a programme on one path"),
("C79","Start","start-up, signals and main loop of main.c, drop_privileges and rtpp_daemon of rtpp_util.c","what holds after each prefix of the plan; order of the plan; parent and child as a transition system; history of signals and sessions"),
("C80","Setup","rtpp_command_ul_handle_impl and ul_reply_port of rpcpv1_ul.c, with set-up of the streams in rtpp_session.c and the address text of rtpp_command_reply.c","invariants over histories of commands and packets; latest granted request of each party as the specification; reading of the reply text"),
("C81","Hep","modules/acct_rtcp_hep (rtpp_acct_rtcp_hep.c, rtpp_arh_conf.c), external/hepconnector/core_hep.c, conf_helper_mapper of rtpp_cfile.c","simulation of the reused block against the concatenation of fields; a reader of HEP written apart from the writer; induction over packets and failures"),
("C82","Ended","rtpp_network_io.c, receiving in rtpp_socket.c, rtpp_pcnt_strm.c, statistics of rtpp_pipe.c, rtpp_session_dtor","all interleavings of packets with the actions of any number of destructors; sums over records; a description of the account of packets apart from the counting"),
("C83","Cli","init_config of main.c from the options on, rtpp_log_str2lvl, rtpp_log_str2fac","a description of accepted lines and of each setting by the arguments of its option, apart from the loop; order by equality of the sublists about each thing"),
("C84","Heard","record_packet and relay_packet of rtpp_proc_async.c, catching of digits as a processor, copies and players as processors","what is in force told from the history alone; invariant: the handlers are two lists in a fixed frame; erasing events for noninterference"),
("C85","Srtp","tls_srtp_keyinfo, setup_srtp_stream, setmode and dtls_recv of rtpp_dtls_conn.c on bytes, rtpp_dtls_fp_gen, the arguments of the subcommand in rtpp_dtls_gw.c","the keying material cut into four parts; what was told from the history alone; text against digest"),
("C86","Netaddr","set, get, cmp and isempty of rtpp_netaddr.c, byte by byte, by any number of threads","invariant over all interleavings: who holds the mutex, how far the copy is; observations against one register; a measure for returning"),
("C87","Icecand","the words of the ice_lite subcommand, rtpp_cand_decode with the functions of libre it calls, the answer of ice_lite_start","the numbers by induction on their digits, the related address by induction on the pairs; uniqueness and order as an invariant of histories; the response as a prefix with zeros behind, and its last byte as an invariant"),
("C88","Dtimer","check_timer, rtpp_dtls_conn_timeout and their callers, with the queue of the timer and a task that has been taken from it","invariant over all histories: the task the connection knows of is alive, and is set while one is wanted; a count of references after the end"),
("C76","Subc","rpcpv1_ul_subc.c, rpcpv1_ul_subc_set.c, rpcpv1_ul.c (sessions found: timers, type of service), rpcpv1_query.c (loop), rtpp_ttl.c","one session under all histories of commands, packets in two steps and ticks; limits and types of service as functions of commands and replies; invariants"),
("C64","Tset","rtpp_tnotify_set.c","invariant over histories of options and commands; names described without the parser"),
("C56","Spmc","external/RTQueue/src/SPMCQueue.c","linearizability under sequential consistency; witness with relaxed loads"),
]
import re,subprocess,sys
out=subprocess.run(['lake','env','lean','Verif/Audit.lean'],cwd='/verif/lean',capture_output=True,text=True).stdout
out=re.sub(r'\n\s+',' ',out)
by={}
for m in re.finditer(r"'(\S+)' (depends on axioms: \[([^\]]*)\]|does not depend on any axioms)",out):
    ax=tuple(a.strip() for a in (m.group(3) or '').split(',') if a.strip())
    by.setdefault(ax,[]).append(m.group(1).split('.')[-1])
d=open('/verif/DESIGN.md').read()
i=d.index('## 3.'); j=d.index('## 4.')
s3='## 3. Properties: what is modelled, how it is proved\n\nDirectories are under `lean/Verif/`; sources under `/repo/src`, `/repo/modules` unless a path is given. The\nline numbers are in the comment of each definition.\n\n| properties | directory | code modelled | method |\n|---|---|---|---|\n'
for r in rows: s3+='| %s | `%s` | %s | %s |\n'%r
d=d[:i]+s3+'\n'+d[j:]
i=d.index('## 5.'); j=d.index('## 6.')
s5='## 5. Axioms per theorem\n\nAs printed by `lean/Verif/Audit.lean` in the build (namespaces left out).\n'
for ax in sorted(by,key=len):
    l=sorted(by[ax])
    s5+='\n%s (%d theorems): %s.\n'%('No axioms' if not ax else ', '.join('`%s`'%a for a in ax),len(l),', '.join(l))
d=d[:i]+s5+'\n'+d[j:]
open('/verif/DESIGN.md','w').write(d)
print({k:len(v) for k,v in by.items()})
