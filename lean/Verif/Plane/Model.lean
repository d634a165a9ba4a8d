import Verif.Pproc.Model
import Verif.Latch.Model

/-!
# Model of the media plane of a session with the ICE and DTLS modules

Modelled: `modules/ice_lite/rtpp_ice_lite.c`, `modules/dtls_gw/rtpp_dtls_gw.c`, the parts of
`modules/dtls_gw/rtpp_dtls_conn.c` that handle packets and the state of a connection, and the way packets go through
the processor chains of the four streams of a session (`src/advanced/pproc_manager.c`, `src/rtpp_proc.c:67-105`,
`src/rtpp_proc_async.c:268-299`).  Latching is `Verif.Latch`, classification of datagrams `Verif.Rtp`.

Simplifications.

* A command, the passage of one packet through the chains and the handling of one work item by a module's thread are
  atomic.  (In the code a chain is a snapshot taken under a lock, so a packet that is under way while a command runs
  may still go by the old chain.)
* Memory is not exhausted.  One instance of each module.
* What libre's ICE agent, OpenSSL and libsrtp decide comes from the environment (the fields of the events).
* The other processors of a chain (recorder, resizer, transcoder, players, copies, DTMF) are arbitrary functions of the
  packet, at orders between `PPROC_ORD_ANALYZE` and `PPROC_ORD_ENCODE`.
* The queues of the module threads may be full or not: the environment says.
* Keys of processors are distinct by construction (the code uses addresses past the end of the module's data).
* Counters and logging are left out, and so is the in-process packet port (library builds).
-/

namespace Verif.Plane

open Verif.Latch (Addr Strm Mode)
open Verif.Pproc (Act)

/-- One of the four streams of a session: RTP or RTCP, caller's or callee's side. -/
structure Sid where
  rtcp : Bool
  side : Bool
  deriving DecidableEq, Repr

abbrev rtp (i : Bool) : Sid := ⟨false, i⟩
abbrev rtcp (i : Bool) : Sid := ⟨true, i⟩

/-- `pproc_manager->reverse` and `get_sender`, rtpp_pipe.c:121-137: the other side of the pipe. -/
def Sid.rev (s : Sid) : Sid := ⟨s.rtcp, !s.side⟩

/-- A packet.  The last three fields are not in the code: who protected it, who has verified it, and the connection
that was in charge of the stream when it arrived there. -/
structure Pkt where
  buf : List UInt8
  src : Addr
  sealedBy : Option Nat := none
  openedBy : Option Nat := none
  need : Option Nat := none
  deriving DecidableEq, Repr

/-- A classifier of `rtp_packet.c` applied to a packet. -/
def test (f : List UInt8 → Except Fault Bool) (p : Pkt) : Bool :=
  match f p.buf with
  | .ok b => b
  | .error _ => false

def Pkt.isStun (p : Pkt) : Bool := test Rtp.isStun p
def Pkt.isRtcp (p : Pkt) : Bool := test Rtp.isRtcp p
def Pkt.isDtls (p : Pkt) : Bool := test Rtp.isDtls p

/-- What latching looks at. -/
def Pkt.lat (p : Pkt) : Latch.Pkt :=
  ⟨p.src, match Rtp.parse p.buf with
    | .ok (.ok i) => some (i.ssrc, i.seq)
    | _ => none⟩

/-- `struct pkt_proc_ctx`, pproc_manager.h:43-52. -/
structure Ctx where
  inS : Sid
  outS : Option Sid
  pkt : Pkt
  /-- `PPROC_FLAG_COW`. -/
  cow : Bool := false
  deriving DecidableEq, Repr

/-- What one of the other processors does with a packet. -/
inductive Verdict where
  | nop
  | tee
  | take
  | drop
  deriving DecidableEq, Repr

inductive Key where
  | ice
  | dmx
  | mx
  | din
  | dout
  | relay
  | other (n : Nat)
  deriving DecidableEq, Repr

/-- What a processor is: `ice_lite_activate` (rtpp_ice_lite.c:457-503), rtpp_dtls_gw.c:396-414,
rtpp_proc_async.c:336-341, rtpp_stream.c:318-323. -/
inductive Kind where
  | ice (agent : Nat)
  | dmx (i o : Sid)
  | mx (i o : Sid)
  | din (conn : Nat)
  | dout (conn : Nat)
  | relay
  | analyze
  | other (f : Pkt → Verdict)

/-- `struct pproc_handler`, pproc_manager.c:50-53. -/
structure Proc where
  order : Nat
  key : Key
  kind : Kind

/-- `enum pproc_order`, packet_processor.h:51-65. -/
def oRecv : Nat := 1
def oDecrypt : Nat := 2
def oCtRecv : Nat := 3
def oAnalyze : Nat := 4
def oResize : Nat := 5
def oPlay : Nat := 7
def oEncode : Nat := 9
def oCtSend : Nat := 10
def oEncrypt : Nat := 11
def oRelay : Nat := 12

/-- `rtpp_pproc_mgr_register`, pproc_manager.c:135-171: before the first processor of a higher order. -/
def register (p : Proc) : List Proc → List Proc
  | [] => [p]
  | q :: qs => if q.order > p.order then p :: q :: qs else q :: register p qs

/-- `rtpp_pproc_mgr_unregister`, pproc_manager.c:259-298: the first processor with that key; none: `abort`. -/
def unregister (k : Key) : List Proc → Except Fault (List Proc)
  | [] => .error .abort
  | q :: qs => if q.key = k then .ok qs else
    match unregister k qs with
    | .error e => .error e
    | .ok r => .ok (q :: r)

/-- `rtpp_pproc_mgr_lookup`, pproc_manager.c:237-257. -/
def lookup (k : Key) : List Proc → Option Proc
  | [] => none
  | q :: qs => if q.key = k then some q else lookup k qs

/-- `enum rtpp_dtls_dir`, rtpp_dtls_gw.c:97-99. -/
inductive Dir where
  | dtls
  | srtp
  | out
  deriving DecidableEq, Repr

/-- What becomes of a packet.  All but `seen` and `analyzed` are the end of the caller's reference to it. -/
inductive Eff where
  /-- Sent out by a stream. -/
  | send (to : Sid) (p : Pkt)
  /-- Put into the queue of the ICE module. -/
  | iceq (agent : Nat) (s : Sid) (p : Pkt)
  /-- Put into the queue of the DTLS module. -/
  | dtlsq (d : Dir) (conn : Nat) (c : Ctx)
  /-- Kept by another processor. -/
  | took (n : Key) (p : Pkt)
  /-- Dropped and counted so. -/
  | drop (s : Sid) (p : Pkt)
  /-- Shown to another processor. -/
  | seen (n : Key) (p : Pkt)
  /-- Shown to the analyser of a stream. -/
  | analyzed (s : Sid) (p : Pkt)
  deriving DecidableEq, Repr

/-- What the passage of a packet depends on. -/
structure View where
  mgr : Sid → List Proc
  completed : Nat → Bool
  sendable : Sid → Bool
  iceRoom : Bool
  dtlsRoom : Bool

/-- The `taste` callbacks: `ril_ice_taste` (rtpp_ice_lite.c:655-671), `rtpp_is_rtcp_tst`,
`rtpp_dtls_gw_taste_encrypted` (rtpp_dtls_gw.c:467-484), `rtpp_dtls_gw_taste_plain` (486-499). -/
def likes (v : View) (c : Ctx) : Kind → Bool
  | .ice a => c.pkt.isStun || !v.completed a
  | .dmx _ _ => c.pkt.isRtcp
  | .mx _ _ => c.pkt.isRtcp
  | .din _ => true
  | .dout _ => c.outS.isSome
  | .relay => true
  | .analyze => true
  | .other _ => true

/-- The result of an `enqueue` callback: the action, whether the caller's reference to the packet is still there, and
the effects. -/
structure Enq where
  act : Act
  own : Bool
  effs : List Eff

def aTake : Act := ⟨false, true, false⟩
def aDrop : Act := ⟨false, false, true⟩
def aTee : Act := ⟨true, false, false⟩

/-- The result of `handleat` is also the result of the callback that called it (rtpp_ice_lite.c:703, 712); the
reference is gone whatever the outcome. -/
def wrap : Except Fault (Act × List Eff) → Except Fault Enq
  | .error e => .error e
  | .ok (a, es) => .ok ⟨a, false, es⟩

/-- The `enqueue` callbacks: `rtpp_ice_lite_enqueue` (rtpp_ice_lite.c:673-695), `rtpp_ice_lite_rtcp_dmx` (697-704),
`rtpp_ice_lite_rtcp_mx` (706-713), `rtpp_dtls_gw_enqueue` (rtpp_dtls_gw.c:501-525), `relay_packet`
(rtpp_proc_async.c:268-299), `analyze_rtp_packet` (rtpp_stream.c:219-231).  `nested` is `handleat`. -/
def enq (nested : Sid → Ctx → Nat → Except Fault (Act × List Eff)) (v : View) (c : Ctx) (k : Key) :
    Kind → Except Fault Enq
  | .ice a =>
    if c.pkt.isStun then
      if v.iceRoom then .ok ⟨aTake, false, [.iceq a c.inS c.pkt]⟩ else .ok ⟨aDrop, true, []⟩
    else .ok ⟨aDrop, true, []⟩
  | .dmx i o => wrap (nested i { c with inS := i, outS := some o } oCtRecv)
  | .mx i o => wrap (nested o.rev { c with inS := i, outS := some o } oCtSend)
  | .din n =>
    if v.dtlsRoom then .ok ⟨aTake, false, [.dtlsq (if c.pkt.isDtls then .dtls else .srtp) n c]⟩
    else .ok ⟨aDrop, true, []⟩
  | .dout n => if v.dtlsRoom then .ok ⟨aTake, false, [.dtlsq .out n c]⟩ else .ok ⟨aDrop, true, []⟩
  | .relay =>
    match c.outS with
    | none => .ok ⟨aDrop, true, []⟩
    | some o => if v.sendable o then .ok ⟨aTake, false, [.send o c.pkt]⟩ else .ok ⟨aDrop, true, []⟩
  | .analyze => .ok ⟨Act.nop, true, [.analyzed c.inS c.pkt]⟩
  | .other f =>
    match f c.pkt with
    | .nop => .ok ⟨Act.nop, true, [.seen k c.pkt]⟩
    | .tee => .ok ⟨aTee, true, [.seen k c.pkt]⟩
    | .take => .ok ⟨aTake, false, [.seen k c.pkt, .took k c.pkt]⟩
    | .drop => .ok ⟨aDrop, true, [.seen k c.pkt]⟩

/-- The loop of `rtpp_pproc_mgr_handleat`, pproc_manager.c:202-218, from an accumulated action on.  Once the reference
to the packet is gone any further use of it is undefined behaviour, and there always is one: the loop goes on only
without a "take", so that line 221 gives the packet up again. -/
def loop (nested : Sid → Ctx → Nat → Except Fault (Act × List Eff)) (v : View) (c : Ctx) (startat : Nat) :
    List Proc → Act → Except Fault Enq
  | [], a => .ok ⟨a, true, []⟩
  | p :: ps, a =>
    if startat > 0 ∧ p.order < startat then loop nested v c startat ps a
    else if likes v c p.kind = false then loop nested v c startat ps a
    else match enq nested v c p.key p.kind with
      | .error e => .error e
      | .ok r =>
        let a := a.or r.act
        if a.take || a.drop then .ok ⟨a, r.own, r.effs⟩
        else if r.own = false then .error .ub
        else match loop nested v c startat ps a with
          | .error e => .error e
          | .ok t => .ok ⟨t.act, t.own, r.effs ++ t.effs⟩

/-- The end of `rtpp_pproc_mgr_handleat`, pproc_manager.c:219-234: the packet is given up unless it was taken. -/
def finish (c : Ctx) : Except Fault Enq → Except Fault (Act × List Eff)
  | .error e => .error e
  | .ok r =>
    if !r.act.take || r.act.drop then
      if r.own then .ok (r.act, r.effs ++ [.drop c.inS c.pkt]) else .error .ub
    else .ok (r.act, r.effs)

/-- `rtpp_pproc_mgr_handleat`, pproc_manager.c:180-235, of the manager of stream `m`.  The first argument bounds the
nesting of calls as the debug build does (lines 189, 197-200). -/
def handleat (v : View) : Nat → Sid → Ctx → Nat → Except Fault (Act × List Eff)
  | 0, _, _, _ => .error .abort
  | n + 1, m, c, startat => finish c (loop (handleat v n) v c startat (v.mgr m) Act.nop)

/-- Nesting allowed: `max_recursion` is 16 and has to stay positive. -/
def depth : Nat := 15

/-! ### The modules -/

/-- `struct ice_lite_agent_cfg`, rtpp_ice_lite.c:109-119. -/
structure Agent where
  completed : Bool := false
  /-- `sock->laddr.len != 0`. -/
  started : Bool := false
  /-- `sock->rh != NULL`. -/
  bound : Bool := false
  deriving DecidableEq, Repr

/-- `enum rdc_state`, rtpp_dtls_conn.c:71-76. -/
inductive CSt where
  | init
  | connecting
  | up
  | dead
  deriving DecidableEq, Repr

inductive CMode where
  | actpass
  | active
  | passive
  deriving DecidableEq, Repr

/-- `struct rtpp_dtls_conn_priv`, rtpp_dtls_conn.c:133-151; `fp`: the fingerprint to expect. -/
structure Conn where
  st : CSt := .init
  mode : CMode := .actpass
  fp : Option Nat := none
  ssrc : Nat := 0
  deriving DecidableEq, Repr

/-- `struct rdc_peer_spec` with the results of the checks at rtpp_dtls_conn.c:300-321 (`ssrc`: absent, bad, value). -/
structure Peer where
  passive : Bool
  algOk : Bool
  lenOk : Bool
  fp : Nat
  ssrc : Option (Option Nat)
  deriving DecidableEq, Repr

/-- `rtpp_dtls_conn_setmode`, rtpp_dtls_conn.c:278-335; `connects`: the result of `tls_connect`. -/
def setmode (c : Conn) (sp : Option Peer) (connects : Bool) : Conn × Bool :=
  match sp with
  | none => (c, true)
  | some s =>
    let my := if s.passive then CMode.active else CMode.passive
    if my ≠ c.mode ∧ c.st ≠ .init then (c, false)
    else if s.algOk = false then (c, false)
    else if s.lenOk = false then (c, false)
    else
      let c := { c with fp := some s.fp }
      if s.ssrc = some none then (c, false)
      else
        let c := match s.ssrc with
          | some (some v) => { c with ssrc := v }
          | _ => c
        if my = .active ∧ c.st = .init then
          let c := { c with st := .connecting }
          if connects then ({ c with mode := my }, true) else (c, false)
        else ({ c with mode := my }, true)

/-- What the environment answers in `rtpp_dtls_conn_dtls_recv`: `BIO_write`, the state of the TLS connection before,
the result of the handshake step, the state after it, the keys, the fingerprint of the peer's certificate, and the two
SRTP contexts. -/
structure Hs where
  bio : Bool
  okBefore : Bool
  stepOk : Bool
  okAfter : Bool
  keysOk : Bool
  peer : Option Nat
  srtpOk : Bool
  deriving DecidableEq, Repr

/-- `rtpp_dtls_conn_dtls_recv`, rtpp_dtls_conn.c:368-465. -/
def dtlsRecv (c : Conn) (h : Hs) : Conn :=
  if c.st = .dead then c
  else
    let c := if c.st = .init then { c with st := .connecting } else c
    if h.bio = false then c
    else if h.okBefore then c
    else if c.st = .up then { c with st := .dead }
    else if h.stepOk = false then { c with st := .dead }
    else if h.okAfter = false then c
    else if h.keysOk = false then { c with st := .dead }
    else match h.peer with
      | none => { c with st := .dead }
      | some f =>
        if c.fp ≠ none ∧ c.fp ≠ some f then { c with st := .dead }
        else if h.srtpOk = false then { c with st := .dead }
        else { c with st := .up }

/-- `struct wipkt`, rtpp_ice_lite.c:154-158. -/
structure IItem where
  agent : Nat
  s : Sid
  p : Pkt
  deriving DecidableEq, Repr

/-- `struct wipkt`, rtpp_dtls_gw.c:107-110. -/
structure DItem where
  dir : Dir
  conn : Nat
  c : Ctx
  deriving DecidableEq, Repr

/-- Who sent a packet: the relay (at the end of a chain), the ICE agent (`udp_send`, rtpp_ice_lite.c:188-202), or the
DTLS connection (`bio_write`, rtpp_dtls_conn.c:551-575). -/
inductive By where
  | relay
  | stun (agent : Nat)
  | hs (conn : Nat)
  deriving DecidableEq, Repr

structure Sent where
  to : Sid
  dst : Option Addr
  pkt : Pkt
  who : By
  deriving DecidableEq, Repr

/-- The session.  `ice` and `dtls` are what the commands accepted so far amount to: the agent and the connection in
charge of the RTP stream of a side.  They, `log` and `took` are not in the code. -/
structure St where
  mgr : Sid → List Proc
  strm : Sid → Strm
  /-- The stream has a socket. -/
  fd : Sid → Bool
  agents : List Agent
  conns : List Conn
  iceQ : List IItem
  dtlsQ : List DItem
  ice : Bool → Option Nat
  dtls : Bool → Option Nat
  /-- Packets sent. -/
  log : List Sent
  /-- Packets shown to other processors of the chains. -/
  seen : List Pkt

/-- `_rtpp_stream_update_sendable`, rtpp_stream.c:798-811, without the packet port. -/
def St.sendable (st : St) (s : Sid) : Bool := st.fd s && (st.strm s).rem.isSome

def St.completed (st : St) (a : Nat) : Bool :=
  match st.agents[a]? with
  | some g => g.completed
  | none => false

def St.view (st : St) (iceRoom dtlsRoom : Bool) : View :=
  ⟨st.mgr, st.completed, st.sendable, iceRoom, dtlsRoom⟩

def upd {α β : Type} [DecidableEq α] (f : α → β) (a : α) (b : β) : α → β := fun x => if x = a then b else f x

/-- Carry out one effect; `now`, `chg`: the time and whether the analyser reports a change of SSRC
(rtpp_stream.c:226-229). -/
def apply1 (now : Int) (chg : Bool) (st : St) : Eff → St
  | .send to p => { st with log := st.log ++ [⟨to, (st.strm to).rem, p, .relay⟩] }
  | .iceq a s p => { st with iceQ := st.iceQ ++ [⟨a, s, p⟩] }
  | .dtlsq d n c => { st with dtlsQ := st.dtlsQ ++ [⟨d, n, c⟩] }
  | .took _ _ => st
  | .drop _ _ => st
  | .seen _ p => { st with seen := st.seen ++ [p] }
  | .analyzed s p =>
    { st with seen := st.seen ++ [p],
              strm := if s.rtcp = false ∧ chg ∧ (st.strm s).mode ≠ .forceOn then
                  upd st.strm s (Latch.latch (st.strm s) now p.lat) else st.strm }

def applyAll (now : Int) (chg : Bool) (st : St) (es : List Eff) : St := es.foldl (apply1 now chg) st

/-- A packet goes through the chain of stream `m`. -/
def pass (st : St) (now : Int) (chg iceRoom dtlsRoom : Bool) (m : Sid) (c : Ctx) (startat : Nat) :
    Except Fault St :=
  match handleat (st.view iceRoom dtlsRoom) depth m c startat with
  | .error e => .error e
  | .ok (_, es) => .ok (applyAll now chg st es)

inductive Ev where
  /-- A datagram is received by stream `s`; `peer`: the other stream of the pipe is alive. -/
  | rx (s : Sid) (now : Int) (buf : List UInt8) (src : Addr) (chg peer iceRoom dtlsRoom : Bool)
  /-- A player, a copy of another session, or the resizer has a packet for the stream `s.rev`. -/
  | inject (s : Sid) (now : Int) (p : Pkt) (cow resizer chg dtlsRoom : Bool)
  /-- The thread of the ICE module takes an item; `flags`: which pairs of the valid list are completed;
  `replies`: what it sends. -/
  | iceWork (now : Int) (flags : List Bool) (replies : List (Addr × List UInt8))
  /-- The thread of the DTLS module takes an item; `crypt`: the result of `srtp_protect` or `srtp_unprotect`. -/
  | dtlsWork (now : Int) (h : Hs) (crypt : Option (List UInt8)) (sends : List (List UInt8)) (chg dtlsRoom : Bool)
  /-- The subcommand `S` of the ICE module for a side; the results of `icem_comp_add` and `icem_cand_add`. -/
  | iceStart (i : Bool) (comp cand : Bool)
  /-- The subcommand `A` of the ICE module; the result of `ila_set_rauth`. -/
  | iceAuth (i : Bool) (ok : Bool)
  /-- The subcommands `D` and `U` of the ICE module. -/
  | iceOff (i : Bool)
  /-- The subcommands `S`, `A` and `P` of the DTLS module. -/
  | dtlsOn (i : Bool) (sp : Option Peer) (connects : Bool)
  /-- The subcommands `D` and `U` of the DTLS module. -/
  | dtlsOff (i : Bool)
  /-- Another processor comes or goes. -/
  | reg (s : Sid) (order n : Nat) (f : Pkt → Verdict)
  | unreg (s : Sid) (n : Nat)
  /-- Signalling gives the remote address; the socket comes or goes. -/
  | prefill (s : Sid) (now : Int) (a : Addr)
  | socket (s : Sid) (b : Bool)

/-- `ice_lite_activate`, rtpp_ice_lite.c:446-515: the processors of agent `a` for side `i`. -/
def iceProcs (i : Bool) (a : Nat) (mgr : Sid → List Proc) : Sid → List Proc :=
  let m1 := upd mgr (rtp i) (register ⟨oRecv, .ice, .ice a⟩ (mgr (rtp i)))
  let m2 := upd m1 (rtp i) (register ⟨oCtRecv, .dmx, .dmx (rtcp i) (rtcp !i)⟩ (m1 (rtp i)))
  upd m2 (rtcp i).rev (register ⟨oCtSend, .mx, .mx (rtcp !i) (rtp i)⟩ (m2 (rtcp i).rev))

def activate (st : St) (i : Bool) : St × Nat :=
  let a := st.agents.length
  ({ st with mgr := iceProcs i a st.mgr, agents := st.agents ++ [{}], ice := upd st.ice i (some a),
             strm := upd st.strm (rtp i) { st.strm (rtp i) with mode := .forceOff } }, a)

/-- The agent found by the lookup at rtpp_ice_lite.c:589-593, or a new one. -/
def agentOf (st : St) (i : Bool) : St × Nat :=
  match lookup .ice (st.mgr (rtp i)) with
  | some ⟨_, _, .ice a⟩ => (st, a)
  | _ => activate st i

/-- `ice_lite_start`, rtpp_ice_lite.c:401-444, without the reply. -/
def startAgent (g : Agent) (comp cand : Bool) : Agent × Bool :=
  if g.started then (g, true) else ({ g with started := true, bound := comp }, comp && cand)

def setAgent (st : St) (a : Nat) (g : Agent) : St := { st with agents := st.agents.set a g }
def setConn (st : St) (n : Nat) (c : Conn) : St := { st with conns := st.conns.set n c }

/-- `D` and `U` of the ICE module, rtpp_ice_lite.c:596-611. -/
def iceOff (st : St) (i : Bool) : Except Fault (St × Bool) :=
  match lookup .ice (st.mgr (rtp i)) with
  | none => .ok (st, false)
  | some _ =>
    match unregister .mx (st.mgr (rtcp i).rev) with
    | .error e => .error e
    | .ok l1 =>
      match unregister .dmx (st.mgr (rtp i)) with
      | .error e => .error e
      | .ok l2 =>
        match unregister .ice l2 with
        | .error e => .error e
        | .ok l3 =>
          .ok ({ st with mgr := upd (upd st.mgr (rtcp i).rev l1) (rtp i) l3, ice := upd st.ice i none,
                         strm := upd st.strm (rtp i) { st.strm (rtp i) with mode := .normal } }, true)

/-- `iscompleted`, rtpp_ice_lite.c:204-218. -/
def isCompleted (flags : List Bool) : Bool := !flags.isEmpty && flags.all id

/-- `rtpp_ice_lite_worker`, rtpp_ice_lite.c:226-275, for one item. -/
def iceWork (st : St) (now : Int) (flags : List Bool) (replies : List (Addr × List UInt8)) : St :=
  match st.iceQ with
  | [] => st
  | it :: q =>
    let st := { st with iceQ := q }
    match st.agents[it.agent]? with
    | none => st
    | some g =>
      if g.bound = false then st
      else
        let st := { st with log := st.log ++ replies.map fun r =>
          ⟨it.s, some r.1, { buf := r.2, src := r.1 }, By.stun it.agent⟩ }
        if g.completed = false ∧ isCompleted flags then
          let s := { st.strm it.s with mode := .forceOn }
          setAgent { st with strm := upd st.strm it.s (Latch.latch s now it.p.lat) } it.agent
            { g with completed := true }
        else st

/-- `MAX_RPKT_LEN`, rtp_packet.h:37. -/
def maxLen : Nat := 8192

/-- `rtpp_dtls_gw_worker`, rtpp_dtls_gw.c:148-202, for one item, with `rtpp_dtls_conn_srtp_recv`
(rtpp_dtls_conn.c:518-549) and `rtpp_dtls_conn_rtp_send` (475-516).  `srtp_protect` works in place and appends to the
packet: a result longer than the buffer is undefined behaviour. -/
def dtlsWork (st : St) (now : Int) (h : Hs) (crypt : Option (List UInt8)) (sends : List (List UInt8))
    (chg dtlsRoom : Bool) : Except Fault St :=
  match st.dtlsQ with
  | [] => .ok st
  | it :: q =>
    let st := { st with dtlsQ := q }
    match st.conns[it.conn]? with
    | none => .ok st
    | some c =>
      match it.dir with
      | .dtls =>
        let st := setConn st it.conn (dtlsRecv c h)
        .ok { st with log := st.log ++ sends.map fun b =>
          ⟨it.c.inS, (st.strm it.c.inS).rem, { buf := b, src := it.c.pkt.src }, By.hs it.conn⟩ }
      | .srtp =>
        if c.st ≠ .up then .ok st
        else match crypt with
          | none => .ok st
          | some b =>
            pass st now chg true dtlsRoom it.c.inS
              { it.c with pkt := { it.c.pkt with buf := b, openedBy := some it.conn, sealedBy := none } } (oDecrypt + 1)
      | .out =>
        if c.st ≠ .up then .ok st
        else match crypt with
          | none => .ok st
          | some b =>
            if b.length > maxLen then .error .ub
            else pass st now chg true dtlsRoom it.c.inS
              { it.c with pkt := { it.c.pkt with buf := b, sealedBy := some it.conn }, cow := false } (oEncrypt + 1)

/-- `rtpp_dtls_gw_handle_command`, rtpp_dtls_gw.c:364-465, for `S`, `A` and `P`; the creation of the sockets for `P`
(line 387) is not modelled. -/
def dtlsOn (st : St) (i : Bool) (sp : Option Peer) (connects : Bool) : St × Bool :=
  match lookup .din (st.mgr (rtp i)) with
  | some ⟨_, _, .din n⟩ =>
    match st.conns[n]? with
    | none => (st, false)
    | some c => let r := setmode c sp connects
      (setConn st n r.1, r.2)
  | _ =>
    let r := setmode {} sp connects
    if r.2 then
      let n := st.conns.length
      let m1 := upd st.mgr (rtp i) (register ⟨oDecrypt, .din, .din n⟩ (st.mgr (rtp i)))
      let m2 := upd m1 (rtp i).rev (register ⟨oEncrypt, .dout, .dout n⟩ (m1 (rtp i).rev))
      ({ st with mgr := m2, conns := st.conns ++ [r.1], dtls := upd st.dtls i (some n) }, true)
    else (st, false)

/-- `D` and `U` of the DTLS module, rtpp_dtls_gw.c:371-378; the connection goes dead when the last reference to its
configuration does (lines 220-222), here at once. -/
def dtlsOff (st : St) (i : Bool) : Except Fault (St × Bool) :=
  match lookup .din (st.mgr (rtp i)) with
  | some ⟨_, _, .din n⟩ =>
    match unregister .din (st.mgr (rtp i)) with
    | .error e => .error e
    | .ok l1 =>
      match unregister .dout (st.mgr (rtp i).rev) with
      | .error e => .error e
      | .ok l2 =>
        let cs := match st.conns[n]? with
          | some c => st.conns.set n { c with st := .dead }
          | none => st.conns
        .ok ({ st with mgr := upd (upd st.mgr (rtp i) l1) (rtp i).rev l2, dtls := upd st.dtls i none,
                       conns := cs }, true)
  | _ => .ok (st, false)

/-- A datagram as it arrives at a stream. -/
def arrived (st : St) (s : Sid) (buf : List UInt8) (src : Addr) : Pkt :=
  { buf := buf, src := src, need := if s.rtcp then none else st.dtls s.side }

/-- `rtpp_stream_rx`, rtpp_stream.c:1180-1249: the streams afterwards, and whether the packet is handed on. -/
def latchIn (st : St) (s : Sid) (now : Int) (p : Pkt) : (Sid → Strm) × Bool :=
  let r := Latch.rx1 (st.strm s) now p.lat
  let m := upd st.strm s r.1
  let comp : Sid := rtcp s.side
  (if s.rtcp = false ∧ r.2.2 then upd m comp (Latch.guess (m comp) p.lat) else m, r.2.1)

/-- `rxmit_packets`, rtpp_proc.c:67-105, for one datagram: `rtpp_stream_rx`, then the chain of the stream. -/
def receive (st : St) (s : Sid) (now : Int) (buf : List UInt8) (src : Addr) (chg peer iceRoom dtlsRoom : Bool) :
    Except Fault St :=
  let p := arrived st s buf src
  let r := latchIn st s now p
  let st := { st with strm := r.1 }
  if r.2 = false then .ok st
  else pass st now chg iceRoom dtlsRoom s ⟨s, if peer then some s.rev else none, p, false⟩ 0

def ok1 (r : Except Fault St) : Except Fault (St × Bool) :=
  match r with
  | .error e => .error e
  | .ok s => .ok (s, true)

/-- One event and the reply of the command. -/
def step (st : St) : Ev → Except Fault (St × Bool)
  | .rx s now buf src chg peer ir dr => ok1 (receive st s now buf src chg peer ir dr)
  | .inject s now p cow resizer chg dr =>
    ok1 (pass st now chg true dr s ⟨s, some s.rev, { p with sealedBy := none, need := none }, cow⟩
      (if resizer then oResize + 1 else oPlay + 1))
  | .iceWork now flags replies => .ok (iceWork st now flags replies, true)
  | .dtlsWork now h crypt sends chg dr => ok1 (dtlsWork st now h crypt sends chg dr)
  | .iceStart i comp cand =>
    let (st, a) := agentOf st i
    match st.agents[a]? with
    | none => .ok (st, false)
    | some g => let r := startAgent g comp cand
      .ok (setAgent st a r.1, r.2)
  | .iceAuth i ok => .ok ((agentOf st i).1, ok)
  | .iceOff i => iceOff st i
  | .dtlsOn i sp connects => .ok (dtlsOn st i sp connects)
  | .dtlsOff i => dtlsOff st i
  | .reg s order n f =>
    if oAnalyze ≤ order ∧ order ≤ oEncode then
      .ok ({ st with mgr := upd st.mgr s (register ⟨order, .other n, .other f⟩ (st.mgr s)) }, true)
    else .ok (st, false)
  | .unreg s n =>
    match unregister (.other n) (st.mgr s) with
    | .error _ => .ok (st, false)
    | .ok l => .ok ({ st with mgr := upd st.mgr s l }, true)
  | .prefill s now a => .ok ({ st with strm := upd st.strm s (Latch.prefill (st.strm s) now a) }, true)
  | .socket s b => .ok ({ st with fd := upd st.fd s b }, true)

/-- A new stream, rtpp_stream.c:264-360. -/
def strm0 (s : Sid) : Strm :=
  { rtcp := s.rtcp, asym := false, mode := .normal, rem := none, prev := none, untrusted := false, lastUpdate := 0,
    latched := false, ssrc := none, seq := 0, lastSync := 0 }

/-- The chain of a new stream. -/
def chain0 : List Proc := [⟨oAnalyze, .other 0, .analyze⟩, ⟨oRelay, .relay, .relay⟩]

def init : St :=
  { mgr := fun _ => chain0, strm := strm0, fd := fun _ => false, agents := [], conns := [], iceQ := [], dtlsQ := [],
    ice := fun _ => none, dtls := fun _ => none, log := [], seen := [] }

/-- The state after a sequence of events. -/
def run (st : St) : List Ev → Except Fault St
  | [] => .ok st
  | e :: es =>
    match step st e with
    | .error f => .error f
    | .ok (st', _) => run st' es

end Verif.Plane
