import Verif.Latch.Model
import Verif.Ulopt.Model
import Verif.Util.Dec

/-!
# Model of what U and L do to a session (`src/commands/rpcpv1_ul.c`, lines 648-994)

One session of the stand-alone program: two sides, each with an RTP and an RTCP stream.  A command of the party with
index `i` gets its port on side `i` and says where and how that party receives, which is kept on side `!i`.  The
modifiers and the peer's address are those of `Verif.Ulopt`; the packets arriving in between are those of
`Verif.Latch`.  Local addresses are numbers.  Finding the session (C22), the weak and strong holds and the timers (C23,
C26), the ports tried for a listener (C24), the table of polled sockets (C29), subcommands (C76), counters (C44, C59)
and recording are elsewhere; the in-process packet ports of the library build are left out.
-/

namespace Verif.Setup

abbrev Bytes := List UInt8

/-- A bound socket: local address and port. -/
structure Sock where
  addr : Nat
  port : Nat
  deriving DecidableEq, Repr

/-- The fields of `struct rtpp_stream` and of its private part the command deals with, rtpp_stream.h:149-188,
rtpp_stream.c:95-137. -/
structure Strm where
  sock : Option Sock
  port : Nat
  laddr : Nat
  l : Latch.Strm
  /-- `hld_stat.status` -/
  hold : Bool
  deriving DecidableEq, Repr

/-- `rtp->stream[i]` and `rtcp->stream[i]`; `codecs`, `ptime` and `resizer` are those of the RTP stream. -/
structure Side where
  rtp : Strm
  rtcp : Strm
  codecs : Option Bytes
  ptime : Int
  /-- the packet size of the resizer, if there is one -/
  resizer : Option Int
  deriving DecidableEq, Repr

/-- Side 0 is `false`.  `tmo`: `timeout_data`, the target and the tag. -/
structure S where
  side : Bool → Side
  tmo : Option (Nat × Bytes)

/-- A command that has been parsed: `cmd->cca.op == UPDATE`, the modifiers, the peer's address, name and tag of the
notification, the time. -/
structure Req where
  update : Bool
  o : Ulopt.Opts
  peer : Ulopt.Peer
  notify : Option (Bytes × Bytes)
  now : Int

/-- What the rest of the program answers.  `listen`: the first of the two ports a listener could be created on,
`rtpp_create_listener` (rtpp_command.c:181-204); `reg`: the sockets could be entered in the table of polled sockets,
rtpp_sessinfo.c:210-246, 266-313; `refuse`: new sessions are refused (shutdown, overload, no memory for one). -/
structure Env where
  tnOn : Bool
  lookup : Bytes → Option Nat
  listen : Option Nat
  reg : Bool
  refuse : Bool
  memT : Bool
  memR : Bool

inductive Reply where
  | err
  | ok (port addr : Nat)
  deriving DecidableEq, Repr

/-- A stream as made by `rtpp_stream_ctor`, rtpp_stream.c:264-377. -/
def strm0 (rtcp : Bool) (a : Nat) : Strm := ⟨none, 0, a, ⟨rtcp, false, .normal, none, none, false, 0, false, none, 0, 0⟩, false⟩

def side0 (a : Nat) : Side := ⟨strm0 false a, strm0 true a, none, 0, none⟩

def addr (x : Nat × Nat) : Latch.Addr := ⟨x.1, x.2⟩

/-- What a party says about one of its two streams, rpcpv1_ul.c:910-931: `prefill_addr` (rtpp_stream.c:872-920),
`reg_onhold` (rtpp_stream.c:922-939), `asymmetric`, `locklatch` (rtpp_stream.c:1137-1146). -/
def hear (t : Strm) (now : Int) (a : Option Latch.Addr) (hd asym : Bool) : Strm :=
  let t1 : Strm := match a with
    | none => t
    | some a => { t with hold := false, l := Latch.prefill t.l now a }
  { t1 with hold := t1.hold || hd, l := { t1.l with asym := asym, latched := t1.l.latched || asym } }

/-- The handler for time-outs after a command, rpcpv1_ul.c:883-908. -/
def handler (v : Env) (r : Req) (old : Option (Nat × Bytes)) : Option (Nat × Bytes) :=
  if r.update then
    match r.notify with
    | none => none
    | some (n, tag) => match v.lookup n with
      | none => none
      | some t => if v.memT then some (t, tag) else none
  else old

/-- The resizer after a command, rpcpv1_ul.c:955-964. -/
def resize (v : Env) (ptime : Int) (old : Option Int) : Option Int :=
  if ptime > 0 then
    match old with
    | some _ => some ptime
    | none => if v.memR then some ptime else none
  else none

/-- What a command of party `i` sets on the other side, rpcpv1_ul.c:910-964. -/
def told (v : Env) (r : Req) (d : Side) : Side :=
  ⟨hear d.rtp r.now (r.peer.ia.map fun x => addr x.1) r.peer.onhold r.o.asym,
   hear d.rtcp r.now (r.peer.ia.map fun x => addr x.2) r.peer.onhold r.o.asym,
   r.o.codecs, d.ptime, resize v r.o.ptime d.resizer⟩

/-- The part of the handler both kinds of command share, rpcpv1_ul.c:883-964; `pidx` is `!i`. -/
def settle (v : Env) (i : Bool) (r : Req) (s : S) : S :=
  ⟨fun j => if j = i then { s.side j with ptime := r.o.ptime } else told v r (s.side j), handler v r s.tmo⟩

/-- Lines 660-666. -/
def noNotify (v : Env) (r : Req) : Bool := r.update && !v.tnOn && r.notify.isSome

/-- `stream[sidx]->laddr` after lines 700-704. -/
def pick (o : Ulopt.Opts) (old : Nat) : Nat :=
  match o.loc with
  | some a => a
  | none => if o.newPort ∧ o.lidx1 = 0 then o.lia0 else old

def setLaddr (d : Side) (a : Nat) : Side := { d with rtp := { d.rtp with laddr := a } }

/-- Lines 713-733 once the listener has been created at port `p`: the sockets are those of the listener if they could be
registered, the ports are set in any case. -/
def setPort (d : Side) (p : Nat) (reg : Bool) : Side :=
  { d with
    rtp := { d.rtp with sock := if reg then some ⟨d.rtp.laddr, p⟩ else d.rtp.sock, port := p },
    rtcp := { d.rtcp with sock := if reg then some ⟨d.rtp.laddr, p + 1⟩ else d.rtcp.sock, port := p + 1 } }

def put (s : S) (i : Bool) (d : Side) : S := { s with side := fun j => if j = i then d else s.side j }

/-- The condition of lines 686-688. -/
def wants (d : Side) (o : Ulopt.Opts) : Bool := d.rtp.sock.isNone || d.rtp.port == 0 || o.newPort

/-- Lines 966-993: port and local address of side `i`. -/
def answer (s : S) (i : Bool) : Reply := .ok (s.side i).rtp.port (s.side i).rtp.laddr

def finish (v : Env) (i : Bool) (r : Req) (s : S) : S × Reply := (settle v i r s, answer s i)

/-- U or L of a session that exists, by the party with index `i`, lines 668-777, 883-993. -/
def exec (s : S) (i : Bool) (r : Req) (v : Env) : S × Reply :=
  if noNotify v r then (s, .err)
  else if wants (s.side i) r.o then
    let d := setLaddr (s.side i) (pick r.o (s.side i).rtp.laddr)
    match v.listen with
    | none => (put s i d, .err)
    | some p => finish v i r (put s i (setPort d p v.reg))
  else finish v i r s

/-- `ulop->lia` for a new session, lines 781-783. -/
def lia (o : Ulopt.Opts) (i : Bool) : Nat :=
  match o.loc with
  | some a => a
  | none => if i then o.lia1 else o.lia0

/-- U that begins a session, lines 778-881, 883-993, with `rtpp_session_ctor`, rtpp_session.c:93-250. -/
def create (r : Req) (v : Env) : Option S × Reply :=
  if noNotify v r || v.refuse then (none, .err)
  else match v.listen with
    | none => (none, .err)
    | some p =>
      let s : S := ⟨fun j => if j = false then setPort (side0 (lia r.o false)) p v.reg else side0 (lia r.o true), none⟩
      (some (finish v false r s).1, (finish v false r s).2)

/-- What happens to a session. -/
inductive Ev where
  | cmd (i : Bool) (r : Req) (v : Env)
  /-- a datagram at the RTP port of side `i` -/
  | rtp (i : Bool) (now : Int) (p : Latch.Pkt) (chg : Bool)
  /-- a datagram at the RTCP port of side `i` -/
  | rtcp (i : Bool) (now : Int) (p : Latch.Pkt)

def media (d : Side) (e : Latch.Ev) : Side :=
  let g := (Latch.step ⟨d.rtp.l, some d.rtcp.l⟩ e).1
  { d with rtp := { d.rtp with l := g.rtp }, rtcp := { d.rtcp with l := g.rtcp.getD d.rtcp.l } }

/-- One event and, for a command, its reply. -/
def step (s : S) : Ev → S × Option Reply
  | .cmd i r v => ((exec s i r v).1, some (exec s i r v).2)
  | .rtp i now p chg => (put s i (media (s.side i) (.rxRtp now p chg)), none)
  | .rtcp i now p => (put s i (media (s.side i) (.rxRtcp now p)), none)

def run (s : S) : List Ev → S
  | [] => s
  | e :: es => run (step s e).1 es

/-- The events with the replies. -/
def hist (s : S) : List Ev → List (Ev × Option Reply)
  | [] => []
  | e :: es => (e, (step s e).2) :: hist (step s e).1 es

/-! ## The text of the reply -/

/-- A local address: `ishostnull` of it (rtpp_network.c:76-97), the advertised address, the result of `addr2char_r`,
whether the family is other than `AF_INET`. -/
structure Bind where
  null : Bool
  adv : Option Bytes
  text : Bytes
  v6 : Bool

/-- The beginning of the reply, rpcpv1_ul.c:140-147 and rtpp_command_reply.c:181-206. -/
def text (b : Bind) (port : Nat) : Bytes :=
  if b.null then Dec.dec port
  else Dec.dec port ++ [32] ++ b.adv.getD b.text ++ (if b.v6 then [32, 54] else [])

end Verif.Setup
