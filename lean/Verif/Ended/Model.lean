import Verif.Basic

/-!
# Model of what is kept of a session's packets, and of what is told when it ends

`_recvfromto`, `recvfromto` (rtpp_network_io.c), `_rtpp_socket_rtp_recv`, `rtpp_socket_rtp_recv_ts` (rtpp_socket.c), `rtpp_pcnt_strm.c`,
`rtpp_pipe_get_stats`, `rtpp_pipe_upd_cntrs` (rtpp_pipe.c) and `rtpp_session_dtor` (rtpp_session.c).

Times are integers in some fine unit: the rounding of `double` is not modelled.  Counters do not wrap.  The statistics are exact (C75); those of
the command thread are put in by it before they are shown (C44).  The counters of relayed and dropped packets are those of C54, jitter and loss
those of C11 and C12.
-/

namespace Verif.Ended

/-- `struct rtpp_timestamp`. -/
structure Ts where
  mono : Int
  wall : Int
  deriving DecidableEq, Repr

/-! ### Receiving -/

/-- A control message of `recvmsg`: `IP_PKTINFO` with the address, `SCM_TIMESTAMP`, others. -/
inductive Cmsg
  | pktinfo (a : List UInt8)
  | stamp (t : Int)
  | other
  deriving DecidableEq, Repr

/-- The loop of `_recvfromto`, rtpp_network_io.c:72-99 (without `IP_RECVDSTADDR`): the address the packet was sent to, and the time, 0 at first. -/
def scan (t : Int) : List Cmsg → Option (List UInt8) × Int
  | [] => (none, t)
  | .pktinfo a :: _ => (some a, t)
  | .stamp u :: r => scan u r
  | .other :: r => scan t r

/-- What is known of a packet: the local address (`none`: the one of the stream) and port, and when it came. -/
structure Got where
  laddr : Option (List UInt8)
  lport : Nat
  time : Ts
  deriving DecidableEq, Repr

/-- `rtpp_socket_rtp_recv_gen`, rtpp_socket.c:299-358, with the time `now` at which the thread has looked. -/
def recv (port : Nat) (now : Ts) (l : List Cmsg) : Got :=
  let s := scan 0 l
  ⟨s.1, port, ⟨now.mono, if s.2 ≠ 0 then s.2 else now.wall⟩⟩

/-! ### Counting -/

/-- `struct rtpp_pcnts_strm`. -/
structure Cnt where
  n : Nat
  first : Ts
  last : Ts
  gap : Int
  deriving DecidableEq, Repr

def cnt0 : Cnt := ⟨0, ⟨0, 0⟩, ⟨0, 0⟩, 0⟩

/-- `rtpp_pcnt_strm_reg_pktin`, rtpp_pcnt_strm.c:108-132, under its lock. -/
def reg (c : Cnt) (t : Ts) : Cnt :=
  let ipi : Int := (t.mono - c.last.mono).natAbs
  { n := c.n + 1
    first := if c.first.mono = 0 then t else c.first
    last := if c.last.mono < t.mono then t else c.last
    gap := if c.first.mono = 0 then c.gap else if c.gap < ipi then ipi else c.gap }

/-! ### The end of a session -/

/-- The four streams: media or control, and the side. -/
structure Strm where
  rtcp : Bool
  side : Bool
  deriving DecidableEq, Repr

/-- A record for the accounting modules: `struct rtpp_acct`, as far as it is modelled; `complete` is not in it. -/
structure Rec where
  seuid : Nat
  init : Int
  destroy : Int
  complete : Bool
  cnt : Strm → Cnt

/-- A session, with the place its destructor has come to (`none`: it stands). -/
structure Sess where
  seuid : Nat
  init : Int
  complete : Bool
  cnt : Strm → Cnt
  pc : Option Nat
  acct : Rec

/-- The statistics, `default_stats` in rtpp_stats.c:79-111, as far as they are about sessions; and the records handed over. -/
structure St where
  /-- the identifiers given so far (C40: none twice), and the sessions whose memory has not been given up -/
  ids : List Nat
  sess : Nat → Option Sess
  created : Nat
  completed : Nat
  timeout : Nat
  destroyed : Nat
  nortp : Nat
  owrtp : Nat
  nortcp : Nat
  owrtcp : Nat
  duration : Int
  recs : List Rec

def st0 : St := ⟨[], fun _ => none, 0, 0, 0, 0, 0, 0, 0, 0, 0, []⟩

/-- `rtpp_pipe_upd_cntrs`, rtpp_pipe.c:224-239. -/
def upd (s : St) (rtcp : Bool) (a : Rec) : St :=
  if (a.cnt ⟨rtcp, false⟩).n = 0 ∧ (a.cnt ⟨rtcp, true⟩).n = 0 then
    if rtcp then { s with nortcp := s.nortcp + 1 } else { s with nortp := s.nortp + 1 }
  else if (a.cnt ⟨rtcp, false⟩).n = 0 ∨ (a.cnt ⟨rtcp, true⟩).n = 0 then
    if rtcp then { s with owrtcp := s.owrtcp + 1 } else { s with owrtp := s.owrtp + 1 }
  else s

/-- What happens; threads interleave in any way.  `packet`: a packet is counted for a stream (rtpp_stream.c:219-241); a thread that has got hold of
the stream may do this while the session is being destroyed. -/
inductive Act
  | create (id : Nat) (now : Int)
  | complete (id : Nat)
  | timeout (id : Nat)
  | packet (id : Nat) (k : Strm) (t : Ts)
  /-- the next action of the destructor, at the time `now` -/
  | destroy (id : Nat) (now : Int)
  deriving DecidableEq, Repr

/-- The statistics after the action `pc` of `rtpp_session_dtor`, rtpp_session.c:280-335: 0 the time; 1-4 the counters of the streams
(rtpp_pipe.c:190-197); 5, 6 `upd_cntrs`; 7, 8 `nsess_destroyed`, `total_duration`; 9 the record. -/
def told (s : St) (x : Sess) : Nat → St
  | 5 => if x.complete then upd s false x.acct else s
  | 6 => if x.complete then upd s true x.acct else s
  | 7 => { s with destroyed := s.destroyed + 1 }
  | 8 => { s with duration := s.duration + (x.acct.destroy - x.acct.init) }
  | 9 => { s with recs := s.recs ++ [x.acct] }
  | _ => s

/-- The counters of a stream copied into the record. -/
def copied (x : Sess) (k : Strm) : Rec := { x.acct with cnt := fun j => if j = k then x.cnt k else x.acct.cnt j }

/-- The record after the action `pc`. -/
def noted (x : Sess) (now : Int) : Nat → Rec
  | 0 => { x.acct with destroy := now, complete := x.complete }
  | 1 => copied x ⟨false, false⟩
  | 2 => copied x ⟨false, true⟩
  | 3 => copied x ⟨true, false⟩
  | 4 => copied x ⟨true, true⟩
  | _ => x.acct

def put (s : St) (id : Nat) (x : Option Sess) : St := { s with sess := fun j => if j = id then x else s.sess j }

def fresh (id : Nat) (now : Int) : Sess := ⟨id, now, false, fun _ => cnt0, none, ⟨id, now, 0, false, fun _ => cnt0⟩⟩

/-- The next action of the destructor of `x`. -/
def destroyNext (s : St) (id : Nat) (x : Sess) (now : Int) : St :=
  let pc := x.pc.getD 0
  put (told s x pc) id (if pc = 9 then none else some { x with pc := some (pc + 1), acct := noted x now pc })

/-- The next state; `none`: this cannot happen.  A session is completed (rpcpv1_ul.c:747-755) or times out (rtpp_proc_ttl.c:95-104) before its last
reference is given up, which begins the destructor. -/
def step (s : St) : Act → Option St
  | .create id now =>
    if id ∈ s.ids then none else some { put s id (some (fresh id now)) with ids := id :: s.ids, created := s.created + 1 }
  | .complete id =>
    match s.sess id with
    | none => none
    | some x =>
      if x.pc.isSome then none
      else some (put { s with completed := if x.complete then s.completed else s.completed + 1 } id (some { x with complete := true }))
  | .timeout id =>
    match s.sess id with
    | none => none
    | some x => if x.pc.isSome then none else some { s with timeout := s.timeout + 1 }
  | .packet id k t =>
    match s.sess id with
    | none => none
    | some x => some (put s id (some { x with cnt := fun j => if j = k then reg (x.cnt k) t else x.cnt j }))
  | .destroy id now =>
    match s.sess id with
    | none => none
    | some x => some (destroyNext s id x now)

/-- A run from the start. -/
inductive Run : List Act → St → Prop
  | nil : Run [] st0
  | snoc {h s a s'} : Run h s → step s a = some s' → Run (h ++ [a]) s'

end Verif.Ended
