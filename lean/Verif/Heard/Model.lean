import Verif.Pproc.Model

/-!
# Model of those who listen in on a stream (recording, copies, catching of digits) and of the relaying itself

The RTP stream of one party, with its packet processors of the orders `PPROC_ORD_PLAY`, `PPROC_ORD_WITNESS` and
`PPROC_ORD_RELAY` (packet_processor.h:51-65), in the manager of `Verif/Pproc`.  Left out: the processors of lower
orders (a packet here is one that got past them, after the resizer as before it), those of the encryption, which come
later, accounting of RTCP (an RTCP stream), the other direction.  The peer stream exists.  Each event happens as a whole.
-/

namespace Verif.Heard

open Verif.Pproc

/-- What the processors look at: the packet, and the state of the stream while it is handled. -/
structure Ctx where
  pkt : Nat
  pt : Nat
  /-- There is memory and room in the queue for the worker of `catch_dtmf`. -/
  room : Bool
  /-- `stp_in->rrc != NULL`. -/
  recd : Bool
  /-- `isplayer_active` of the peer stream, rtpp_stream.c:600-611. -/
  player : Bool
  /-- `issendable` of the peer stream. -/
  addr : Bool
  /-- `rtps_c->pt` and `rtps_c->act == PPROC_ACT_DROP_v`, rtpp_catch_dtmf.c:288-289. -/
  cat : Option (Nat × Bool)

def drop : Act := ⟨false, false, true⟩
def tee : Act := ⟨true, false, false⟩
def take : Act := ⟨false, true, false⟩

def kRelay : Nat := 0
def kRecord : Nat := 1
def kPlay : Nat := 2
def kDtmf : Nat := 3
def kCopy (k : Nat) : Nat := 4 + 2 * k
def kGag (k : Nat) : Nat := 5 + 2 * k

/-- `relay_packet`, rtpp_proc_async.c:268-299, registered at 336-343. -/
def relayP : Proc Ctx := ⟨12, kRelay, none, fun c => (if c.addr then take else drop, 0)⟩

/-- `record_packet`, rtpp_proc_async.c:301-313, registered at 345-352. -/
def recordP : Proc Ctx := ⟨8, kRecord, none, fun _ => (Act.nop, 1)⟩

/-- `drop_packets`, rtpp_stream.c:481-486, as registered at 503-509, 533-534. -/
def playP : Proc Ctx := ⟨7, kPlay, none, fun _ => (drop, 2)⟩

/-- `ul_subc_drop_packets`, rpcpv1_ul_subc_copy.c:81-86, as registered at 258-259: another session is copied here. -/
def gagP (k : Nat) : Proc Ctx := ⟨7, kGag k, none, fun _ => (drop, 3)⟩

/-- `ul_subc_copy_enqueue`, rpcpv1_ul_subc_copy.c:88-110, as registered at 254-255. -/
def copyP (k : Nat) : Proc Ctx := ⟨8, kCopy k, none, fun _ => (tee, 4)⟩

/-- `rtp_packet_is_dtmf` (RTP pipe), rtpp_catch_dtmf.c:394-407. -/
def isDtmf (c : Ctx) : Bool :=
  match c.cat with
  | none => false
  | some (pt, _) => pt == c.pt

/-- `rtpp_catch_dtmf_enqueue`, rtpp_catch_dtmf.c:409-433. -/
def dtmfEnq (c : Ctx) : Act :=
  if c.room = false then drop else
    match c.cat with
    | some (_, true) => drop
    | _ => tee

def dtmfP : Proc Ctx := ⟨8, kDtmf, some isDtmf, fun c => (dtmfEnq c, 5)⟩

/-- What is to be seen of a packet. -/
inductive Out where
  /-- `pktwrite` of the recorder. -/
  | recorded (p : Nat)
  /-- Handed to the worker that reports digits. -/
  | caught (p : Nat)
  /-- Handled in the session of that copy. -/
  | copied (k p : Nat)
  /-- `send_pkt` of the peer stream. -/
  | relayed (p : Nat)
  deriving DecidableEq, Repr

/-- What a processor with that key does when it is run: rtpp_proc_async.c:307-311, 276-287, rtpp_catch_dtmf.c:417-431,
rpcpv1_ul_subc_copy.c:99-108. -/
def outOf (c : Ctx) (key : Nat) : Option Out :=
  if key = kRelay then if c.addr then some (.relayed c.pkt) else none
  else if key = kRecord then if c.recd && !c.player then some (.recorded c.pkt) else none
  else if key = kDtmf then if c.room then some (.caught c.pkt) else none
  else if 4 ≤ key ∧ key % 2 = 0 then some (.copied ((key - 4) / 2) c.pkt) else none

structure St where
  /-- The handlers of the manager of the stream. -/
  t : List (Proc Ctx)
  recd : Bool
  player : Bool
  addr : Bool
  cat : Option (Nat × Bool)

/-- A new stream: the manager is a clone of the one of the process (rtpp_stream.c:292), where rtpp_proc_async.c:342
and 351 have registered. -/
def init : St := ⟨register (register [] relayP) recordP, false, false, false, none⟩

inductive Ev where
  /-- A recording is begun (`handle_copy`, rpcpv1_copy.c) or ended (`handle_stop_record`, rpcpv1_norecord.c:66-83). -/
  | record (on : Bool)
  /-- A player for the peer is started (rtpp_stream.c:488-557), has ended or is stopped (570-598, 613-628). -/
  | play
  | stop
  /-- The peer stream gets or loses its address and socket. -/
  | addr (b : Bool)
  /-- The subcommand of `catch_dtmf`: payload type and whether to hide, rtpp_catch_dtmf.c:297-392. -/
  | dtmf (pt : Nat) (hide : Bool)
  /-- The session is copied to another one / the target of the copy is gone. -/
  | copy (k : Nat)
  | uncopy (k : Nat)
  /-- Another session is copied here / no longer. -/
  | gag (k : Nat)
  | ungag (k : Nat)
  /-- A packet of the party, from the network. -/
  | pkt (p pt : Nat) (room : Bool)
  /-- A packet of the player (rtpp_proc_servers.c:137-146) or of a copy from elsewhere (rpcpv1_ul_subc_copy.c:100-108). -/
  | inject (p pt : Nat) (room : Bool)
  deriving DecidableEq, Repr

def St.ctx (s : St) (p pt : Nat) (room : Bool) : Ctx := ⟨p, pt, room, s.recd, s.player, s.addr, s.cat⟩

/-- `handleat`, and what the processors run do. -/
def pass (s : St) (startat : Nat) (p pt : Nat) (room : Bool) : List Out :=
  (handleat s.t 9 false startat (s.ctx p pt room)).ran.filterMap fun q => outOf (s.ctx p pt room) q.key

/-- Unregister, or fail as `rtpp_pproc_mgr_unregister` does. -/
def St.without (s : St) (k : Nat) : Except Fault St :=
  match unregister s.t k with
  | .error e => .error e
  | .ok t => .ok { s with t := t }

def step (s : St) : Ev → Except Fault (St × List Out)
  | .record on => .ok ({ s with recd := on }, [])
  | .play => .ok ({ s with t := register s.t playP, player := true }, [])
  | .stop => (s.without kPlay).map fun s => ({ s with player := false }, [])
  | .addr b => .ok ({ s with addr := b }, [])
  | .dtmf pt hide =>
    .ok ({ s with t := if (lookup s.t kDtmf).isSome then s.t else register s.t dtmfP, cat := some (pt, hide) }, [])
  | .copy k => .ok ({ s with t := register s.t (copyP k) }, [])
  | .uncopy k => (s.without (kCopy k)).map fun s => (s, [])
  | .gag k => .ok ({ s with t := register s.t (gagP k) }, [])
  | .ungag k => (s.without (kGag k)).map fun s => (s, [])
  | .pkt p pt room => .ok (s, pass s 0 p pt room)
  | .inject p pt room => .ok (s, pass s 8 p pt room)

/-- Everything that happened, the latest event first; the second component is all that was to be seen, oldest first. -/
def run : List Ev → Except Fault (St × List Out)
  | [] => .ok (init, [])
  | e :: past =>
    match run past with
    | .error f => .error f
    | .ok (s, l) =>
      match step s e with
      | .error f => .error f
      | .ok (s', o) => .ok (s', l ++ o)

end Verif.Heard
