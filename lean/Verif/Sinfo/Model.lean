import Verif.Conns.Model

/-!
# The poll tables of the media threads (src/rtpp_sessinfo.c)

Modelled: `rtpp_polltbl_hst_extend` (143-157), `rtpp_polltbl_hst_record` (159-173), `rtpp_sinfo_append` (214-250), `find_polltbl_idx` (252-268),
`rtpp_sinfo_update` (270-317), `rtpp_sinfo_remove` (319-367), `rtpp_sinfo_sync_polltbl` (386-486), and of rtpp_stream.c `set_skt` (941-961),
`get_skt` (964-979) and `update_skt` (1053-1068).

There is one `Pipe` for RTP and one for RTCP.  Streams and sockets are numbers; the streams of one side of a session have the same number in both
pipes.  `refs` counts the references to a socket held by streams, the logs and the poll table, and those that are never given back.  The kernel's
set is `ep`; a socket stands for its descriptor (two sockets that exist have different ones).

`sync` is done by one thread for each pipe: it takes the log under the lock (`begin`), and then goes through what it took without it (`apply`,
one entry at a time), while others may write to the log.  `append`, `update` and `remove` are one step for both pipes: their two halves hold the
lock of the pipe they change, and nothing depends on both pipes.  Failures of the allocator are inputs.
-/

namespace Verif.Sinfo

open Verif.Conns (moveDown)

/-- `enum polltbl_hst_ops`, line 55. -/
inductive HOp where
  | add | del | upd
  deriving DecidableEq, Repr

/-- `struct rtpp_polltbl_hst_ent`, lines 57-61: stream and socket. -/
structure Ent where
  op : HOp
  u : Nat
  s : Option Nat
  deriving DecidableEq, Repr

/-- `struct rtpp_polltbl_hst` (68-75) with its two logs (`bufs`: all the memory they have; `mi`, `si`: which of them is `main`, which `shadow`), `struct rtpp_polltbl` (rtpp_sessinfo.h 58-67) with all the
memory of `mds`, what the thread is about to do (`busy`: next entry, end), the sockets of the streams, the references. -/
structure Pipe where
  bufs : Bool → List Ent
  mi : Bool
  si : Bool
  ulen : Nat
  ilen : Nat
  mds : List (Nat × Nat)
  curlen : Nat
  ep : List Nat
  busy : Option (Nat × Nat)
  fds : List (Nat × Nat)
  refs : Nat → Int

/-- `rtpp_sessinfo_ctor` with 10 entries (lines 186-189), and a zeroed poll table. -/
def Pipe.new : Pipe :=
  { bufs := fun _ => List.replicate 10 ⟨.add, 0, none⟩, mi := false, si := true, ulen := 0, ilen := 10, mds := [], curlen := 0,
    ep := [], busy := none, fds := [], refs := fun _ => 0 }

def Pipe.main (p : Pipe) : List Ent := p.bufs p.mi
def Pipe.shadow (p : Pipe) : List Ent := p.bufs p.si

/-- What `main` points to becomes `l`. -/
def Pipe.write (p : Pipe) (l : List Ent) : Pipe := { p with bufs := fun b => if b = p.mi then l else p.bufs b }

/-- One more or less reference to a socket. -/
def bump (r : Nat → Int) (s : Nat) (d : Int) : Nat → Int := fun x => if x = s then r x + d else r x

/-- Lines 223-227: room for one more entry of the log; `none`: no memory. -/
def room (mem : Bool) (p : Pipe) : Option Pipe :=
  if p.ulen = p.main.length then
    if mem then some (p.write (p.main ++ List.replicate p.ilen ⟨.add, 0, none⟩)) else none
  else some p

/-- `rtpp_polltbl_hst_record`. -/
def record (p : Pipe) (e : Ent) : Except Fault Pipe :=
  if p.ulen < p.main.length then
    .ok { p.write (p.main.set p.ulen e) with
      ulen := p.ulen + 1
      refs := match e.s with | some s => bump p.refs s 1 | none => p.refs }
  else .error .ub

/-- The socket of a stream (`pvt->fd`). -/
def fdOf (p : Pipe) (u : Nat) : Option Nat := (p.fds.find? fun x => x.1 == u).map (·.2)

def setFd (p : Pipe) (u s : Nat) : Pipe := { p with fds := (p.fds.filter fun x => x.1 != u) ++ [(u, s)], refs := bump p.refs s 1 }

/-- Lines 234-236. -/
def pappend (p : Pipe) (u s : Nat) : Except Fault Pipe := record (setFd p u s) ⟨.add, u, some s⟩

/-- Lines 292-301: the socket the stream had is given up. -/
def pupdate (p : Pipe) (u s : Nat) : Except Fault Pipe :=
  match fdOf p u with
  | some old =>
    match record (setFd p u s) ⟨.upd, u, some s⟩ with
    | .error e => .error e
    | .ok p' => .ok { p' with refs := bump p'.refs old (-1) }
  | none => record (setFd p u s) ⟨.add, u, some s⟩

/-- `set_skt` with NULL, if there is a socket; the destructor of the stream does the same. -/
def clear (p : Pipe) (u : Nat) : Pipe :=
  match fdOf p u with
  | some old => { p with fds := p.fds.filter (fun x => x.1 != u), refs := bump p.refs old (-1) }
  | none => p

/-- `find_polltbl_idx` as it is without `RTPP_DEBUG`. -/
def findIdx (p : Pipe) (u : Nat) : Option Nat := (p.mds.take p.curlen).findIdx? fun x => x.1 == u

/-- `EPOLL_CTL_ADD` and `EPOLL_CTL_DEL`; their errors are ignored. -/
def epAdd (ep : List Nat) (s : Nat) : List Nat := if s ∈ ep then ep else ep ++ [s]
def epDel (ep : List Nat) (s : Nat) : List Nat := ep.erase s

/-- Lines 432-469. -/
def apply (p : Pipe) (e : Ent) : Except Fault Pipe :=
  match e.op with
  | .add =>
    match e.s with
    | none => .error .ub
    | some s =>
      if p.curlen < p.mds.length then
        .ok { p with mds := p.mds.set p.curlen (e.u, s), curlen := p.curlen + 1, ep := epAdd p.ep s }
      else .error .ub
  | .del =>
    match findIdx p e.u with
    | none => .error .abort
    | some i =>
      match p.mds[i]? with
      | none => .error .ub
      | some x =>
        match (if 0 < p.curlen - i - 1 then moveDown p.mds i (p.curlen - i - 1) else .ok p.mds) with
        | .error f => .error f
        | .ok mds => .ok { p with mds := mds, curlen := p.curlen - 1, ep := epDel p.ep x.2, refs := bump p.refs x.2 (-1) }
  | .upd =>
    match findIdx p e.u with
    | none => .error .abort
    | some i =>
      match p.mds[i]?, e.s with
      | some x, some s =>
        .ok { p with mds := p.mds.set i (x.1, s), ep := epAdd (epDel p.ep x.2) s, refs := bump p.refs x.2 (-1) }
      | _, _ => .error .ub

/-- Lines 475-483: the references of the log are given back. -/
def dropRefs : List Ent → (Nat → Int) → Nat → Int
  | [], r => r
  | e :: es, r => dropRefs es (match e.s with | some s => bump r s (-1) | none => r)

/-- Lines 400-424 and `e0`; nothing if the thread is still at what it took before. -/
def begin (p : Pipe) (mem : Bool) : Pipe :=
  match p.busy with
  | some _ => p
  | none =>
    if p.ulen = 0 then p
    else if p.mds.length - p.curlen < p.ulen ∧ mem = false then { p with refs := dropRefs (p.main.take p.ulen) p.refs, ulen := 0 }
    else
      { p with
        mds := if p.mds.length - p.curlen < p.ulen then (p.mds ++ List.replicate (p.ulen + p.curlen) (0, 0)).take (p.ulen + p.curlen) else p.mds
        mi := p.si
        si := p.mi
        busy := some (0, p.ulen)
        ulen := 0 }

/-- One time around the loop of lines 426-470. -/
def turn (p : Pipe) : Except Fault Pipe :=
  match p.busy with
  | none => .ok p
  | some (i, n) =>
    if i < n then
      match p.shadow[i]? with
      | none => .error .ub
      | some e =>
        match apply p e with
        | .error f => .error f
        | .ok p' => .ok { p' with busy := if i + 1 < n then some (i + 1, n) else none }
    else .ok { p with busy := none }

structure World where
  rtp : Pipe
  rtcp : Pipe

/-- `rtpp_sinfo_append`: a new socket for each stream of the side `u`. -/
def append (w : World) (u s0 s1 : Nat) (m0 m1 : Bool) : Except Fault World :=
  match room m0 w.rtp with
  | none => .ok w
  | some p0 =>
    match room m1 w.rtcp with
    | none => .ok { w with rtp := p0 }
    | some p1 =>
      match pappend p0 u s0, pappend p1 u s1 with
      | .ok q0, .ok q1 => .ok ⟨q0, q1⟩
      | _, _ => .error .ub

/-- `rtpp_sinfo_update`. -/
def update (w : World) (u s0 s1 : Nat) (m0 m1 : Bool) : Except Fault World :=
  match room m0 w.rtp with
  | none => .ok w
  | some p0 =>
    match room m1 w.rtcp with
    | none => .ok { w with rtp := p0 }
    | some p1 =>
      match pupdate p0 u s0, pupdate p1 u s1 with
      | .ok q0, .ok q1 => .ok ⟨q0, q1⟩
      | _, _ => .error .ub

/-- The reference got from `get_skt` and not given back (lines 362-367). -/
def leak (p : Pipe) (u : Nat) : Pipe :=
  match fdOf p u with
  | some s => { p with refs := bump p.refs s 1 }
  | none => p

/-- Lines 333-340, 349-352: nothing to do if there is no socket. -/
def premove (p : Pipe) (u : Nat) : Except Fault Pipe :=
  match fdOf p u with
  | some _ => record p ⟨.del, u, none⟩
  | none => .ok p

def roomIf (m : Bool) (p : Pipe) (u : Nat) : Option Pipe :=
  match fdOf p u with
  | some _ => room m p
  | none => some p

/-- `rtpp_sinfo_remove`, and after it the streams lose their sockets (rpcpv1_ul.c 707-709; rtpp_session.c 300 and the end of the streams). -/
def remove (w : World) (u : Nat) (m0 m1 : Bool) : Except Fault World :=
  match roomIf m0 w.rtp u with
  | none => .ok ⟨clear (leak w.rtp u) u, clear (leak w.rtcp u) u⟩
  | some p0 =>
    match roomIf m1 w.rtcp u with
    | none => .ok ⟨clear (leak p0 u) u, clear (leak w.rtcp u) u⟩
    | some p1 =>
      match premove p0 u, premove p1 u with
      | .ok q0, .ok q1 => .ok ⟨clear q0 u, clear q1 u⟩
      | _, _ => .error .ub

/-- What the threads do. -/
inductive Op where
  | append (u s0 s1 : Nat) (m0 m1 : Bool)
  | update (u s0 s1 : Nat) (m0 m1 : Bool)
  | remove (u : Nat) (m0 m1 : Bool)
  | beginRtp (mem : Bool)
  | beginRtcp (mem : Bool)
  | turnRtp
  | turnRtcp
  deriving DecidableEq, Repr

def step (w : World) : Op → Except Fault World
  | .append u s0 s1 m0 m1 => append w u s0 s1 m0 m1
  | .update u s0 s1 m0 m1 => update w u s0 s1 m0 m1
  | .remove u m0 m1 => remove w u m0 m1
  | .beginRtp m => .ok { w with rtp := begin w.rtp m }
  | .beginRtcp m => .ok { w with rtcp := begin w.rtcp m }
  | .turnRtp =>
    match turn w.rtp with
    | .error f => .error f
    | .ok p => .ok { w with rtp := p }
  | .turnRtcp =>
    match turn w.rtcp with
    | .error f => .error f
    | .ok p => .ok { w with rtcp := p }

def run (w : World) : List Op → Except Fault World
  | [] => .ok w
  | o :: os =>
    match step w o with
    | .error f => .error f
    | .ok w' => run w' os

end Verif.Sinfo
