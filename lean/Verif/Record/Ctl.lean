import Verif.Basic

/-!
# Model of starting and stopping recordings (`src/commands/rpcpv1_copy.c`, `src/commands/rpcpv1_norecord.c`)

The recorders of a session are numbered in the order of their creation; a slot of a stream (`rrc`) holds such a number.
The direction is a truth value.  Outcomes of the allocation of ports and of the constructor of the recorder are given.
Log messages and the text of replies are left out.
-/

namespace Verif.Record.Ctl

inductive Target where
  /-- one file for both directions, RTP and RTCP -/
  | single
  | rtp
  | rtcp
  /-- the first argument tells RTCP -/
  | remote (rtcp : Bool)
  deriving DecidableEq, Repr

/-- A recorder: number of references, where it writes. -/
structure R where
  refs : Nat
  target : Target
  deriving DecidableEq, Repr

/-- The four slots and the recorders made so far; a recorder without references has been flushed and closed. -/
structure S where
  rtp : Bool → Option Nat
  rtcp : Bool → Option Nat
  recs : List R

def S.init : S := ⟨fun _ => none, fun _ => none, []⟩

def set (f : Bool → Option Nat) (i : Bool) (v : Option Nat) : Bool → Option Nat := fun j => if j = i then v else f j

/-- `RTPP_OBJ_INCREF` -/
def incref (l : List R) (r : Nat) : Except Fault (List R) :=
  match l[r]? with
  | some x => if x.refs = 0 then .error .ub else .ok (l.set r { x with refs := x.refs + 1 })
  | none => .error .ub

/-- `RTPP_OBJ_DECREF` -/
def decref (l : List R) (r : Nat) : Except Fault (List R) :=
  match l[r]? with
  | some x => if x.refs = 0 then .error .ub else .ok (l.set r { x with refs := x.refs - 1 })
  | none => .error .ub

/-- Outcomes: can a listener be made (remote only), do the constructors succeed, does the reply fit. -/
structure Env where
  listener : Bool
  ctor1 : Bool
  ctor2 : Bool
  reply : Bool

/-- Lines 124-133 of rpcpv1_copy.c. -/
def joinRtcp (rrtcp : Bool) (s : S) (i : Bool) (r : Nat) : Except Fault (S × Bool) :=
  if s.rtcp i ≠ none then .error .abort
  else if rrtcp then
    match incref s.recs r with
    | .error f => .error f
    | .ok l => .ok ({ s with recs := l, rtcp := set s.rtcp i (some r) }, true)
  else .ok (s, true)

/-- The single file, lines 110-134. -/
def copySingle (rrtcp : Bool) (e : Env) (s : S) (i : Bool) : Except Fault (S × Bool) :=
  if s.rtp i ≠ none then .ok (s, false)
  else
    match s.rtp (!i) with
    | some r =>
      match incref s.recs r with
      | .error f => .error f
      | .ok l => joinRtcp rrtcp { s with recs := l, rtp := set s.rtp i (some r) } i r
    | none =>
      if !e.ctor1 then .ok (s, false)
      else joinRtcp rrtcp { s with recs := s.recs ++ [⟨1, .single⟩], rtp := set s.rtp i (some s.recs.length) } i s.recs.length

/-- Lines 151-170. -/
def copyRtcp (rrtcp : Bool) (e : Env) (remote : Bool) (s : S) (i : Bool) : Except Fault (S × Bool) :=
  if s.rtcp i = none ∧ rrtcp then
    if !e.ctor2 then
      match s.rtp i with
      | none => .error .ub
      | some r =>
        match decref s.recs r with
        | .error f => .error f
        | .ok l => .ok ({ s with recs := l, rtp := set s.rtp i none }, false)
    else
      .ok ({ s with recs := s.recs ++ [⟨1, if remote then .remote true else .rtcp⟩], rtcp := set s.rtcp i (some s.recs.length) }, e.reply)
  else .ok (s, e.reply)

/-- `handle_copy`, rpcpv1_copy.c:96-177; the second part of the result tells success. -/
def copy (rrtcp : Bool) (e : Env) (remote single : Bool) (s : S) (i : Bool) : Except Fault (S × Bool) :=
  if !remote && single then copySingle rrtcp e s i
  else if remote && !e.listener then .ok (s, false)
  else if s.rtp i = none then
    if !e.ctor1 then .ok (s, false)
    else copyRtcp rrtcp e remote { s with
      recs := s.recs ++ [⟨1, if remote then .remote false else .rtp⟩], rtp := set s.rtp i (some s.recs.length) } i
  else copyRtcp rrtcp e remote s i

/-- `handle_stop_record`, rpcpv1_norecord.c:66-83. -/
def stop (rrtcp : Bool) (s : S) (i : Bool) : Except Fault (S × Bool) :=
  match s.rtp i with
  | none => .ok (s, false)
  | some r =>
    let done (s : S) : Except Fault (S × Bool) :=
      match decref s.recs r with
      | .error f => .error f
      | .ok l => .ok ({ s with recs := l, rtp := set s.rtp i none }, true)
    if rrtcp then
      match s.rtcp i with
      | none => .error .abort
      | some q =>
        match decref s.recs q with
        | .error f => .error f
        | .ok l => done { s with recs := l, rtcp := set s.rtcp i none }
    else done s

/-- One slot in the destructor of a stream, rtpp_stream.c:457-458. -/
def drop (l : List R) (v : Option Nat) : Except Fault (List R) :=
  match v with
  | none => .ok l
  | some r => decref l r

/-- The end of the session: the four streams are destroyed. -/
def destroy (s : S) : Except Fault S :=
  match drop s.recs (s.rtp false) with
  | .error f => .error f
  | .ok l1 =>
    match drop l1 (s.rtp true) with
    | .error f => .error f
    | .ok l2 =>
      match drop l2 (s.rtcp false) with
      | .error f => .error f
      | .ok l3 =>
        match drop l3 (s.rtcp true) with
        | .error f => .error f
        | .ok l4 => .ok ⟨fun _ => none, fun _ => none, l4⟩

inductive Op where
  | copy (e : Env) (remote single : Bool) (i : Bool)
  | stop (i : Bool)

def step (rrtcp : Bool) (s : S) : Op → Except Fault (S × Bool)
  | .copy e remote single i => copy rrtcp e remote single s i
  | .stop i => stop rrtcp s i

def run (rrtcp : Bool) : S → List Op → Except Fault S
  | s, [] => .ok s
  | s, o :: l =>
    match step rrtcp s o with
    | .error f => .error f
    | .ok (s', _) => run rrtcp s' l

/-! ## A packet and a stop at the same time

`record_packet`, rtpp_proc_async.c:301-313, runs in a thread that processes packets, `handle_stop_record` in the one that
executes commands; neither takes a lock. -/

structure P where
  /-- the slot of the stream -/
  slot : Option Unit
  refs : Nat
  /-- the packet thread has fetched the pointer and is about to use the recorder -/
  held : Bool
  /-- the command thread has dropped its reference and not yet cleared the slot -/
  mid : Bool
  deriving DecidableEq, Repr

def P.init : P := ⟨some (), 1, false, false⟩

inductive Ev where
  /-- packet thread: `stp_in->rrc` is fetched -/
  | load
  /-- packet thread: `pktwrite` -/
  | call
  /-- command thread: `RTPP_OBJ_DECREF(…->rrc)`, line 80 -/
  | decref
  /-- command thread: `…->rrc = NULL`, line 81 -/
  | clear
  deriving DecidableEq, Repr

def pstep (p : P) : Ev → Except Fault P
  | .load => if p.held then .ok p else .ok { p with held := p.slot.isSome }
  | .call => if !p.held then .ok p else if p.refs = 0 then .error .ub else .ok { p with held := false }
  | .decref => if p.mid then .ok p else
      match p.slot with
      | none => .ok p
      | some _ => if p.refs = 0 then .error .ub else .ok { p with refs := p.refs - 1, mid := true }
  | .clear => if !p.mid then .ok p else .ok { p with slot := none, mid := false }

def prun : P → List Ev → Except Fault P
  | p, [] => .ok p
  | p, e :: l =>
    match pstep p e with
    | .error f => .error f
    | .ok p => prun p l

end Verif.Record.Ctl
