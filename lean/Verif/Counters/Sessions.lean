import Verif.Counters.Model
import Verif.Pproc.Model

/-!
# Model: sessions created, destroyed and alive; packets relayed, dropped and ignored
-/

namespace Verif.Counters

/-- Reference counts of all the sessions ever created, and the counters: the thread's own `nsess_created`, the shared
`nsess_created` and the shared `nsess_destroyed`. -/
structure Ss where
  refs : List Nat
  own : Nat
  created : Nat
  destroyed : Nat
  deriving DecidableEq, Repr

def Ss.init : Ss := ⟨[], 0, 0, 0⟩

inductive Sev where
  /-- `rtpp_session_ctor` succeeds, and `nsess_created` is counted, rpcpv1_ul.c:820-826. -/
  | new
  /-- Someone who has a reference takes another one (a table, the registry, a socket, a command). -/
  | hold (i : Nat)
  /-- A reference is given up; `rtpp_session_dtor` counts `nsess_destroyed` (rtpp_session.c:303) with the last. -/
  | drop (i : Nat)
  /-- `flush_cstats`. -/
  | flush
  deriving DecidableEq, Repr

/-- Events that make no sense leave the state as it is. -/
def Ss.step (s : Ss) : Sev → Ss
  | .new => { s with refs := s.refs ++ [1], own := s.own + 1 }
  | .hold i => match s.refs[i]? with
    | some (n + 1) => { s with refs := s.refs.set i (n + 2) }
    | _ => s
  | .drop i => match s.refs[i]? with
    | some (n + 1) => { s with refs := s.refs.set i n, destroyed := s.destroyed + (if n = 0 then 1 else 0) }
    | _ => s
  | .flush => { s with own := 0, created := s.created + s.own }

def Ss.run (s : Ss) : List Sev → Ss
  | [] => s
  | e :: es => Ss.run (s.step e) es

/-- What `handle_info` reports as active sessions (rtpp_command.c:756-759), after the flush at
rtpp_command_async.c:205-207. -/
def Ss.info (s : Ss) : Int :=
  let s := s.step .flush
  (s.created : Int) - s.destroyed

/-- What one U command does to the new session. -/
structure One where
  refs : Nat
  inHt : Bool
  inWrt : Bool
  deriving DecidableEq, Repr

def One.step (o : One) : Ev → One
  | .sessNew => ⟨1, false, false⟩
  | .htAdd => { o with refs := o.refs + 1, inHt := true }
  | .htDel => { o with refs := o.refs - 1, inHt := false }
  | .wrtAdd => { o with refs := o.refs + 1, inWrt := true }
  | .decref => { o with refs := o.refs - 1 }
  -- the command is disposed of right after it has been handled
  | .attach => { o with refs := o.refs - 1 }
  | _ => o

def One.run (o : One) : List Ev → One
  | [] => o
  | e :: es => One.run (o.step e) es

/-! ## Packets -/

structure Pk where
  relayed : Nat
  dropped : Nat
  ignored : Nat
  deriving DecidableEq, Repr

/-- One packet read from a socket: `rtpp_stream_rx` (rtpp_stream.c:1181-1249) refuses it and counts it as ignored, or it
goes down the chain `t` (rxmit_packets, rtpp_proc.c:88-100).  `relay` tells which processors are `relay_packet`
(rtpp_proc_async.c:268-301), which counts a packet as relayed just when it returns `PPROC_ACT_TAKE`. -/
def rxOne {P : Type} (t : List (Pproc.Proc P)) (relay : Pproc.Proc P → Bool) (here : Nat) (auth : Bool) (pkt : P)
    (c : Pk) : Pk :=
  if !auth then { c with ignored := c.ignored + 1 }
  else
    let o := Pproc.handleat t here false 0 pkt
    { c with
      relayed := c.relayed + o.ran.countP (fun p => relay p && (p.enqueue pkt).1.take)
      dropped := c.dropped + (if o.counted.isSome then 1 else 0) }

end Verif.Counters
