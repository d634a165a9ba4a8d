import Verif.Basic

/-!
# Copying the media of one session to another

Model of `src/commands/rpcpv1_ul_subc_copy.c` (the subcommand `C` of an update), of the managers of
packet processors it works on (`src/advanced/pproc_manager.c`) and of the way a packet takes through
them.

Kept: for every stream the list of its processors, in order; what each does with the packet; the
references to the packet; the depth of the recursion; failures to allocate.

Simplified: a session has two streams for RTP and two for RTCP, all there from the start, and the
manager of a stream lives on (the copy holds a reference). Processors other than `relay_packet` and
those of the copy are `other n`: whether such a processor passes, takes or drops the packet is a
function of its number and the stream the packet came in by. The lists do not change while a packet
is handled (each list is taken under the mutex, pproc_manager.c:192-195).
-/

namespace Verif.Copy

/-- `ssp->rtp->stream[side]` or `ssp->rtcp->stream[side]` of session `sess`. -/
structure Strm where
  sess : Nat
  rtcp : Bool
  side : Bool
  deriving DecidableEq, Repr

/-- What a processor decides. `PPROC_ACT_NOP` and `PPROC_ACT_TEE` are `pass`. -/
inductive Act
  | pass
  | take
  | drop
  deriving DecidableEq, Repr

inductive Kind
  /-- rpcpv1_ul_subc_copy.c:88-110 `ul_subc_copy_enqueue`, with the streams of `fwdp` -/
  | copy (i o : Strm)
  /-- rpcpv1_ul_subc_copy.c:81-86 `ul_subc_drop_packets` -/
  | stop
  /-- rtpp_proc_async.c:268-299 `relay_packet` -/
  | relay
  | other (n : Nat)
  deriving DecidableEq, Repr

/-- The key of a processor: the address of `src_key` or `tgt_key` in `fwd[i][j]` of copy number `c`
(the address of `csp`), or any other. -/
inductive Key
  | fwd (c : Nat) (i j tgt : Bool)
  | ext (n : Nat)
  deriving DecidableEq, Repr

/-- pproc_manager.c:50-53 `struct pproc_handler`. -/
structure Proc where
  order : Nat
  key : Key
  kind : Kind
  deriving DecidableEq, Repr

abbrev Mgrs := Strm → List Proc

/-- packet_processor.h:51-65. -/
def ordPlay : Nat := 7
def ordWitness : Nat := 8
def ordRelay : Nat := 12

/-- pproc_manager.c:146-166 in `rtpp_pproc_mgr_register`: behind the processors of the same
order. -/
def ins (p : Proc) : List Proc → List Proc
  | [] => [p]
  | q :: qs => if q.order > p.order then p :: q :: qs else q :: ins p qs

/-- pproc_manager.c:268-283 in `rtpp_pproc_mgr_unregister`: the first processor with that key. -/
def del (k : Key) : List Proc → List Proc
  | [] => []
  | q :: qs => if q.key = k then qs else q :: del k qs

def hasKey (k : Key) (l : List Proc) : Bool := l.any (fun p => p.key == k)

def put (m : Mgrs) (x : Strm) (l : List Proc) : Mgrs := fun y => if y = x then l else m y

/-- What happens to the packet. -/
inductive Ev
  /-- a reference is added and the packet is handed to stream `i` of another session -/
  | copied (i : Strm)
  /-- processor `n` has seen the packet as one that came in by `i` -/
  | seen (n : Nat) (i : Strm)
  /-- the packet, with the reference, is handed to the sender, to be sent through stream `o` -/
  | sent (o : Strm)
  /-- some other processor keeps the packet, with the reference -/
  | kept (i : Strm)
  /-- the reference is dropped -/
  | freed (i : Strm)
  deriving DecidableEq, Repr

/-- What the rest of the server does. -/
structure World where
  /-- `issendable` -/
  snd : Strm → Bool
  oth : Nat → Strm → Act

/-- pproc_manager.c:202-218, the loop of `handleat` over the processors of the stream `i` by which
the packet came in; `o` is the stream through which it is to leave. `rec` stands for the call in
rpcpv1_ul_subc_copy.c:107. `none`: the stack is exhausted. -/
def loop (rec : Strm → Strm → Option (List Ev)) (W : World) (i o : Strm) (startat : Nat) :
    List Proc → Option (Act × List Ev)
  | [] => some (.pass, [])
  | p :: ps =>
    if 0 < startat ∧ p.order < startat then loop rec W i o startat ps
    else
      match p.kind with
      | .copy ti to =>
        match rec ti to with
        | none => none
        | some l =>
          match loop rec W i o startat ps with
          | none => none
          | some (a, l') => some (a, .copied ti :: (l ++ l'))
      | .stop => some (.drop, [])
      | .relay => if W.snd o then some (.take, [.sent o]) else some (.drop, [])
      | .other n =>
        match W.oth n i with
        | .pass =>
          match loop rec W i o startat ps with
          | none => none
          | some (a, l') => some (a, .seen n i :: l')
        | .take => some (.take, [.seen n i, .kept i])
        | .drop => some (.drop, [.seen n i])

/-- pproc_manager.c:180-235 `rtpp_pproc_mgr_handleat`, with room for `d` more calls on the stack. -/
def handleat (W : World) (m : Mgrs) : Nat → Strm → Strm → Nat → Option (Act × List Ev)
  | 0, _, _, _ => none
  | d + 1, i, o, startat =>
    match loop (fun ti to => (handleat W m d ti to (ordPlay + 1)).map (·.2)) W i o startat (m i) with
    | none => none
    | some (.take, l) => some (.take, l)
    | some (a, l) => some (a, l ++ [.freed i])

/-- rpcpv1_ul_subc_copy.c:203-225, 227-263: what is registered where, in this order, by copy number
`c` of session `a` (the stream found by the tags is `s`) to session `b` (`strmp_in` is `t`). -/
def regs (c a : Nat) (s : Bool) (b : Nat) (t : Bool) : List (Strm × Proc) :=
  [false, true].flatMap fun i => [false, true].flatMap fun j =>
    [(⟨a, i, s ^^ j⟩, ⟨ordWitness, .fwd c i j false, .copy ⟨b, i, t ^^ !j⟩ ⟨b, i, t ^^ j⟩⟩),
     (⟨b, i, t ^^ j⟩, ⟨ordPlay, .fwd c i j true, .stop⟩)]

/-- The loop at rpcpv1_ul_subc_copy.c:227-263; registration number `n` fails if `fail = some n`. -/
def regAll (m : Mgrs) (fail : Option Nat) : Nat → List (Strm × Proc) → Mgrs × Bool
  | _, [] => (m, true)
  | n, (x, p) :: r => if fail = some n then (m, false) else regAll (put m x (ins p (m x))) fail (n + 1) r

/-- rpcpv1_ul_subc_copy.c:112-127 `rtpp_subcommand_ul_copy_uninstall`. When memory is short
(`ok n = false`) the processor stays (pproc_manager.c:273-277, the result is not looked at); when it
is not there, the process aborts (pproc_manager.c:297). -/
def unregAll (ok : Nat → Bool) : Nat → Mgrs → List (Strm × Proc) → Except Fault Mgrs
  | _, m, [] => .ok m
  | n, m, (x, p) :: r =>
    if hasKey p.key (m x) then
      unregAll ok (n + 1) (if ok n then put m x (del p.key (m x)) else m) r
    else .error .abort

/-- A copy in effect: its number, where from, where to. -/
structure Cp where
  c : Nat
  a : Nat
  s : Bool
  b : Nat
  t : Bool
  deriving DecidableEq, Repr

def Cp.regs (x : Cp) : List (Strm × Proc) := Copy.regs x.c x.a x.s x.b x.t

structure St where
  m : Mgrs
  cps : List Cp
  /-- copies given up, some of whose processors stayed, so that the object lives on -/
  stale : List Nat
  dead : List Nat
  ab : Bool

/-- rtpp_proc_async.c:336-351 and the clone of it each stream begins with. -/
def base : List Proc := [⟨ordWitness, .ext 0, .other 0⟩, ⟨ordRelay, .ext 1, .relay⟩]

def init : St := { m := fun _ => base, cps := [], stale := [], dead := [], ab := false }

/-- How the command fails. -/
inductive Fail
  | no
  /-- in registration number `n` -/
  | reg (n : Nat)
  /-- after the last registration (rpcpv1_ul_subc_copy.c:265-271) -/
  | last
  deriving DecidableEq, Repr

def Fail.at : Fail → Option Nat
  | .reg n => some n
  | _ => none

inductive Op
  /-- the subcommand -/
  | copy (x : Cp) (f : Fail)
  /-- the session is destroyed -/
  | kill (b : Nat) (ok : Nat → Nat → Bool)
  /-- any other registration; only what has been registered is unregistered -/
  | reg (x : Strm) (o n : Nat) (k : Nat)
  | unreg (x : Strm) (k : Nat)

/-- rpcpv1_ul_subc_copy.c:157-284 `rtpp_command_ul_copy_as_subc`. The test at line 196: the two
sessions differ. The number of the copy is the address of a new object, so it is not in use. -/
def copy (σ : St) (x : Cp) (f : Fail) : St :=
  if x.a ∈ σ.dead ∨ x.b ∈ σ.dead ∨ x.a = x.b then σ
  else if σ.cps.any (fun y => y.c == x.c) ∨ x.c ∈ σ.stale then σ
  else
    match regAll σ.m f.at 0 x.regs with
    | (m, ok) =>
      if ok ∧ f ≠ .last then { σ with m := m, cps := x :: σ.cps }
      else
        match unregAll (fun _ => true) 0 m x.regs with
        | .error _ => { σ with ab := true }
        | .ok m => { σ with m := m }

/-- rpcpv1_ul_subc_copy.c:129-134 `rusc_on_tgt_sess_dtor`, for every copy to the session. -/
def killAll (ok : Nat → Nat → Bool) (b : Nat) : Mgrs → List Cp → Except Fault Mgrs
  | m, [] => .ok m
  | m, x :: r =>
    if x.b = b then
      match unregAll (ok x.c) 0 m x.regs with
      | .error e => .error e
      | .ok m => killAll ok b m r
    else killAll ok b m r

/-- The copies to session `b` some of whose processors stay. -/
def left (ok : Nat → Nat → Bool) (b : Nat) (l : List Cp) : List Nat :=
  ((l.filter (fun x => x.b == b)).map (·.c)).filter (fun c => !(List.range 8).all (ok c))

def step (σ : St) : Op → St
  | .copy x f => if σ.ab then σ else copy σ x f
  | .kill b ok =>
    if σ.ab then σ
    else
      match killAll ok b σ.m σ.cps with
      | .error _ => { σ with ab := true }
      | .ok m =>
        { σ with
          m := m
          cps := σ.cps.filter (fun x => x.b != b)
          stale := left ok b σ.cps ++ σ.stale
          dead := b :: σ.dead }
  | .reg x o n k =>
    if σ.ab then σ else { σ with m := put σ.m x (ins ⟨o, .ext k, .other n⟩ (σ.m x)) }
  | .unreg x k =>
    if σ.ab then σ
    else if hasKey (.ext k) (σ.m x) then { σ with m := put σ.m x (del (.ext k) (σ.m x)) }
    else σ

def run (σ : St) (os : List Op) : St := os.foldl step σ

end Verif.Copy
