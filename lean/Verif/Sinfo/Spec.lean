import Verif.Sinfo.Model

/-!
# What the poll tables are to hold (property C29)
-/

namespace Verif.Sinfo

/-- The entries of the poll table. -/
def Pipe.table (p : Pipe) : List (Nat × Nat) := p.mds.take p.curlen

/-- What the thread took and has not yet done. -/
def Pipe.taken (p : Pipe) : List Ent :=
  match p.busy with
  | none => []
  | some (i, n) => (p.shadow.take n).drop i

/-- What is in the log. -/
def Pipe.logged (p : Pipe) : List Ent := p.main.take p.ulen

/-- Nothing is left to do. -/
def Pipe.Settled (p : Pipe) : Prop := p.busy = none ∧ p.ulen = 0

/-- The socket of an entry. -/
def sockOf (e : Ent) : Option Nat := e.s

/-- What a change means for a list of streams and sockets; `none`: it makes no sense. -/
def change (t : List (Nat × Nat)) (e : Ent) : Option (List (Nat × Nat)) :=
  match e.op, e.s with
  | .add, some s => if e.u ∈ t.map (·.1) then none else some (t ++ [(e.u, s)])
  | .del, none => if e.u ∈ t.map (·.1) then some (t.filter fun x => x.1 != e.u) else none
  | .upd, some s => if e.u ∈ t.map (·.1) then some (t.map fun x => if x.1 = e.u then (x.1, s) else x) else none
  | _, _ => none

def changes : List (Nat × Nat) → List Ent → Option (List (Nat × Nat))
  | t, [] => some t
  | t, e :: es => (change t e).bind fun t' => changes t' es

/-- The references to a socket: of streams, of entries not yet applied, of the poll table. -/
def Pipe.held (p : Pipe) (s : Nat) : Nat :=
  (p.fds.map (·.2)).count s + ((p.taken ++ p.logged).filterMap sockOf).count s + (p.table.map (·.2)).count s

/-- The table has exactly the streams with a socket, each once, with the socket it has; so has the kernel. -/
structure Exact (p : Pipe) : Prop where
  same : ∀ u s, (u, s) ∈ p.table ↔ fdOf p u = some s
  once : (p.table.map (·.1)).Nodup
  kernel : ∀ s, s ∈ p.ep ↔ ∃ u, (u, s) ∈ p.table
  kernelOnce : p.ep.Nodup

/-- What the callers see to: a stream gets its first socket with `append` (rpcpv1_ul.c 689, 724; rtpp_session.c 212), and a new socket is one
nobody refers to; and what is assumed of the allocator: `remove` and `sync` get what they ask for. -/
def Ok (w : World) : Op → Prop
  | .append u s0 s1 _ _ => fdOf w.rtp u = none ∧ fdOf w.rtcp u = none ∧ w.rtp.refs s0 = 0 ∧ w.rtcp.refs s1 = 0
  | .update _ s0 s1 _ _ => w.rtp.refs s0 = 0 ∧ w.rtcp.refs s1 = 0
  | .remove _ m0 m1 => m0 = true ∧ m1 = true
  | .beginRtp m => m = true
  | .beginRtcp m => m = true
  | _ => True

/-- What can come to be. -/
inductive Reach : World → Prop where
  | init : Reach ⟨Pipe.new, Pipe.new⟩
  | step {w w'} (o : Op) : Reach w → Ok w o → step w o = .ok w' → Reach w'

end Verif.Sinfo
