import Verif.Conns.Model

/-!
# C50: vocabulary
-/

namespace Verif.Conns

/-- The table holds the connections `cs`, in this order, behind the wake-up descriptor `w`: the polled descriptor at each place is the one of the
record at the same place. -/
structure Holds (t : Tbl) (w : Nat) (cs : List Conn) : Prop where
  used : t.used = cs.length + 1
  wake : ∃ p, t.pfds[0]? = some p ∧ p.fd = w
  polled : ∀ k (h : k < cs.length), ∃ p, t.pfds[k + 1]? = some p ∧ p.fd = cs[k].fdIn
  records : ∀ k (h : k < cs.length), t.rccs[k + 1]? = some (some cs[k])
  size : t.rccs.length = 101

/-- The connection is over: the other end of an accepted connection is gone, or of the standard input and there is nothing left to read. -/
def Over (r : Rev) (c : Conn) : Prop :=
  r.bad = true ∧ (c.sock.kind ∈ [Kind.ifsun, .ifsunC, .tcp4, .tcp6, .sysd] ∨ (c.sock.kind = .stdio ∧ r.inp = false))

/-- The commands of the connection are processed in this turn. -/
def Served (r : Rev) (c : Conn) : Prop := r.inp = true ∧ ¬ Over r c

/-- The connection ends in this turn: it is over; or it was served, and an error was found or it is one of those that are for one command.
Datagram sockets never end. -/
def Ends (r : Rev) (c : Conn) (res : Int) : Prop :=
  Over r c ∨ (Served r c ∧ c.sock.kind ∉ [Kind.udp4, .udp6] ∧ (res = -1 ∨ c.sock.kind = .ifsun))

instance (r : Rev) (c : Conn) : Decidable (Over r c) := by unfold Over; infer_instance
instance (r : Rev) (c : Conn) : Decidable (Served r c) := by unfold Served; infer_instance
instance (r : Rev) (c : Conn) (res : Int) : Decidable (Ends r c res) := by unfold Ends; infer_instance

/-- The connections with the answer of `poll` for each; the wake-up descriptor has place 0. -/
def answered (revs : Nat → Rev) (cs : List Conn) : List (Rev × Conn) := cs.mapIdx fun k c => (revs (k + 1), c)

/-- The connections after a turn: those that do not end, in the order they had. -/
def survivors (revs : Nat → Rev) (out : Nat → Int) (cs : List Conn) : List Conn :=
  ((answered revs cs).filter fun a => !decide (Ends a.1 a.2 (out a.2.id))).map (·.2)

/-- The connections that end in a turn. -/
def ended (revs : Nat → Rev) (out : Nat → Int) (cs : List Conn) : List Conn :=
  ((answered revs cs).filter fun a => decide (Ends a.1 a.2 (out a.2.id))).map (·.2)

/-- The connections served in a turn. -/
def servedIn (revs : Nat → Rev) (cs : List Conn) : List Conn :=
  ((answered revs cs).filter fun a => decide (Served a.1 a.2)).map (·.2)

/-- The descriptors which a record owns: none if it is a control socket itself. -/
def Conn.owned (c : Conn) : List Nat :=
  if c.fdIn = c.sock.fdIn then [] else if c.fdOut = c.fdIn then [c.fdIn] else [c.fdIn, c.fdOut]

/-- The records served, the records freed, the descriptors taken and closed. -/
def Ev.servedId : Ev → Option Nat
  | .served i => some i
  | _ => none

def Ev.goneId : Ev → Option Nat
  | .gone i => some i
  | _ => none

def Ev.closeFd : Ev → Option Nat
  | .close f => some f
  | _ => none

def Ev.tookFd : Ev → Option Nat
  | .took f => some f
  | _ => none

/-- What the kernel sees: `fds` are the open descriptors.  `none`: a descriptor is closed that is not open, or given out while open. -/
def kernel : List Nat → List Ev → Option (List Nat)
  | fds, [] => some fds
  | fds, .took f :: es => if f ∈ fds then none else kernel (f :: fds) es
  | fds, .close f :: es => if f ∈ fds then kernel (fds.erase f) es else none
  | fds, _ :: es => kernel fds es

/-- The kernel gives out only descriptors that are not open. -/
def Fair : List Nat → List Ev → Prop
  | _, [] => True
  | fds, .took f :: es => f ∉ fds ∧ Fair (f :: fds) es
  | fds, .close f :: es => Fair (fds.erase f) es
  | fds, _ :: es => Fair fds es

end Verif.Conns
