import Verif.Setup.Model

/-!
# What the commands are to bring about

Histories are lists of events with their replies.
-/

namespace Verif.Setup

/-- The sockets of side `i` are bound to the local address, RTP to the port, RTCP to the next one. -/
def Bound (s : S) (i : Bool) (a p : Nat) : Prop :=
  (s.side i).rtp.sock = some ⟨a, p⟩ ∧ (s.side i).rtcp.sock = some ⟨a, p + 1⟩

/-- The requests of party `i` that were granted, the latest first. -/
def granted (i : Bool) : List (Ev × Option Reply) → List Req
  | [] => []
  | (.cmd j r _, some (.ok _ _)) :: h => granted i h ++ (if j = i then [r] else [])
  | _ :: h => granted i h

/-- Environment of the granted requests of both, the latest first. -/
def updates : List (Ev × Option Reply) → List (Req × Env)
  | [] => []
  | (.cmd _ r v, some (.ok _ _)) :: h => updates h ++ (if r.update then [(r, v)] else [])
  | _ :: h => updates h

/-- The addresses among requests, `none` for the unspecified one, which puts the party on hold.  Requests without a
usable address are left out. -/
def spoke (r : Req) : Option (Option ((Nat × Nat) × (Nat × Nat))) :=
  if r.peer.onhold then some none else r.peer.ia.map some

/-- What is supposed of the rest of the program: ports are not 0, and the sockets can be registered. -/
def Fair (v : Env) : Prop := v.reg = true ∧ ∀ p, v.listen = some p → 0 < p

/-- No command that asks for another port and names another local address fails for want of a listener. -/
def Smooth : Ev → Prop
  | .cmd _ r v => Fair v ∧ (v.listen = none → r.o.newPort = true → r.o.loc = none ∧ r.o.lidx1 ≠ 0)
  | _ => True

/-- A datagram for side `i`. -/
def Packet (i : Bool) : Ev → Prop
  | .rtp j _ _ _ => j = i
  | .rtcp j _ _ => j = i
  | .cmd _ _ _ => False

/-- A command of party `i` that asks for another port. -/
def Moves (i : Bool) : Ev → Prop
  | .cmd j r _ => j = i ∧ r.o.newPort = true
  | _ => False

/-- What the latest granted request of party `i` asked for is in force: its media is taken from and sent to it in the
way it said, and what is played in its stead has the packet size it said. -/
def InForce (s : S) (i : Bool) : Option Req → Prop
  | some r => (s.side (!i)).rtp.l.asym = r.o.asym ∧ (s.side (!i)).rtcp.l.asym = r.o.asym ∧
      (s.side (!i)).codecs = r.o.codecs ∧ (s.side i).ptime = r.o.ptime ∧
      ((s.side (!i)).resizer = none ∨ 0 < r.o.ptime ∧ (s.side (!i)).resizer = some r.o.ptime)
  | none => (s.side (!i)).rtp.l.asym = false ∧ (s.side (!i)).rtcp.l.asym = false ∧ (s.side (!i)).codecs = none ∧
      (s.side i).ptime = 0 ∧ (s.side (!i)).resizer = none

/-- Where media for party `i` goes, and whether the party is on hold, as far as signalling decides. -/
def Heard (s : S) (i : Bool) : Option (Option ((Nat × Nat) × (Nat × Nat))) → Prop
  | some (some _) => (s.side (!i)).rtp.hold = false ∧ (s.side (!i)).rtcp.hold = false
  | some none => (s.side (!i)).rtp.hold = true ∧ (s.side (!i)).rtcp.hold = true
  | none => (s.side (!i)).rtp.hold = false ∧ (s.side (!i)).rtcp.hold = false

/-- The destination of what is sent to party `i`. -/
def SentTo (s : S) (i : Bool) : Option ((Nat × Nat) × (Nat × Nat)) → Prop
  | some (a, c) => (s.side (!i)).rtp.l.rem = some (addr a) ∧ (s.side (!i)).rtcp.l.rem = some (addr c)
  | none => (s.side (!i)).rtp.l.rem = none ∧ (s.side (!i)).rtcp.l.rem = none

end Verif.Setup
