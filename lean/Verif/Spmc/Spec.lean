import Verif.Spmc.Model

/-!
# Specification of the ring: a bounded FIFO
-/

namespace Verif.Spmc

/-- What the queue holds after the observations (latest first). -/
def content : List Obs → List Nat
  | [] => []
  | .push _ _ vs :: l => content l ++ vs
  | .pop _ _ vs :: l => (content l).drop vs.length
  | .room _ :: l => content l
  | .empty _ :: l => content l

/-- The room the producer found since its previous call ended, if it looked. -/
def lastRoom : List Obs → Option Nat
  | [] => none
  | .push _ _ _ :: _ => none
  | .room n :: _ => some n
  | .pop _ _ _ :: l => lastRoom l
  | .empty _ :: l => lastRoom l

/-- What may be observed next in a queue of capacity `cap`. -/
def Legit (cap : Nat) (l : List Obs) : Obs → Prop
  | .push asked consumed vs => (content l).length + vs.length ≤ cap ∧ vs = (asked.take consumed).filterMap id ∧
      consumed ≤ asked.length ∧ (consumed < asked.length → lastRoom l = some vs.length)
  | .pop _ n vs => vs <+: content l ∧ vs.length ≤ n ∧ (vs = [] → n = 0)
  | .room n => (content l).length + n = cap
  | .empty _ => content l = []

def Good (cap : Nat) : List Obs → Prop
  | [] => True
  | o :: l => Legit cap l o ∧ Good cap l

/-- Everything pushed, in order. -/
def pushed : List Obs → List Nat
  | [] => []
  | .push _ _ vs :: l => pushed l ++ vs
  | _ :: l => pushed l

/-- Everything handed out, in order. -/
def popped : List Obs → List Nat
  | [] => []
  | .pop _ _ vs :: l => popped l ++ vs
  | _ :: l => popped l

end Verif.Spmc
