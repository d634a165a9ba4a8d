import Verif.Notify.Model

/-!
# What the log of the notification worker should look like

The kernel's side is followed through the log: a descriptor is closed, open, or connected to a target.
-/

namespace Verif.Notify

/-- Descriptors: `none`: not open; `some none`: open; `some (some i)`: connected to target `i`. -/
abbrev Kern := Nat → Option (Option Nat)

def Kern.upd (k : Kern) (f : Nat) (v : Option (Option Nat)) : Kern := fun g => if g = f then v else k g

/-- What a call does to the descriptors. -/
def kstep (k : Kern) : Ev → Kern
  | .socket _ f => k.upd f (some none)
  | .close _ f => k.upd f none
  | .connect i f true => k.upd f (some (some i))
  | _ => k

/-- The kernel hands out descriptors that are not in use. -/
def Fresh (k : Kern) : Ev → Prop
  | .socket _ f => k f = none
  | _ => True

/-- The program closes, binds and connects what is open and not connected yet, and sends for a target over a connection to that target. -/
def Legal (k : Kern) : Ev → Prop
  | .close _ f => k f ≠ none
  | .bind _ f _ => k f = some none
  | .connect _ f _ => k f = some none
  | .send i f _ _ => k f = some (some i)
  | _ => True

def kfold (k : Kern) : List Ev → Kern
  | [] => k
  | e :: es => kfold (kstep k e) es

def AllFresh (k : Kern) : List Ev → Prop
  | [] => True
  | e :: es => Fresh k e ∧ AllFresh (kstep k e) es

def AllLegal (k : Kern) : List Ev → Prop
  | [] => True
  | e :: es => Legal k e ∧ AllLegal (kstep k e) es

/-- An attempt to send; one that succeeded; one that failed. -/
def Ev.isSend : Ev → Bool
  | .send _ _ _ _ => true
  | _ => false

def Ev.isSent : Ev → Bool
  | .send _ _ _ (some _) => true
  | _ => false

def Ev.isConnect : Ev → Bool
  | .connect _ _ _ => true
  | _ => false

/-- The event that ends a failed set-up of the connection. -/
def Ev.refused : Ev → Bool
  | .nosocket _ => true
  | .bind _ _ ok => !ok
  | .connect _ _ ok => !ok
  | _ => false

/-- The target of a call. -/
def Ev.target : Ev → Nat
  | .socket i _ => i
  | .nosocket i => i
  | .close i _ => i
  | .bind i _ _ => i
  | .connect i _ _ => i
  | .send i _ _ _ => i

/-- What is sent by a call that succeeded: the target, the text, and how much of it. -/
def Ev.delivery : Ev → Option (Nat × List UInt8 × Nat)
  | .send i _ d (some n) => some (i, d, n)
  | _ => none

end Verif.Notify
