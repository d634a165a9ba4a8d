import Verif.Heard.Model

/-!
# What is in force, told from the history alone (latest event first)
-/

namespace Verif.Heard

def recording : List Ev → Bool
  | [] => false
  | .record on :: _ => on
  | _ :: past => recording past

def playing : List Ev → Bool
  | [] => false
  | .play :: _ => true
  | .stop :: _ => false
  | _ :: past => playing past

def reachable : List Ev → Bool
  | [] => false
  | .addr b :: _ => b
  | _ :: past => reachable past

/-- The payload type asked for last, and whether to hide. -/
def catching : List Ev → Option (Nat × Bool)
  | [] => none
  | .dtmf pt hide :: _ => some (pt, hide)
  | _ :: past => catching past

def copiedTo (k : Nat) : List Ev → Bool
  | [] => false
  | .copy j :: past => j == k || copiedTo k past
  | .uncopy j :: past => !(j == k) && copiedTo k past
  | _ :: past => copiedTo k past

def gaggedBy (k : Nat) : List Ev → Bool
  | [] => false
  | .gag j :: past => j == k || gaggedBy k past
  | .ungag j :: past => !(j == k) && gaggedBy k past
  | _ :: past => gaggedBy k past

/-- The copy is in force, and was asked for before any catching. -/
def before (k : Nat) : List Ev → Bool
  | [] => false
  | .copy j :: past => if j = k then (catching past).isNone else before k past
  | .uncopy j :: past => !(j == k) && before k past
  | _ :: past => before k past

/-- What the party sends is held back: something is played to the peer, or another session is copied here. -/
def Held (past : List Ev) : Prop := playing past = true ∨ ∃ k, gaggedBy k past = true

/-- The packet is of the payload type asked for. -/
def Digit (past : List Ev) (pt : Nat) : Prop := ∃ hide, catching past = some (pt, hide)

/-- … and to be hidden. -/
def Hidden (past : List Ev) (pt : Nat) : Prop := catching past = some (pt, true)

/-- Handles are not used twice at a time; what ends was begun. -/
def Proper : List Ev → Prop
  | [] => True
  | .play :: past => playing past = false ∧ Proper past
  | .stop :: past => playing past = true ∧ Proper past
  | .copy k :: past => copiedTo k past = false ∧ Proper past
  | .uncopy k :: past => copiedTo k past = true ∧ Proper past
  | .gag k :: past => gaggedBy k past = false ∧ Proper past
  | .ungag k :: past => gaggedBy k past = true ∧ Proper past
  | _ :: past => Proper past

/-- Which packets were sent on, and which were recorded. -/
def relayedOf (l : List Out) : List Nat := l.filterMap fun | .relayed p => some p | _ => none
def recordedOf (l : List Out) : List Nat := l.filterMap fun | .recorded p => some p | _ => none

def Out.packet : Out → Nat
  | .recorded p => p
  | .caught p => p
  | .copied _ p => p
  | .relayed p => p

/-- Recording, copies to other sessions and the catching of digits begin or end. -/
def listening : Ev → Bool
  | .record _ => true
  | .dtmf _ _ => true
  | .copy _ => true
  | .uncopy _ => true
  | _ => false

/-- No digit is to be hidden, and there is always memory and room for the worker. -/
def Open : List Ev → Prop
  | [] => True
  | .dtmf _ hide :: past => hide = false ∧ Open past
  | .pkt _ _ room :: past => room = true ∧ Open past
  | .inject _ _ room :: past => room = true ∧ Open past
  | _ :: past => Open past

end Verif.Heard
