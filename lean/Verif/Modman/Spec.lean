import Verif.Modman.Model

/-! What the properties of the delivery of records are stated with. -/

namespace Verif.Modman

/-- The records the module `j` has been called with, in order. -/
def callsOf (j : Nat) (out : List Out) : List Rec :=
  out.filterMap fun
    | .call j' r => if j' = j then some r else none
    | _ => none

/-- The records that a message in the log tells have not been handed to the module `j`. -/
def droppedOf (j : Nat) (out : List Out) : List Rec :=
  out.filterMap fun
    | .full j' r => if j' = j then some r else none
    | .nomem j' r => if j' = j then some r else none
    | _ => none

/-- The record that an event offers to the module `j`, which asks for `c`: that of a session when its end comes to the
module, that of a packet unless none could be made. -/
def offer (c : MCfg) (j : Nat) : Ev → Option Rec
  | .acct i j' _ => if j' = j ∧ c.aapi ∧ c.acct then some (.sess i) else none
  | .pkt p j' m => if j' = j ∧ c.aapi ∧ c.rtcp ∧ m ≠ .no then some (.pkt p j) else none
  | _ => none

def offered (c : MCfg) (j : Nat) (es : List Ev) : List Rec := es.filterMap (offer c j)

/-- Sessions that have been created. -/
def created (es : List Ev) : Nat := es.count .newSess

def Ev.isPkt : Ev → Bool
  | .newPkt _ => true
  | _ => false

/-- Packets that have arrived. -/
def arrived (es : List Ev) : Nat := es.countP Ev.isPkt

end Verif.Modman
