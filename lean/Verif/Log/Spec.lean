import Verif.Log.Model

/-!
# What the threads that log may rely on

The words here are about the steps alone: who has asked to log what, who has handed in what and how many messages the thread
of the queue has dealt with.
-/

namespace Verif.Log

/-- The text of a message: the three parts one after the other, cut at 2047 bytes. -/
def whole (r : Raw) : List Nat := (r.pre ++ r.user.getD [] ++ r.post.getD []).take 2047

/-- What is to be in the log for a message. -/
def msgOf (r : Raw) : Msg := ⟨r.prio, whole r⟩

structure Seen where
  /-- places for messages that are not in use -/
  avail : Nat
  /-- the message of a thread between having been accepted and having been handed in -/
  hold : Nat → Option Msg
  /-- the messages in the order of their having been handed in; none is the end of the log -/
  put : List (Option Msg)
  /-- how many of them have been dealt with -/
  did : Nat
  /-- messages for which there was no place -/
  drops : Nat

def Seen.start : Seen := ⟨64, fun _ => none, [], 0, 0⟩

def Seen.next (p : Seen) : Ev → Seen
  | .get t r =>
    if p.avail = 0 then { p with drops := p.drops + 1 }
    else { p with avail := p.avail - 1, hold := upd p.hold t (some (msgOf r)) }
  | .put t => { p with put := p.put ++ [p.hold t], hold := upd p.hold t none }
  | .work => { p with did := p.did + 1 }
  | .rel => { p with avail := p.avail + 1 }
  | .xget => { p with avail := p.avail - 1 }
  | .xput => { p with put := p.put ++ [none] }
  | _ => p

def seen (es : List Ev) : Seen := es.foldl Seen.next Seen.start

/-- The format of every message is one that `vsnprintf` can deal with. -/
def Ev.sane : Ev → Prop
  | .get _ r => r.user ≠ none
  | _ => True

/-- The step is one of the thread of the queue. -/
def Ev.isWk : Ev → Bool
  | .take => true
  | .work => true
  | .rel => true
  | _ => false

/-- The step hands something in. -/
def Ev.isPut : Ev → Bool
  | .put _ => true
  | .xput => true
  | _ => false

end Verif.Log
