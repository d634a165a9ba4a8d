import Verif.Netio.Model

/-! # What is to be sent, told from the history alone -/

namespace Verif.Netio

/-- A message handed over: from which socket, what, where to, how often. -/
structure Msg where
  sock : Nat
  data : List Nat
  to : Nat
  copies : Nat
  deriving DecidableEq, Repr

/-- What the history tells: the contents of the packets, the present addresses, the messages handed
over so far, and how many of them came before the order to stop. -/
structure Hist where
  data : List (List Nat)
  addrs : Nat → Nat
  msgs : List Msg
  stop : Option Nat

def Hist.step (dmode : Bool) (h : Hist) : Ev → Hist
  | .onew d => { h with data := h.data ++ [d] }
  | .addr a v => { h with addrs := fun x => if x = a then v else h.addrs x }
  | .hand s p a true =>
    let d := h.data.getD p []
    { h with msgs := h.msgs ++ [⟨s, d, h.addrs a, if dmode = true ∧ d.length < 128 then 2 else 1⟩] }
  | .reply s p v true => { h with msgs := h.msgs ++ [⟨s, h.data.getD p [], v, 1⟩] }
  | .stop => { h with stop := some h.msgs.length }
  | _ => h

def hist (dmode : Bool) (es : List Ev) : Hist := es.foldl (Hist.step dmode) ⟨[], fun _ => 0, [], none⟩

/-- The attempts to send a message. -/
def attempts (m : Msg) (rs : List Res) : List Tx := rs.map fun r => ⟨some m.sock, m.data, m.to, r⟩

/-- Results of attempts after which another one is due: not all copies accepted, at most three
temporary errors, no other error. -/
def Going (n : Nat) (rs : List Res) : Prop :=
  rs.count .ok < n ∧ rs.count .soft ≤ 3 ∧ rs.count .hard = 0

/-- Results of attempts after which there are no more: all copies were accepted, or else the last
attempt met the fourth temporary error or another error. -/
def Done (n : Nat) (rs : List Res) : Prop :=
  (rs.count .ok = n ∧ rs.count .soft ≤ 3 ∧ rs.count .hard = 0) ∨
  (∃ rs', rs = rs' ++ [.hard] ∧ Going n rs') ∨
  (∃ rs', rs = rs' ++ [.soft] ∧ Going n rs' ∧ rs'.count .soft = 3)

/-- The messages of `ms` that are done with, one list of results each, and their attempts. -/
inductive Sent : List Msg → List Tx → Prop
  | nil : Sent [] []
  | snoc {ms l m rs} : Sent ms l → Done m.copies rs → Sent (ms ++ [m]) (l ++ attempts m rs)

/-- The references to a packet that items of the queue and of the thread have. -/
def pending (st : St) : List Item :=
  (match st.cur with | some c => [c.it] | none => []) ++ items st.batch ++ items st.queue

/-- Nothing is left to do for the thread, or it has ended. -/
def Idle (st : St) : Prop := st.cur = none ∧ st.batch = [] ∧ (st.out = true ∨ st.queue = [])

/-- A step of the thread. -/
def Ev.thread : Ev → Bool
  | .take => true
  | .go _ => true
  | _ => false

end Verif.Netio
