import Verif.Sess.Model

/-!
# Specification vocabulary for the session table

The sessions that exist after a history are read off the outcomes alone: created and not torn down since.
-/

namespace Verif.Sess

/-- A session as its creator described it. -/
structure Rec where
  p : Nat
  cid : Bytes
  ft : Bytes
  deriving DecidableEq, Repr

/-- The records after an event with a given outcome. -/
def recs (l : List Rec) : Out → List Rec
  | .created p cid ft => l ++ [⟨p, cid, ft⟩]
  | .deleted _ gone => l.filter (fun r => !gone.contains r.p)
  | .expired gone => l.filter (fun r => !gone.contains r.p)
  | .purged => []
  | _ => l

/-- The sessions that exist after a history with the given outcomes, oldest first. -/
def live (os : List Out) : List Rec := os.foldl recs []

/-- A session with tag `st` is the one meant by the tag `t`: the same tag, possibly followed by a media number. -/
def Under (st t : Bytes) : Prop := st = t ∨ ∃ m, st = t ++ semi :: m

/-- A session with tag `st` answers to a request with from-tag `ft` and to-tag `tt` on leg `k`: it is the
requested caller's (0), or it is the requested callee's (1), where the callee's tag may be followed by a media
number if the request's from-tag ends in the same media number. -/
def Answers (ft : Bytes) (tt : Option Bytes) (st : Bytes) (k : Nat) : Prop :=
  (k = 0 ∧ st = ft) ∨
  (k = 1 ∧ st ≠ ft ∧ ∃ t, tt = some t ∧
    (st = t ∨ ((t ++ [semi]) <+: st ∧ ∃ a b m, semi ∉ m ∧ st = a ++ semi :: m ∧ ft = b ++ semi :: m)))

/-- A session with tag `st` is addressed by a DELETE. -/
def Addressed (ft : Bytes) (tt : Option Bytes) (st : Bytes) : Prop :=
  Under st ft ∨ ∃ t, tt = some t ∧ Under st t

/-- A session with tag `st` is addressed by exactly the tag it is compared with: the from-tag, or the to-tag if it is
not under the from-tag. -/
def Exactly (ft : Bytes) (tt : Option Bytes) (st : Bytes) : Prop := st = ft ∨ (¬ Under st ft ∧ tt = some st)

/-- `s'` is `s` after a DELETE: the strong hold, or the weak hold of one side, is given up and nothing else
changes. -/
structure GivenUp (weak : Bool) (ft : Bytes) (s s' : Sess) : Prop where
  strong : s'.strong = (weak && s.strong)
  weak1 : s'.weak true = true ↔ s.weak true = true ∧ ¬ (weak = true ∧ Under s.fromTag ft)
  weak0 : s'.weak false = true ↔ s.weak false = true ∧ ¬ (weak = true ∧ ¬ Under s.fromTag ft)
  rest : s'.fromTag = s.fromTag ∧ s'.complete = s.complete ∧ s'.shared = s.shared ∧ s'.ttl = s.ttl ∧
    s'.maxTtl = s.maxTtl ∧ s'.streamTtl = s.streamTtl

/-- Nothing holds the session any more. -/
def Free (s : Sess) : Prop := s.strong = false ∧ s.weak false = false ∧ s.weak true = false

/-- An event that does not concern the session `r`: time passing, packets of other sessions, commands for other
calls. -/
def Quiet (r : Rec) : Ev → Prop
  | .ul _ cid _ _ _ _ _ => cid ≠ r.cid
  | .look _ _ _ => True
  | .delete cid _ _ _ => cid ≠ r.cid
  | .deleteAll => False
  | .packet p _ => p ≠ r.p
  | .setTtl p _ _ => p ≠ r.p
  | .tick => True

def isTick : Ev → Bool
  | .tick => true
  | _ => false

end Verif.Sess
