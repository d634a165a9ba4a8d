import Verif.Timed.Model

/-!
# Specification of the timer: each task on its own, read off the log
-/

namespace Verif.Timed

/-- The life of a task. -/
inductive Life where
  | unborn
  | waiting (due offset : Int)
  | running (ct due offset : Int)
  | dead
  deriving DecidableEq, Repr

/-- The life of task `i` after the observations (latest first). -/
def life (i : Nat) : List Obs → Life
  | [] => .unborn
  | .sched id due off :: l => if id = i then .waiting due off else life i l
  | .run id ct :: l => if id = i then (match life i l with
      | .waiting d off => .running ct d off
      | x => x) else life i l
  | .resched id d :: l => if id = i then (match life i l with
      | .running _ _ off => .waiting d off
      | x => x) else life i l
  | .fin id :: l => if id = i then .dead else life i l
  | .cancel id ok :: l => if id = i ∧ ok = true then .dead else life i l
  | .scanEnd _ :: l => life i l
  | .shut id :: l => if id = i then .dead else life i l

/-- What may be observed next. -/
def Legit (l : List Obs) : Obs → Prop
  | .sched id _ _ => life id l = .unborn
  | .run id ct => ∃ d off, life id l = .waiting d off ∧ d ≤ ct
  | .resched id d' => ∃ ct d off, life id l = .running ct d off ∧ 0 < off ∧
      (∃ k : Nat, d' = d + k * off) ∧ ct < d' ∧ d' - off ≤ ct
  | .fin id => ∃ ct d off, life id l = .running ct d off
  | .cancel id ok => ok = true ↔ ∃ d off, life id l = .waiting d off
  | .scanEnd ct => ∀ id d off, life id l = .waiting d off → ct < d
  | .shut id => ∃ d off, life id l = .waiting d off

def Good : List Obs → Prop
  | [] => True
  | o :: l => Legit l o ∧ Good l

end Verif.Timed
