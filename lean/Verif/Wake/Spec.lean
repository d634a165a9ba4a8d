import Verif.Wake.Model

/-! Vocabulary of C67. -/

namespace Verif.Wake

/-- What can happen, from the start. -/
inductive Reach (K : Par) : St → Prop
  | init : Reach K init
  | step {σ σ' : St} (e : Ev) : Reach K σ → step K σ e = some σ' → Reach K σ'

/-- Media thread `p` has seen every change that was made before the last `nudge`. -/
def Noticed (σ : St) (p : Bool) : Prop := (σ.P p).cov ≤ (σ.P p).seen

/-- The steps the threads take by themselves, when no packet comes in, no wait returns for no reason
and no deadline is refused. -/
def Ev.inner : Ev → Bool
  | .timeout => true
  | .wake bad => !bad
  | .poll _ r => r
  | _ => false

/-- A step of the threads or of the clock. -/
def Ev.idle : Ev → Bool
  | .tick _ => true
  | e => e.inner

/-- The media threads are not being shut down, no deadline has been refused and no `int` has
overflowed. -/
def Up (σ : St) : Prop :=
  σ.pc ≠ .stuck ∧ σ.ub = false ∧ ∀ p, (σ.P p).closed = false

/-- Nothing happens any more, however long one waits, unless something comes from outside. -/
def Still (K : Par) (σ : St) : Prop :=
  ∀ n e, e.inner → step K { σ with clk := σ.clk + n } e = none

/-- The writes, latest first, are at least that far apart. -/
def Spaced (d : Nat) : List Nat → Prop
  | [] => True
  | [_] => True
  | a :: b :: l => b + d ≤ a ∧ Spaced d (b :: l)

/-- A bound for the steps left before a media thread rests. -/
def leftP (x : Poller) : Nat :=
  4 * x.pipe.length +
    match x.pc with
    | .top => 3
    | .sync _ => 2
    | .poll => 1
    | .proc r => if r ∧ x.pipe ≠ [] then 0 else 4
    | .ended => 0

/-- A bound for the steps left before the threads rest. -/
def left (σ : St) : Nat :=
  (match σ.pc with
    | .wait s => if s then 15 else 0
    | .waitT s => if s then 15 else 12
    | .top => if σ.loc = σ.req then (if σ.at_ = none then 1 else 13) else 14
    | .w1 => if σ.loc = σ.req then 11 else 24
    | .w2 => if σ.loc = σ.req then 6 else 19
    | .stuck => 0
    | .ended => 0) + leftP (σ.P false) + leftP (σ.P true)

end Verif.Wake
