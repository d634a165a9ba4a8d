import Verif.Play.Model

/-! Vocabulary of C65. -/

namespace Verif.Play

/-- Player `u` is playing, or waiting to play, to stream `s`: it is in one of the two tables, and it
is not the one whose prompt has just ended (which the player thread removes before it lets go of
the table). -/
def Playing (σ : St) (u s : Nat) : Prop :=
  ((u, s) ∈ σ.act ∨ (u, s) ∈ σ.ina) ∧ ∀ r, σ.plr ≠ .ended u s r

/-- Nothing is played to stream `s`, the stream does not count as having a player, and what the
opposite party sends is not held back. -/
def Silent (σ : St) (s : Nat) : Prop :=
  (σ.st s).uid = none ∧ (σ.st s).drops = 0 ∧ ∀ u, ¬ Playing σ u s

/-- Nobody is in the middle of changing the player of stream `s`. -/
def Settled (σ : St) (s : Nat) : Prop :=
  (σ.st s).lk = .free ∧ (σ.st s).dt = 0 ∧ ∀ u k, σ.cmd ≠ .npC s u k

/-- What the partial theorems leave out: a registration that fails, a look in the table of active
players while the player is on its way there, and a stream given up by everybody but the player
thread. -/
def Ok (σ : St) : Ev → Prop
  | .open (some false) => False
  | .regT false => False
  | .cmd => ∀ s u k, σ.cmd = .npA s u k → ∀ v, (σ.st s).lk ≠ .mov v
  | .release s => σ.plr.ref ≠ some s
  | _ => True

/-- States reached by executions that keep to `Ok`. -/
inductive Reach : St → Prop
  | init : Reach init
  | step {σ σ'} (e : Ev) : Reach σ → Ok σ e → step σ e = some σ' → Reach σ'

/-- States reached by all executions. -/
inductive Any : St → Prop
  | init : Any init
  | step {σ σ'} (e : Ev) : Any σ → step σ e = some σ' → Any σ'

/-- The command thread is inside `handle_noplay` for stream `s`. -/
def Cmd.stopping (c : Cmd) (s : Nat) : Prop :=
  match c with
  | .np t _ | .npI t _ _ | .npA t _ _ | .npC t _ _ => t = s
  | _ => False

/-- The command thread is inside a PLAY command for stream `s`. -/
def Cmd.starting (c : Cmd) (s : Nat) : Prop :=
  match c with
  | .np t k | .npI t _ k | .npA t _ k | .npC t _ k => t = s ∧ k = true
  | .pl t | .plR t _ => t = s
  | _ => False

/-- `σ'` is reached from `σ` with no further PLAY command for stream `s`, keeping to `Ok`. -/
inductive NoPlay (s : Nat) (σ : St) : St → Prop
  | refl : NoPlay s σ σ
  | step {σ₁ σ₂} (e : Ev) : NoPlay s σ σ₁ → Ok σ₁ e → e ≠ .play s → step σ₁ e = some σ₂ →
    NoPlay s σ σ₂

/-- The actions open to the player thread while it walks through the table of active players. -/
def Plr.due : Plr → PAct → Bool
  | .next _, .go => true
  | .body _ _ _, .send _ => true
  | .body _ _ _, .later => true
  | .body _ _ _, .eof => true
  | .lock _ _ _ _, .go => true
  | .ended _ _ _, .go => true
  | .killI _ _ _, .go => true
  | .killA _ _ _, .go => true
  | _, _ => false

/-- States reached by executions in which no player becomes active between the moment the player
thread finds that there is none and the moment it waits. -/
inductive Calm : St → Prop
  | init : Calm init
  | step {σ σ'} (e : Ev) : Calm σ → (σ.plr = .empty → e ≠ .regT true ∧ ∀ s, e ≠ .moved s) →
    step σ e = some σ' → Calm σ'

end Verif.Play
