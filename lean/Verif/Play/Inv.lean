import Verif.Play.Spec

/-! Invariant of C65, for executions that keep to `Ok`. -/

namespace Verif.Play

theorem mem_del {l : List Entry} {u v s : Nat} : (v, s) ∈ del l u ↔ (v, s) ∈ l ∧ v ≠ u := by
  simp [del]

theorem has_iff {l : List Entry} {u : Nat} : has l u = true ↔ ∃ s, (u, s) ∈ l := by
  simp [has]

theorem has_neg {l : List Entry} {u : Nat} : has l u = false ↔ ∀ s, (u, s) ∉ l := by
  simp [has]; grind

/-- The entries the player thread has still to deal with, the current one included. -/
def Plr.pend : Plr → List Entry
  | .next r => r
  | .body u s r => (u, s) :: r
  | .lock _ u s r => (u, s) :: r
  | .ended u s r => (u, s) :: r
  | _ => []

def Plr.isKill : Plr → Bool
  | .killI _ _ _ | .killA _ _ _ => true
  | _ => false

/-- The entry being dealt with, its prompt not known to be over. -/
def Plr.cur : Plr → Option Entry
  | .body u s _ => some (u, s)
  | .lock _ u s _ => some (u, s)
  | _ => none

/-- The prompt of player `u` of stream `s` is over, and its entry is about to be removed. -/
def Plr.isEnd (p : Plr) (u s : Nat) : Bool :=
  match p with
  | .ended v t _ => v == u && t == s
  | _ => false

structure Inv (σ : St) : Prop where
  ab : σ.ab = false
  lt : ∀ s u, (σ.st s).uid = some u → u < σ.nuid
  inj : ∀ s t u, (σ.st s).uid = some u → (σ.st t).uid = some u → s = t
  endLt : ∀ u s, σ.plr.isEnd u s = true → u < σ.nuid ∧ ∀ t, (σ.st t).uid ≠ some u
  inaE : ∀ u s, (u, s) ∈ σ.ina → (σ.st s).uid = some u ∧ (σ.st s).inact = true ∧
    (σ.st s).lk = .free
  actE : ∀ u s, (u, s) ∈ σ.act → σ.plr.isEnd u s = false → (σ.st s).uid = some u ∧
    (σ.st s).inact = false ∧ (σ.st s).lk = .free
  has : ∀ u s, (σ.st s).uid = some u → (σ.st s).dt < 3 → (u, s) ∈ σ.act ∨ (u, s) ∈ σ.ina ∨
    (σ.st s).lk = .mov u ∨ (σ.st s).lk = .play u ∨ ∃ k, σ.cmd = .npC s u k
  ina2 : ∀ u s, (σ.st s).dt = 2 → (σ.st s).uid = some u → (u, s) ∉ σ.ina
  dead : ∀ u s, (σ.st s).dt = 3 → (u, s) ∉ σ.act ∧ (u, s) ∉ σ.ina
  drp : ∀ s, (σ.st s).drops = if (σ.st s).uid = none then 0 else 1
  npc : ∀ s u k, σ.cmd = .npC s u k → (σ.st s).uid = some u ∧ (σ.st s).lk = .free ∧
    ∀ t, (u, t) ∉ σ.act ∧ (u, t) ∉ σ.ina
  plR : ∀ s u, σ.cmd = .plR s u → (σ.st s).lk = .play u
  lkP : ∀ s u, (σ.st s).lk = .play u → σ.cmd = .plR s u ∧ (σ.st s).uid = some u ∧
    ∀ t, (u, t) ∉ σ.act ∧ (u, t) ∉ σ.ina
  lkM : ∀ s u, (σ.st s).lk = .mov u → (σ.st s).uid = some u ∧ (σ.st s).inact = true ∧
    (σ.st s).own = true ∧ ∀ t, (u, t) ∉ σ.act ∧ (u, t) ∉ σ.ina
  npI : ∀ s u k, σ.cmd = .npI s u k → u < σ.nuid ∧ (∀ t, (σ.st t).uid = some u → t = s) ∧
    ((σ.st s).uid = none ∨ (σ.st s).uid = some u)
  npA : ∀ s u k, σ.cmd = .npA s u k → u < σ.nuid ∧ (∀ t, (u, t) ∉ σ.ina) ∧
    (∀ t, (σ.st t).uid = some u → t = s) ∧ ((σ.st s).uid = none ∨ (σ.st s).uid = some u)
  pl : ∀ s, σ.cmd = .pl s → (σ.st s).uid = none
  on : ∀ s, σ.cmd.on = some s → (σ.st s).own = true
  wt : ∀ s, (σ.st s).inact = true → (∀ u, (σ.st s).lk ≠ .mov u) → (σ.st s).snd = false
  own : ∀ s, (σ.st s).own = true → (σ.st s).dt = 0
  reg : ∀ s, (σ.st s).reg = true → (σ.st s).own = true
  ref : ∀ s, σ.plr.ref = some s → (σ.st s).own = true
  kill : σ.plr.isKill = false
  cur : ∀ u s, σ.plr.cur = some (u, s) → (u, s) ∈ σ.act

/-- The walk of the player thread through the table of active players. -/
structure InvL (σ : St) : Prop where
  nd : (σ.act.map (·.1)).Nodup
  pend : σ.plr.pend.Sublist σ.act
  lt : ∀ u s, (u, s) ∈ σ.act → u < σ.nuid

theorem inv_init : Inv init := by
  constructor <;> simp [init, Plr.ref, Plr.isKill, Plr.cur, Plr.isEnd, Cmd.on]

theorem invL_init : InvL init := by
  constructor <;> simp [init, Plr.pend]

end Verif.Play
