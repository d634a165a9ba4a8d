import Verif.Play.Count

/-! Lemmas for the theorems of C65. -/

namespace Verif.Play

theorem uid_none {σ σ' : St} {e : Ev} {s : Nat} (hs : step σ e = some σ')
    (hu : (σ.st s).uid = none) (hc : σ.cmd ≠ .pl s) : (σ'.st s).uid = none := by
  unfold step at hs
  cases e <;> simp only [stepCmd, stepOpen, stepReg, stepAddr, stepMoved, stepUnregS, stepRelease,
    stepDtor, stepPlr, cbDrop] at hs <;>
    (repeat' split at hs) <;> cases hs <;> (try simp only [upd, setUid] at *) <;> grind [upd, setUid]

theorem not_starting {σ σ' : St} {e : Ev} {s : Nat} (hs : step σ e = some σ')
    (hc : ¬ σ.cmd.starting s) (he : e ≠ .play s) : ¬ σ'.cmd.starting s := by
  unfold step at hs
  cases e <;> simp only [stepCmd, stepOpen, stepReg, stepAddr, stepMoved, stepUnregS, stepRelease,
    stepDtor, stepPlr, cbDrop] at hs <;>
    (repeat' split at hs) <;> cases hs <;> (try simp only [upd, setUid] at *) <;> grind [Cmd.starting, npDone]

/-- When the mutex of a stream is held for a new player, the player is marked as waiting or the
stream can be sent to. -/
def LkInv (σ : St) : Prop :=
  ∀ s u, (σ.st s).lk = .play u → (σ.st s).inact = false → (σ.st s).snd = true

theorem lkInv_step {σ σ' : St} {e : Ev} (h : LkInv σ) (hs : step σ e = some σ') :
    LkInv σ' := by
  intro t v hl hi
  have h1 := h t v
  unfold step at hs
  cases e <;> simp only [stepCmd, stepOpen, stepReg, stepAddr, stepMoved, stepUnregS, stepRelease,
    stepDtor, stepPlr, cbDrop] at hs <;>
    (repeat' split at hs) <;> cases hs <;> (try simp only [upd, setUid] at *) <;> grind [upd, setUid]

theorem any_lkInv {σ : St} (h : Any σ) : LkInv σ := by
  induction h with
  | init => intro s u hl; cases hl
  | step e _ hs ih => exact lkInv_step ih hs

theorem reach_any {σ : St} (h : Reach σ) : Any σ := by
  induction h with
  | init => exact .init
  | step e _ _ hs ih => exact .step e ih hs

theorem isEnd_iff {p : Plr} {u s : Nat} : p.isEnd u s = false ↔ ∀ r, p ≠ .ended u s r := by
  cases p <;> simp [Plr.isEnd]

theorem playing_uid {σ : St} (h : Inv σ) {u s : Nat} (hp : Playing σ u s) :
    (σ.st s).uid = some u := by
  obtain ⟨ha | hi, he⟩ := hp
  · exact (h.actE _ _ ha (isEnd_iff.mpr he)).1
  · exact (h.inaE _ _ hi).1

theorem silent_of {σ : St} (h : Inv σ) {s : Nat} (hu : (σ.st s).uid = none) : Silent σ s := by
  refine ⟨hu, by rw [h.drp, if_pos hu], fun u hp => ?_⟩
  rw [playing_uid h hp] at hu
  cases hu

/-- The player thread stays where it is. -/
theorem stuck_kill {σ : St} (hc : ∃ s d r, σ.plr = .killA s d r) (e : Ev) {σ' : St}
    (hs : step σ e = some σ') : σ'.plr = σ.plr := by
  obtain ⟨s, d, r, hp⟩ := hc
  unfold step at hs
  cases e <;> simp only [stepCmd, stepOpen, stepReg, stepAddr, stepMoved, stepUnregS, stepRelease,
    stepDtor, stepPlr, cbDrop, hp, Plr.holds] at hs <;>
    (repeat' split at hs) <;> cases hs <;> (try simp only [upd, setUid] at *) <;> grind [wakeup]

/-- The player thread, in the table, waits for the mutex of stream `d`; the command thread, with
that mutex held, waits for the table. -/
def Locked (σ : St) (d v : Nat) : Prop :=
  (∃ u s r, σ.plr = .lock d u s r) ∧ σ.cmd = .plR d v ∧ (σ.st d).lk = .play v ∧
  (σ.st d).inact = false

theorem locked_step {σ σ' : St} {d v : Nat} (h : Locked σ d v) {e : Ev}
    (hs : step σ e = some σ') : Locked σ' d v ∧ σ'.plr = σ.plr := by
  obtain ⟨⟨u, s, r, hp⟩, hc, hl, hi⟩ := h
  unfold Locked
  unfold step at hs
  cases e <;> simp only [stepCmd, stepOpen, stepReg, stepAddr, stepMoved, stepUnregS, stepRelease,
    stepDtor, stepPlr, cbDrop, hp, hc, hi, Plr.holds] at hs <;>
    (repeat' split at hs) <;> cases hs <;> (try simp only [upd, setUid] at *) <;> grind [wakeup, upd]

theorem wakeup_wait (p : Plr) : wakeup p ≠ .wait := by cases p <;> simp [wakeup]

theorem wakeup_empty {p : Plr} (h : wakeup p = .empty) : p = .empty := by
  cases p <;> simp_all [wakeup]

theorem calm_inv {σ : St} (h : Calm σ) : σ.plr = .empty ∨ σ.plr = .wait → σ.act = [] := by
  induction h with
  | init => intro _; rfl
  | @step σ σ' e h0 hn hs ih =>
    unfold step at hs
    cases e <;> simp only [stepCmd, stepOpen, stepReg, stepAddr, stepMoved, stepUnregS, stepRelease,
      stepDtor, stepPlr, cbDrop] at hs <;>
    (repeat' split at hs) <;> cases hs <;> (try simp only [upd, setUid] at *) <;> grind [wakeup_wait, wakeup_empty, del]

theorem asleep_step {σ σ' : St} {e : Ev} (hw : σ.plr = .wait) (he : e ≠ .regT true)
    (hm : ∀ s, e ≠ .moved s) (hs : step σ e = some σ') : σ'.plr = .wait := by
  unfold step at hs
  cases e <;> simp only [stepCmd, stepOpen, stepReg, stepAddr, stepMoved, stepUnregS, stepRelease,
    stepDtor, stepPlr, cbDrop] at hs <;>
    (repeat' split at hs) <;> cases hs <;> (try simp only [upd, setUid] at *) <;> grind

theorem run_keeps {P : St → Prop} (h : ∀ σ σ' e, P σ → step σ e = some σ' → P σ') (es : List Ev)
    {σ : St} (h0 : P σ) : P (run σ es) := by
  induction es generalizing σ with
  | nil => exact h0
  | cons e es ih =>
    rw [run]
    cases hs : step σ e with
    | none => exact ih h0
    | some σ' => exact ih (h _ _ _ h0 hs)

theorem held {b : Nat → Nat} {σ : St} (hA : AInv σ) (h : CInv b σ) (s : Nat) (es : List Ev) :
    b s ≤ ((run σ es).st s).drops := by
  have hk := run_keeps (P := fun σ => AInv σ ∧ CInv b σ)
    (fun _ _ _ hh hs => ⟨ainv_step hh.1 hs, cinv_step hh.2 hh.1 hs⟩) es ⟨hA, h⟩
  generalize run σ es = τ at hk
  have hc := hk.2.cn s
  have he := enB_cnt hk.2 s
  omega

/-- `Ok` as a test. -/
def okB (σ : St) : Ev → Bool
  | .open (some false) => false
  | .regT false => false
  | .cmd =>
    match σ.cmd with
    | .npA s _ _ =>
      match (σ.st s).lk with
      | .mov _ => false
      | _ => true
    | _ => true
  | .release s => σ.plr.ref != some s
  | _ => true

theorem okB_ok {σ : St} {e : Ev} (h : okB σ e = true) : Ok σ e := by
  cases e with
  | «open» r =>
    cases r with
    | none => trivial
    | some b => cases b <;> simp_all [okB, Ok]
  | regT b => cases b <;> simp_all [okB, Ok]
  | cmd =>
    intro s u k hc v hv
    simp [okB, hc, hv] at h
  | release s => simpa [okB, Ok] using h
  | _ => trivial

/-- Every event of the list is possible and keeps to `Ok`. -/
def okRun (σ : St) : List Ev → Bool
  | [] => true
  | e :: es => okB σ e && match step σ e with
    | none => false
    | some σ' => okRun σ' es

theorem reach_run {es : List Ev} {σ : St} (h : Reach σ) (hk : okRun σ es = true) :
    Reach (run σ es) := by
  induction es generalizing σ with
  | nil => exact h
  | cons e es ih =>
    rw [okRun, Bool.and_eq_true] at hk
    rw [run]
    cases hs : step σ e with
    | none => rw [hs] at hk; exact absurd hk.2 (by simp)
    | some σ' => rw [hs] at hk; exact ih (.step e h (okB_ok hk.1) hs) hk.2

end Verif.Play
