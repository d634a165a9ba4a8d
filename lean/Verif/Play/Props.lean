import Verif.Play.Facts

/-! C65: players of prompts. -/

namespace Verif.Play

/-- C65. In no execution does the process abort by removing the processor that holds back the
media of the opposite party when it is not there. -/
theorem C65_safe (es : List Ev) : (run init es).ab = false :=
  (any_inv (any_run es .init)).2.ab

/-- C65. In every execution, the media of the opposite party is held back as long as a prompt is
played to the stream (and the player thread is not destroying the stream). -/
theorem C65_held_back {σ : St} (h : Any σ) {u s : Nat} (hp : Playing σ u s)
    (hk : ∀ d r, σ.plr ≠ .killI s d r ∧ σ.plr ≠ .killA s d r) : 1 ≤ (σ.st s).drops := by
  have hc := (any_inv h).2
  have hcs := hc.cn s
  have hec := enB_cnt hc s
  obtain ⟨hm | hm, he⟩ := hp
  · by_cases h0 : enB σ.plr s = 0
    · have := cnt_pos hm; omega
    · obtain ⟨v, hv⟩ : ∃ v, σ.plr.over = some (v, s) := by
        unfold enB at h0
        split at h0
        · rename_i v t hq
          split at h0
          · rename_i e; subst e; exact ⟨v, hq⟩
          · exact absurd rfl h0
        · exact absurd rfl h0
      have huv : u ≠ v := by
        intro e
        subst e
        cases hq : σ.plr with
        | ended a b r => rw [hq] at hv; cases hv; exact he r hq
        | killI a d r =>
          rw [hq] at hv
          cases d with
          | none => cases hv
          | some d => cases hv; exact (hk _ _).1 hq
        | killA a d r =>
          rw [hq] at hv
          cases d with
          | none => cases hv
          | some d => cases hv; exact (hk _ _).2 hq
        | _ => rw [hq] at hv; cases hv
      have h1 := cnt_del_mem (hc.hand.subset (over_hand hv))
      have h2 := cnt_pos (mem_del.mpr ⟨hm, huv⟩)
      have h3 := enB_le σ.plr s
      omega
  · have := cnt_pos hm
    omega

/-- C65. A NOPLAY command, and the first half of a PLAY command, leave the stream with nothing
played to it, no trace of a player, and nothing held back. -/
theorem C65_stopped_partial {σ σ' : St} {e : Ev} {s : Nat} (h : Reach σ) (hok : Ok σ e)
    (hs : step σ e = some σ') (h0 : σ.cmd.stopping s) (h1 : ¬ σ'.cmd.stopping s) :
    Silent σ' s := by
  have hi := (reach_inv h).1
  have hi' := (reach_inv (.step e h hok hs)).1
  apply silent_of hi'
  unfold step at hs
  rw [if_neg (by simp [hi.ab])] at hs
  cases e with
  | cmd =>
    simp only [stepCmd] at hs
    split at hs
    · rename_i t k hc
      rw [hc] at h0
      have h0 : t = s := h0
      subst h0
      split at hs
      · split at hs <;> cases hs
        · assumption
        · exact absurd rfl h1
      · cases hs
    · rename_i t u k hc
      rw [hc] at h0
      have h0 : t = s := h0
      subst h0
      split at hs <;> cases hs <;> exact absurd rfl h1
    · rename_i t u k hc
      rw [hc] at h0
      have h0 : t = s := h0
      subst h0
      split at hs
      · cases hs
      · split at hs
        · cases hs; exact absurd rfl h1
        · rename_i hh
          cases hs
          obtain ⟨-, hna, -, hu⟩ := hi.npA _ _ _ hc
          rcases hu with hu | hu
          · exact hu
          · exfalso
            have hd := hi.own t (hi.on t (by rw [hc]; rfl))
            rcases hi.has u t hu (by omega) with q | q | q | q | ⟨k', q⟩
            · exact has_neg.mp (by simpa using hh) _ q
            · exact hna _ q
            · exact hok _ _ _ hc _ q
            · rw [(hi.lkP _ _ q).1] at hc; cases hc
            · rw [hc] at q; cases q
    · rename_i t u k hc
      rw [hc] at h0
      have h0 : t = s := h0
      subst h0
      have hu := (hi.npc _ _ _ hc).1
      split at hs
      · split at hs
        · rename_i hd
          rw [hi.drp, hu] at hd
          simp at hd
        · cases hs
          simp [upd, hu]
      · cases hs
    · cases hs
  | _ =>
    exfalso
    simp only [stepOpen, stepReg, stepAddr, stepMoved, stepUnregS, stepRelease, stepDtor, stepPlr,
      cbDrop] at hs
    revert h0
    (repeat' split at hs) <;> cases hs <;> simp_all [Cmd.stopping]

/-- C65. A stream to which nothing is played stays so until the next PLAY command. -/
theorem C65_silent_stays_partial {σ σ' : St} {s : Nat} (h : Reach σ) (h0 : Silent σ s)
    (hc : ¬ σ.cmd.starting s) (hn : NoPlay s σ σ') : Silent σ' s := by
  suffices q : Reach σ' ∧ (σ'.st s).uid = none ∧ ¬ σ'.cmd.starting s from
    silent_of (reach_inv q.1).1 q.2.1
  induction hn with
  | refl => exact ⟨h, h0.1, hc⟩
  | step e _ hok he hs ih =>
    refine ⟨.step e ih.1 hok hs, uid_none hs ih.2.1 ?_, not_starting hs ih.2.2 he⟩
    intro q
    apply ih.2.2
    rw [q]
    exact rfl

/-- C65. What the stream says about its player, what is being played to it, and whether the media
of the opposite party is held back, agree. -/
theorem C65_agrees_partial {σ : St} (h : Reach σ) {s : Nat} (hs : Settled σ s) :
    (∀ u, (σ.st s).uid = some u ↔ Playing σ u s) ∧
    (((σ.st s).drops = 1 ∧ ∃ u, Playing σ u s) ∨ ((σ.st s).drops = 0 ∧ ∀ u, ¬ Playing σ u s)) := by
  have hi := (reach_inv h).1
  obtain ⟨hl, hd, hc⟩ := hs
  have key : ∀ u, (σ.st s).uid = some u → Playing σ u s := by
    intro u hu
    refine ⟨?_, ?_⟩
    · rcases hi.has u s hu (by omega) with q | q | q | q | ⟨k, q⟩
      · exact .inl q
      · exact .inr q
      · rw [hl] at q; cases q
      · rw [hl] at q; cases q
      · exact absurd q (hc u k)
    · intro r hr
      exact (hi.endLt u s (by rw [hr]; simp [Plr.isEnd])).2 s hu
  refine ⟨fun u => ⟨key u, playing_uid hi⟩, ?_⟩
  have hdr := hi.drp s
  cases hu : (σ.st s).uid with
  | none =>
    right
    refine ⟨by rw [hdr, if_pos hu], fun u hp => ?_⟩
    rw [playing_uid hi hp] at hu; cases hu
  | some u =>
    left
    exact ⟨by rw [hdr, if_neg (by simp [hu])], u, key u hu⟩

/-- C65. At most one prompt is played to a stream, and a player plays to one stream. -/
theorem C65_one_partial {σ : St} (h : Reach σ) {u v s t : Nat} (hu : Playing σ u s)
    (hv : Playing σ v t) : u = v ↔ s = t := by
  have hi := (reach_inv h).1
  have h1 := playing_uid hi hu
  have h2 := playing_uid hi hv
  constructor
  · intro e; subst e; exact hi.inj _ _ _ h1 h2
  · intro e; subst e; rw [h1] at h2; exact Option.some.inj h2

/-- C65. A PLAY command that succeeds leaves the stream with the new player, which is active at
once if the party can be sent to, and waits otherwise. -/
theorem C65_started_partial {σ σ' : St} (h : Reach σ) {s u : Nat} (hc : σ.cmd = .plR s u)
    (hs : step σ (.regT true) = some σ') :
    (σ'.st s).uid = some u ∧ Playing σ' u s ∧ (∀ v, Playing σ' v s → v = u) ∧
    (σ'.st s).snd = (σ.st s).snd ∧
    (if (σ'.st s).snd then (u, s) ∈ σ'.act ∧ (u, s) ∉ σ'.ina
      else (u, s) ∈ σ'.ina ∧ (u, s) ∉ σ'.act) := by
  have hi := (reach_inv h).1
  have hr' : Reach σ' := .step (.regT true) h trivial hs
  have hi' := (reach_inv hr').1
  have hlk := any_lkInv (reach_any h) s u (hi.plR _ _ hc)
  obtain ⟨-, hu, ho⟩ := hi.lkP _ _ (hi.plR _ _ hc)
  have hw := hi.wt s
  rw [hi.plR _ _ hc] at hw
  have main : (σ'.st s).uid = some u ∧ (σ'.st s).snd = (σ.st s).snd ∧
      (if (σ'.st s).snd then (u, s) ∈ σ'.act ∧ (u, s) ∉ σ'.ina
      else (u, s) ∈ σ'.ina ∧ (u, s) ∉ σ'.act) := by
    unfold step at hs
    rw [if_neg (by simp [hi.ab])] at hs
    simp only [stepReg, hc, if_true] at hs
    split at hs
    · rename_i hin
      have hsn := hw hin (by intro v q; cases q)
      cases hs
      refine ⟨by simp [upd, hu], by simp [upd], ?_⟩
      simp [upd, hsn, (ho s).1]
    · rename_i hin
      have hsn := hlk (by simpa using hin)
      split at hs
      · cases hs
      · cases hs
        refine ⟨by simp [upd, hu], by simp [upd], ?_⟩
        simp [upd, hsn, (ho s).2]
  obtain ⟨m1, m2, m3⟩ := main
  refine ⟨m1, ⟨?_, ?_⟩, ?_, m2, m3⟩
  · split at m3
    · exact .inl m3.1
    · exact .inr m3.1
  · intro r hr
    exact (hi'.endLt u s (by rw [hr]; simp [Plr.isEnd])).2 s m1
  · intro v hv
    have := playing_uid hi' hv
    rw [m1] at this
    exact (Option.some.inj this).symm

/-- C65. A player that waits, waits for a party that cannot be sent to. -/
theorem C65_waiting_partial {σ : St} (h : Reach σ) {u s : Nat} (hm : (u, s) ∈ σ.ina) :
    (σ.st s).snd = false := by
  have hi := (reach_inv h).1
  obtain ⟨_, h1, h2⟩ := hi.inaE _ _ hm
  exact hi.wt s h1 (by intro v q; rw [h2] at q; cases q)

/-- C65. A destroyed stream leaves no player behind. -/
theorem C65_gone_partial {σ : St} (h : Reach σ) {s : Nat} (hd : (σ.st s).dt = 3) (u : Nat) :
    (u, s) ∉ σ.act ∧ (u, s) ∉ σ.ina :=
  (reach_inv h).1.dead u s hd

/-- C65. While the player thread has the table of active players locked, it is never stopped by
anything but the mutex of a stream, other than the one it plays to, through which a packet is to
be sent. -/
theorem C65_progress_partial {σ : St} (h : Reach σ) {a : PAct} (ha : σ.plr.due a = true)
    (hl : ∀ d u s r, σ.plr = .lock d u s r → d = s ∨ (σ.st d).lk = .free) :
    (step σ (.plr a)).isSome = true := by
  have hi := (reach_inv h).1
  have hcur := hi.cur
  have hk := hi.kill
  unfold step
  rw [if_neg (by simp [hi.ab])]
  simp only
  cases hp : σ.plr with
  | next r =>
    rw [hp] at ha
    cases a <;> simp_all [Plr.due]
    cases r with
    | nil => simp [stepPlr, hp]
    | cons e r =>
      obtain ⟨u, s⟩ := e
      simp only [stepPlr, hp]
      split <;> rfl
  | body u s r =>
    rw [hp] at hcur ha
    have hm := hcur u s rfl
    have hf := (hi.actE _ _ hm (by rw [hp]; rfl)).2.2
    cases a <;> simp [Plr.due] at ha
    · simp [stepPlr, hp]
    · simp [stepPlr, hp]
    · simp only [stepPlr, hp, hf, if_true]
      split
      · split <;> rfl
      · rfl
  | lock d u s r =>
    rw [hp] at hcur ha
    have hm := hcur u s rfl
    have hf := (hi.actE _ _ hm (by rw [hp]; rfl)).2.2
    have hd : (σ.st d).lk = .free := by
      rcases hl d u s r hp with e | e
      · rw [e]; exact hf
      · exact e
    cases a <;> simp [Plr.due] at ha
    simp [stepPlr, hp, hd]
  | ended u s r =>
    rw [hp] at ha
    cases a <;> simp [Plr.due] at ha
    simp [stepPlr, hp]
  | killI s d r => rw [hp] at hk; cases hk
  | killA s d r => rw [hp] at hk; cases hk
  | top => rw [hp] at ha; cases a <;> simp [Plr.due] at ha
  | empty => rw [hp] at ha; cases a <;> simp [Plr.due] at ha
  | wait => rw [hp] at ha; cases a <;> simp [Plr.due] at ha

/-- C65. The player thread does not sleep while there are active players, provided that none
becomes active between its look at the table and its going to sleep. -/
theorem C65_awake_partial {σ : St} (h : Calm σ) (ha : σ.act ≠ []) : σ.plr ≠ .wait :=
  fun q => ha (calm_inv h (.inr q))

end Verif.Play
