import Verif.Play.Safe

/-! The count of processors, in every execution. -/

namespace Verif.Play

theorem npB_npDone (s : Nat) (k : Bool) (t : Nat) : npB (npDone s k) t = 0 := by
  cases k <;> rfl

theorem cinv_of {b : Nat → Nat} {σ σ' : St} (h : CInv b σ) (hab : σ'.ab = false)
    (ha : σ'.act.Sublist σ.act)
    (hh : σ'.plr.hand.Sublist σ'.act)
    (hc : ∀ s, cnt σ'.act s + cnt σ'.ina s + lkB (σ'.st s) + npB σ'.cmd s + (σ.st s).drops +
        enB σ.plr s ≤
      cnt σ.act s + cnt σ.ina s + lkB (σ.st s) + npB σ.cmd s + (σ'.st s).drops + enB σ'.plr s) :
    CInv b σ' :=
  ⟨hab, h.nd.sublist (ha.map _), hh, fun s => by
    have := h.cn s
    have := hc s
    omega⟩

/-- The player thread is not in the table, so the table may lose entries. -/
theorem hand_out {p : Plr} (h : p.holds = false) (l : List Entry) : p.hand.Sublist l := by
  rw [(out_hand h).1]; exact List.nil_sublist _

theorem cinv_add {b : Nat → Nat} {σ : St} (h : CInv b σ) {u s : Nat} {x : Strm} {c : Cmd}
    (hf : ∀ t, (u, t) ∉ σ.act) (hp : σ.plr.holds = false) (hl : lkB (σ.st s) = 1)
    (hx : lkB x = 0) (hd : x.drops = (σ.st s).drops) (hc : ∀ t, npB c t ≤ npB σ.cmd t) :
    CInv b (St.mk (upd σ.st s x) ((u, s) :: σ.act) σ.ina (wakeup σ.plr) c σ.nuid σ.ab) := by
  refine ⟨h.ab, ?_, ?_, ?_⟩
  · simp only [List.map_cons, List.nodup_cons]
    refine ⟨?_, h.nd⟩
    simp only [List.mem_map, not_exists, not_and]
    intro e he hx
    apply hf e.2
    rw [← hx]
    exact he
  · show (wakeup σ.plr).hand.Sublist _
    rw [(out_hand_w hp).1]; exact List.nil_sublist _
  · intro t
    have h1 := h.cn t
    have h2 := hc t
    have e1 : enB (wakeup σ.plr) t = 0 := by simp [enB, (out_hand_w hp).2]
    have e2 : enB σ.plr t = 0 := by simp [enB, (out_hand hp).2]
    show cnt ((u, s) :: σ.act) t + cnt σ.ina t + lkB (upd σ.st s x t) + npB c t + b t ≤
      (upd σ.st s x t).drops + enB (wakeup σ.plr) t
    rw [cnt_cons]
    unfold upd
    by_cases e : t = s
    · subst e; simp only [if_true]; omega
    · have e' : ¬ s = t := fun q => e q.symm
      simp only [e, e', if_false]; omega

theorem cinv_step {b : Nat → Nat} {σ σ' : St} (h : CInv b σ) (hA : AInv σ) {e : Ev} (hs : step σ e = some σ') :
    CInv b σ' := by
  have hsub := List.Sublist.refl σ.act
  have hab := h.ab
  /- a change of the command thread only -/
  have cmd1 : ∀ {c : Cmd}, (∀ t, npB c t ≤ npB σ.cmd t) →
      CInv b (St.mk σ.st σ.act σ.ina σ.plr c σ.nuid σ.ab) := fun hc =>
    cinv_of h hab hsub h.hand (fun t => by have := hc t; simp only; omega)
  /- a change of one stream, with nothing gained -/
  have one : ∀ {a i : List Entry} {c : Cmd} {n s : Nat} {x : Strm}, a.Sublist σ.act →
      σ.plr.hand.Sublist a →
      (∀ t, cnt i t ≤ cnt σ.ina t) → (∀ t, npB c t ≤ npB σ.cmd t) →
      lkB x + (σ.st s).drops + cnt a s + cnt i s + npB c s ≤
        lkB (σ.st s) + x.drops + cnt σ.act s + cnt σ.ina s + npB σ.cmd s →
      CInv b (St.mk (upd σ.st s x) a i σ.plr c n σ.ab) := by
    intro a i c n s x ha hh hi hc hl
    refine cinv_of h hab ha hh (fun t => ?_)
    have h1 := hi t
    have h2 := hc t
    have h3 : cnt a t ≤ cnt σ.act t := ha.countP_le
    show cnt a t + cnt i t + lkB (upd σ.st s x t) + npB c t + (σ.st t).drops + enB σ.plr t ≤ _ +
      (upd σ.st s x t).drops + _
    unfold upd
    by_cases e : t = s
    · subst e; simp only [if_true]; omega
    · simp only [e, if_false]; omega
  unfold step at hs
  rw [if_neg (by simp [hab])] at hs
  cases e with
  | noplay s =>
    simp only at hs
    split at hs
    · injection hs with hs; subst hs; exact cmd1 (fun t => by simp [npB])
    · cases hs
  | play s =>
    simp only at hs
    split at hs
    · injection hs with hs; subst hs; exact cmd1 (fun t => by simp [npB])
    · cases hs
  | cmd =>
    simp only [stepCmd] at hs
    split at hs
    · split at hs
      · split at hs
        · injection hs with hs; subst hs
          exact cmd1 (fun t => by rw [npB_npDone]; omega)
        · injection hs with hs; subst hs; exact cmd1 (fun t => by simp [npB])
      · cases hs
    · rename_i s u k hc
      split at hs
      · rename_i hh
        obtain ⟨w, hw⟩ := has_iff.mp hh
        have := hA.fn u s w (k_cmd (by rw [hc]; exact ⟨rfl, rfl⟩)) (Or.inr (Or.inl hw))
        subst this
        injection hs with hs; subst hs
        refine cinv_of h hab hsub h.hand (fun t => ?_)
        have h1 := cnt_del_mem hw
        have h2 := cnt_del σ.ina u t
        simp only [hc, npB]
        by_cases e : s = t
        · subst e; simp only [if_true]; omega
        · simp only [e, if_false]; omega
      · injection hs with hs; subst hs; exact cmd1 (fun t => by simp [npB])
    · rename_i s u k hc
      split at hs
      · cases hs
      · rename_i hp
        split at hs
        · rename_i hh
          obtain ⟨w, hw⟩ := has_iff.mp hh
          have := hA.fn u s w (k_cmd (by rw [hc]; exact ⟨rfl, rfl⟩)) (Or.inl hw)
          subst this
          injection hs with hs; subst hs
          refine cinv_of h hab (del_sub _ _) (hand_out (by simpa using hp) _) (fun t => ?_)
          have h1 := cnt_del_mem hw
          have h2 := cnt_del σ.act u t
          simp only [hc, npB]
          by_cases e : s = t
          · subst e; simp only [if_true]; omega
          · simp only [e, if_false]; omega
        · injection hs with hs; subst hs
          exact cmd1 (fun t => by rw [npB_npDone]; omega)
    · rename_i s u k hc
      split at hs
      · have hd : (σ.st s).drops ≠ 0 := drops_pos h (by simp [hc, npB])
        rw [if_neg hd] at hs
        injection hs with hs; subst hs
        refine one hsub h.hand (fun t => Nat.le_refl _)
          (fun t => by rw [npB_npDone]; omega) ?_
        rw [npB_npDone, hc]
        split <;> simp only [lkB, npB, if_true] <;> omega
      · cases hs
    · cases hs
  | «open» r =>
    simp only [stepOpen] at hs
    split at hs
    · rename_i s hc
      split at hs
      · rename_i hl
        split at hs
        · injection hs with hs; subst hs; exact cmd1 (fun t => by simp [npB])
        · split at hs
          · injection hs with hs; subst hs
            refine one hsub h.hand (fun t => Nat.le_refl _) (fun t => by simp [npB]) ?_
            simp only [lkB, setUid, hl, npB, if_true]
            simp
            omega
          · injection hs with hs; subst hs
            refine one hsub h.hand (fun t => Nat.le_refl _) (fun t => by simp [npB]) ?_
            simp only [lkB, setUid, hl, npB, if_true]
            omega
      · cases hs
    · cases hs
  | regT ok =>
    simp only [stepReg] at hs
    split at hs
    · rename_i s u hc
      have hl := hA.plR _ _ hc
      have hlb : lkB (σ.st s) = 1 := by simp [lkB, hl]
      have hd : (σ.st s).drops ≠ 0 := drops_pos h (by omega)
      have hna : (u, s) ∉ σ.act := fun hm => (hA.dis _ _ hm).2.2 hl
      have hna' : ∀ t, (u, t) ∉ σ.act := by
        intro t hm
        have := hA.fn u s t (Or.inr (Or.inr (Or.inr (Or.inl hl)))) (Or.inl hm)
        subst this
        exact hna hm
      have fail : ∀ {x : Strm}, lkB x = 0 → x.drops = (σ.st s).drops - 1 →
          CInv b (St.mk (upd σ.st s x) σ.act σ.ina σ.plr .idle σ.nuid σ.ab) := by
        intro x hx hxd
        refine one hsub h.hand (fun t => Nat.le_refl _) (fun t => by simp [npB]) ?_
        rw [hc]; simp only [npB]; omega
      split at hs
      · split at hs
        · injection hs with hs; subst hs
          refine cinv_of h hab hsub h.hand (fun t => ?_)
          simp only [hc, npB, cnt_cons]
          unfold upd
          by_cases e : t = s
          · subst e; simp only [if_true, lkB, hl]; simp; omega
          · have e' : ¬ s = t := fun q => e q.symm
            simp only [e, e', if_false]; omega
        · injection hs with hs; subst hs
          exact fail rfl rfl
      · split at hs
        · cases hs
        · rename_i hp
          split at hs
          · injection hs with hs; subst hs
            exact cinv_add h hna' (by simpa using hp) hlb rfl rfl (fun t => by simp [npB])
          · injection hs with hs; subst hs
            exact fail rfl rfl
    · cases hs
  | addr s v =>
    simp only [stepAddr] at hs
    split at hs
    · rename_i ho
      have plain : ∀ {x : Strm}, x.lk = (σ.st s).lk → x.drops = (σ.st s).drops →
          CInv b (St.mk (upd σ.st s x) σ.act σ.ina σ.plr σ.cmd σ.nuid σ.ab) := by
        intro x hx hd
        refine one hsub h.hand (fun t => Nat.le_refl _) (fun t => Nat.le_refl _) ?_
        simp only [lkB, hx, hd]
        omega
      split at hs
      · split at hs
        · injection hs with hs; subst hs; exact plain rfl rfl
        · rename_i u hu
          split at hs
          · rename_i hh
            obtain ⟨w, hw⟩ := has_iff.mp hh
            have := hA.fn u s w (k_uid hu) (Or.inr (Or.inl hw))
            subst this
            injection hs with hs; subst hs
            refine one hsub h.hand (fun t => cnt_del _ _ _) (fun t => Nat.le_refl _) ?_
            have h1 := cnt_del_mem hw
            simp only [lkB, ho.2]
            simp
            omega
          · injection hs with hs; subst hs; exact plain rfl rfl
      · injection hs with hs; subst hs; exact plain rfl rfl
    · cases hs
  | moved s =>
    simp only [stepMoved] at hs
    split at hs
    · rename_i u hl
      split at hs
      · cases hs
      · rename_i hp
        injection hs with hs; subst hs
        have hna : (u, s) ∉ σ.act := fun hm => (hA.dis _ _ hm).2.1 hl
        refine cinv_add h ?_ (by simpa using hp) (by simp [lkB, hl]) rfl rfl
          (fun t => Nat.le_refl _)
        intro t hm
        have := hA.fn u s t (Or.inr (Or.inr (Or.inl hl))) (Or.inl hm)
        subst this
        exact hna hm
    · cases hs
  | unregS s =>
    simp only [stepUnregS] at hs
    injection hs with hs; subst hs
    refine one hsub h.hand (fun t => Nat.le_refl _) (fun t => Nat.le_refl _) ?_
    simp only [lkB]; omega
  | release s =>
    simp only [stepRelease] at hs
    split at hs
    · split at hs <;>
      · injection hs with hs; subst hs
        refine one hsub h.hand (fun t => Nat.le_refl _) (fun t => Nat.le_refl _) ?_
        simp only [lkB]; omega
    · cases hs
  | dtor s =>
    simp only [stepDtor] at hs
    split at hs
    · cases hs
    · rename_i u hu
      split at hs
      · split at hs
        · injection hs with hs; subst hs
          refine one hsub h.hand (fun t => cnt_del _ _ _) (fun t => Nat.le_refl _) ?_
          have := cnt_del σ.ina u s
          simp only [lkB]; omega
        · injection hs with hs; subst hs
          refine one hsub h.hand (fun t => Nat.le_refl _) (fun t => Nat.le_refl _) ?_
          simp only [lkB]; omega
      · split at hs
        · split at hs
          · cases hs
          · rename_i hp
            injection hs with hs; subst hs
            refine one (del_sub _ _) (hand_out (by simpa using hp) _) (fun t => Nat.le_refl _)
              (fun t => Nat.le_refl _) ?_
            have := cnt_del σ.act u s
            simp only [lkB]; omega
        · cases hs
  | plr a =>
    have hhd := h.hand
    have quiet : ∀ {p : Plr}, p.hand.Sublist σ.act → (∀ t, enB σ.plr t ≤ enB p t) →
        CInv b (St.mk σ.st σ.act σ.ina p σ.cmd σ.nuid σ.ab) := fun hp he =>
      cinv_of h hab hsub hp (fun t => by have := he t; simp only; omega)
    /- the callback returns -/
    have ret : ∀ {s : Nat} {d : Option Nat} {r i : List Entry} {x : Strm},
        (∀ t, cnt i t ≤ cnt σ.ina t) → x.lk = (σ.st s).lk → x.drops = (σ.st s).drops →
        (Plr.killI s d r).hand.Sublist σ.act →
        (∀ t, enB σ.plr t = enB (.killI s d r) t) →
        CInv b (St.mk (upd σ.st s x) (cbRet σ.act d) i (.next r) σ.cmd σ.nuid σ.ab) := by
      intro s d r i x hi hx hxd hr he
      have hst : ∀ t, lkB (upd σ.st s x t) = lkB (σ.st t) ∧
          (upd σ.st s x t).drops = (σ.st t).drops := by
        intro t
        unfold upd
        split
        · rename_i e; subst e; exact ⟨by simp only [lkB, hx], hxd⟩
        · exact ⟨rfl, rfl⟩
      cases d with
      | none =>
        refine cinv_of h hab hsub hr (fun t => ?_)
        have h1 := hi t
        have h2 := he t
        obtain ⟨h3, h4⟩ := hst t
        show cnt σ.act t + cnt i t + lkB (upd σ.st s x t) + npB σ.cmd t + (σ.st t).drops +
          enB σ.plr t ≤ _ + (upd σ.st s x t).drops + enB (.next r) t
        rw [h3, h4, h2]
        simp only [enB, Plr.over]
        omega
      | some u =>
        have hr : ((u, s) :: r).Sublist σ.act := hr
        refine cinv_of h hab (del_sub _ _) ?_ (fun t => ?_)
        · refine sub_del ((List.sublist_cons_self _ _).trans hr) ?_
          have hnd := h.nd.sublist (hr.map (·.1))
          simp only [List.map_cons, List.nodup_cons, List.mem_map, not_exists, not_and] at hnd
          exact fun e he => hnd.1 e he
        · have h1 := hi t
          have h2 := he t
          obtain ⟨h3, h4⟩ := hst t
          have h5 := cnt_del_mem (hr.subset (List.mem_cons_self ..))
          have h6 := cnt_del σ.act u t
          show cnt (del σ.act u) t + cnt i t + lkB (upd σ.st s x t) + npB σ.cmd t + (σ.st t).drops +
            enB σ.plr t ≤ _ + (upd σ.st s x t).drops + enB (.next r) t
          rw [h3, h4, h2]
          by_cases e : s = t
          · subst e; simp only [enB, Plr.over, if_true]; simp; omega
          · simp only [enB, Plr.over]; simp [e]; omega
    have upd_id : ∀ s, upd σ.st s (σ.st s) = σ.st := by
      intro s; funext t; unfold upd; split
      · rename_i e; rw [e]
      · rfl
    simp only [stepPlr] at hs
    split at hs
    · split at hs
      · injection hs with hs; subst hs
        exact quiet (List.nil_sublist _) (fun t => by simp_all [enB, Plr.over])
      · injection hs with hs; subst hs
        exact quiet (List.Sublist.refl _) (fun t => by simp_all [enB, Plr.over])
    · injection hs with hs; subst hs
      exact quiet (List.nil_sublist _) (fun t => by simp_all [enB, Plr.over])
    · injection hs with hs; subst hs
      exact quiet (List.nil_sublist _) (fun t => by simp_all [enB, Plr.over])
    · rename_i u s rest hp
      rw [hp] at hhd
      split at hs
      · injection hs with hs; subst hs
        exact quiet (p := .body u s rest) hhd (fun t => by simp [hp, enB, Plr.over])
      · injection hs with hs; subst hs
        exact quiet (p := .next rest) ((List.sublist_cons_self _ _).trans hhd)
          (fun t => by simp [hp, enB, Plr.over])
    · rename_i u s rest d hp
      rw [hp] at hhd
      injection hs with hs; subst hs
      exact quiet (p := .lock d u s rest) hhd (fun t => by simp [hp, enB, Plr.over])
    · rename_i u s rest hp
      rw [hp] at hhd
      injection hs with hs; subst hs
      unfold cbDrop
      split
      · have := ret (s := s) (d := none) (r := rest) (i := σ.ina) (x := σ.st s)
          (fun t => Nat.le_refl _) rfl rfl ((List.sublist_cons_self _ _).trans hhd)
          (fun t => by simp [hp, enB, Plr.over])
        rwa [upd_id] at this
      · exact quiet (p := .killI s none rest) ((List.sublist_cons_self _ _).trans hhd)
          (fun t => by simp [hp, enB, Plr.over])
    · rename_i u s rest hp
      rw [hp] at hhd
      split at hs
      · split at hs
        · have hd : (σ.st s).drops ≠ 0 := drops_pos2 h (hhd.subset (List.mem_cons_self ..))
            (by rw [hp]; rfl)
          rw [if_neg hd] at hs
          injection hs with hs; subst hs
          refine cinv_of h hab hsub hhd (fun t => ?_)
          simp only [hp, enB, Plr.over, setUid]
          unfold upd
          by_cases e : t = s
          · subst e; simp only [if_true, lkB]; omega
          · have e' : ¬ s = t := fun q => e q.symm
            simp only [e, e', if_false]; omega
        · injection hs with hs; subst hs
          exact quiet (p := .ended u s rest) hhd (fun t => by simp [hp, enB, Plr.over])
      · cases hs
    · rename_i d u s rest hp
      rw [hp] at hhd
      split at hs
      · injection hs with hs; subst hs
        exact quiet (p := .body u s rest) hhd (fun t => by simp [hp, enB, Plr.over])
      · cases hs
    · rename_i u s rest hp
      rw [hp] at hhd
      injection hs with hs; subst hs
      unfold cbDrop
      split
      · have := ret (s := s) (d := some u) (r := rest) (i := σ.ina) (x := σ.st s)
          (fun t => Nat.le_refl _) rfl rfl hhd
          (fun t => by simp [hp, enB, Plr.over])
        rwa [upd_id] at this
      · exact quiet (p := .killI s (some u) rest) hhd (fun t => by simp [hp, enB, Plr.over])
    · rename_i s d rest hp
      rw [hp] at hhd
      have he : ∀ t, enB σ.plr t = enB (.killI s d rest) t := fun t => by rw [hp]
      split at hs
      · injection hs with hs; subst hs
        exact ret (fun t => Nat.le_refl _) rfl rfl hhd he
      · split at hs
        · injection hs with hs; subst hs
          exact ret (fun t => cnt_del _ _ _) rfl rfl hhd he
        · injection hs with hs; subst hs
          refine quiet (p := .killA s d rest) ?_ (fun t => ?_)
          · cases d <;> exact hhd
          · cases d <;> simp [hp, enB, Plr.over]
    · cases hs
    · cases hs

theorem any_inv {σ : St} (h : Any σ) : AInv σ ∧ CInv (fun _ => 0) σ := by
  induction h with
  | init => exact ⟨ainv_init, cinv_init⟩
  | step e _ hs ih => exact ⟨ainv_step ih.1 hs, cinv_step ih.2 ih.1 hs⟩

theorem any_run (es : List Ev) {σ : St} (h : Any σ) : Any (run σ es) := by
  induction es generalizing σ with
  | nil => exact h
  | cons e es ih =>
    rw [run]
    cases hs : step σ e with
    | none => exact ih h
    | some σ' => exact ih (Any.step e h hs)

end Verif.Play
