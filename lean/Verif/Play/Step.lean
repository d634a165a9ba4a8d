import Verif.Play.Trans

/-! The invariant of C65 is kept by every step. -/

namespace Verif.Play

theorem inv_cmd {σ σ' : St} (h : Inv σ) (hok : Ok σ .cmd) (hs : stepCmd σ = some σ') : Inv σ' := by
  simp only [Ok] at hok
  unfold stepCmd at hs
  split at hs
  · rename_i s k hc
    split at hs
    · split at hs
      · rename_i hu
        injection hs with hs; subst hs
        exact t_np0 h (Or.inl hc) hu
      · rename_i u hu
        injection hs with hs; subst hs
        exact t_np1 h hc hu
    · cases hs
  · rename_i s u k hc
    split at hs
    · rename_i hh
      obtain ⟨t, ht⟩ := has_iff.mp hh
      injection hs with hs; subst hs
      exact t_npI1 h hc ht
    · rename_i hh
      rw [Bool.not_eq_true, has_neg] at hh
      injection hs with hs; subst hs
      exact t_npI0 h hc hh
  · rename_i s u k hc
    split at hs
    · cases hs
    · rename_i hp
      rw [Bool.not_eq_true] at hp
      split at hs
      · rename_i hh
        obtain ⟨t, ht⟩ := has_iff.mp hh
        injection hs with hs; subst hs
        exact t_npA1 h hc hp ht
      · rename_i hh
        rw [Bool.not_eq_true, has_neg] at hh
        injection hs with hs; subst hs
        refine t_np0 h (Or.inr ⟨u, hc⟩) ?_
        obtain ⟨_, h2, _, h4⟩ := h.npA _ _ _ hc
        rcases h4 with h4 | h4
        · exact h4
        · exfalso
          have ho := h.own _ (h.on s (by rw [hc]; rfl))
          rcases h.has u s h4 (by omega) with h5 | h5 | h5 | h5 | ⟨_, h5⟩
          · exact hh _ h5
          · exact h2 _ h5
          · exact hok _ _ _ hc _ h5
          · rw [(h.lkP _ _ h5).1] at hc; cases hc
          · rw [hc] at h5; cases h5
  · rename_i s u k hc
    split at hs
    · obtain ⟨hu, _, _⟩ := h.npc _ _ _ hc
      have hd := h.drp s
      rw [hu] at hd
      simp only [reduceCtorEq, if_false] at hd
      rw [if_neg (by omega)] at hs
      injection hs with hs; subst hs
      simp only [hu, if_true]
      have := t_npC h hc
      simpa [hu] using this
    · cases hs
  · cases hs

theorem inv_open {σ σ' : St} (h : Inv σ) {r : Option Bool} (hok : Ok σ (.open r))
    (hs : stepOpen σ r = some σ') : Inv σ' := by
  unfold stepOpen at hs
  split at hs
  · rename_i s hc
    split at hs
    · rename_i hl
      split at hs
      · injection hs with hs; subst hs
        exact t_open0 h hc
      · rename_i ok
        cases ok with
        | false => exact hok.elim
        | true =>
          simp only [if_true] at hs
          injection hs with hs; subst hs
          exact t_open1 h hc hl
    · cases hs
  · cases hs

theorem inv_reg {σ σ' : St} (h : Inv σ) {ok : Bool} (hok : Ok σ (.regT ok))
    (hs : stepReg σ ok = some σ') : Inv σ' := by
  cases ok with
  | false => exact hok.elim
  | true =>
    unfold stepReg at hs
    split at hs
    · rename_i s u hc
      simp only [if_true] at hs
      split at hs
      · rename_i hi
        injection hs with hs; subst hs
        exact t_reg1 h hc hi
      · rename_i hi
        split at hs
        · cases hs
        · rename_i hp
          injection hs with hs; subst hs
          exact t_reg2 h hc (by simpa using hi) (by simpa using hp)
    · cases hs

theorem inv_addr {σ σ' : St} (h : Inv σ) {s : Nat} {b : Bool} (hs : stepAddr σ s b = some σ') :
    Inv σ' := by
  unfold stepAddr at hs
  simp only at hs
  split at hs
  · rename_i ho
    obtain ⟨ho, hl⟩ := ho
    split at hs
    · rename_i hb
      obtain ⟨hb, hi⟩ := hb
      subst hb
      split at hs
      · rename_i hu
        injection hs with hs; subst hs
        exact t_addr1 h ho hl hi (by intro u hu'; rw [hu] at hu'; cases hu')
      · rename_i u hu
        split at hs
        · rename_i hh
          obtain ⟨t, ht⟩ := has_iff.mp hh
          injection hs with hs; subst hs
          exact t_addr2 h ho hl hi hu ht
        · rename_i hh
          rw [Bool.not_eq_true, has_neg] at hh
          injection hs with hs; subst hs
          exact t_addr1 h ho hl hi
            (by intro v hu'; rw [hu] at hu'; injection hu' with e; subst e; exact hh)
    · rename_i hb
      injection hs with hs; subst hs
      exact t_addr0 h ho hl (by cases b <;> simp_all)
  · cases hs

theorem inv_moved {σ σ' : St} (h : Inv σ) {s : Nat} (hs : stepMoved σ s = some σ') : Inv σ' := by
  unfold stepMoved at hs
  simp only at hs
  split at hs
  · rename_i u hl
    split at hs
    · cases hs
    · rename_i hp
      injection hs with hs; subst hs
      exact t_moved h hl (by simpa using hp)
  · cases hs

theorem inv_release {σ σ' : St} (h : Inv σ) {s : Nat} (hok : Ok σ (.release s))
    (hs : stepRelease σ s = some σ') : Inv σ' := by
  unfold stepRelease at hs
  simp only [Ok] at hok
  simp only [if_neg hok] at hs
  split at hs
  · rename_i hh
    obtain ⟨h1, h2, h3, h4⟩ := hh
    injection hs with hs; subst hs
    exact t_release h h1 h2 h3 h4 hok
  · cases hs

theorem inv_dtor {σ σ' : St} (h : Inv σ) {s : Nat} (hs : stepDtor σ s = some σ') : Inv σ' := by
  unfold stepDtor at hs
  simp only at hs
  split at hs
  · cases hs
  · rename_i u hu
    split at hs
    · rename_i hd
      split at hs
      · rename_i hh
        obtain ⟨t, ht⟩ := has_iff.mp hh
        injection hs with hs; subst hs
        exact t_dtor1 h hu hd ht
      · rename_i hh
        rw [Bool.not_eq_true, has_neg] at hh
        injection hs with hs; subst hs
        exact t_dtor0 h hu hd hh
    · split at hs
      · rename_i hd
        split at hs
        · cases hs
        · rename_i hp
          injection hs with hs; subst hs
          exact t_dtor2 h hu hd (by simpa using hp)
      · cases hs

theorem inv_plr {σ σ' : St} (h : Inv σ) (hL : InvL σ) {a : PAct} (hs : stepPlr σ a = some σ') :
    Inv σ' := by
  have hpd := hL.pend
  unfold stepPlr at hs
  split at hs
  · rename_i hp
    split at hs
    · injection hs with hs; subst hs
      exact t_quiet h (by simp [hp, Plr.isEnd]) (by simp [Plr.ref]) rfl (by simp [Plr.cur])
    · injection hs with hs; subst hs
      exact t_quiet h (by simp [hp, Plr.isEnd]) (by simp [Plr.ref]) rfl (by simp [Plr.cur])
  · rename_i hp
    injection hs with hs; subst hs
    exact t_quiet h (by simp [hp, Plr.isEnd]) (by simp [Plr.ref]) rfl (by simp [Plr.cur])
  · rename_i hp
    injection hs with hs; subst hs
    exact t_quiet h (by simp [hp, Plr.isEnd]) (by simp [Plr.ref]) rfl (by simp [Plr.cur])
  · rename_i u s rest hp
    rw [hp] at hpd
    split at hs
    · rename_i hr
      injection hs with hs; subst hs
      refine t_quiet h (by simp [hp, Plr.isEnd]) ?_ rfl ?_
      · intro t ht; simp only [Plr.ref, Option.some.injEq] at ht; subst ht; exact h.reg _ hr
      · intro v t ht
        simp only [Plr.cur, Option.some.injEq, Prod.mk.injEq] at ht
        obtain ⟨rfl, rfl⟩ := ht
        exact hpd.subset (List.mem_cons_self ..)
    · injection hs with hs; subst hs
      exact t_quiet h (by simp [hp, Plr.isEnd]) (by simp [Plr.ref]) rfl (by simp [Plr.cur])
  · rename_i u s rest d hp
    injection hs with hs; subst hs
    exact t_quiet h (by simp [hp, Plr.isEnd]) (fun t ht => h.ref t (by rw [hp]; exact ht)) rfl
      (fun v t ht => h.cur v t (by rw [hp]; exact ht))
  · rename_i u s rest hp
    have ho := h.ref s (by rw [hp]; rfl)
    injection hs with hs; subst hs
    unfold cbDrop
    rw [if_pos ho]
    exact t_quiet h (by simp [hp, Plr.isEnd]) (by simp [Plr.ref]) rfl (by simp [Plr.cur])
  · rename_i u s rest hp
    have hm := h.cur u s (by rw [hp]; rfl)
    obtain ⟨hu, hi, hl⟩ := h.actE u s hm (by rw [hp]; rfl)
    have hd := h.drp s
    rw [hu] at hd
    simp only [reduceCtorEq, if_false] at hd
    simp only at hs
    rw [if_pos hl, if_pos hu, if_neg (by omega)] at hs
    injection hs with hs; subst hs
    exact t_eof h hp
  · rename_i d u s rest hp
    split at hs
    · injection hs with hs; subst hs
      exact t_quiet h (by simp [hp, Plr.isEnd]) (fun t ht => h.ref t (by rw [hp]; exact ht)) rfl
        (fun v t ht => h.cur v t (by rw [hp]; exact ht))
    · cases hs
  · rename_i u s rest hp
    have ho := h.ref s (by rw [hp]; rfl)
    injection hs with hs; subst hs
    unfold cbDrop
    rw [if_pos ho]
    exact t_ended h hp
  · rename_i hp
    have := h.kill
    rw [hp] at this
    cases this
  · cases hs
  · cases hs

/-! ### The walk of the player thread -/

theorem del_sub (l : List Entry) (u : Nat) : (del l u).Sublist l := List.filter_sublist

theorem sub_del {l r : List Entry} {u : Nat} (h : l.Sublist r) (hn : ∀ e ∈ l, e.1 ≠ u) :
    l.Sublist (del r u) := by
  have h2 := h.filter (fun e => e.1 != u)
  rwa [List.filter_eq_self.mpr (by intro e he; simpa using hn e he)] at h2

theorem invL_act {σ : St} (hL : InvL σ) {p : Plr} {l : List Entry} {n : Nat} (hn : σ.nuid ≤ n)
    (hl : l.Sublist σ.act) (hp : p.pend.Sublist l) {f : Nat → Strm} {i : List Entry} {c : Cmd}
    {b : Bool} : InvL (St.mk f l i p c n b) :=
  ⟨hL.nd.sublist (hl.map _), hp, fun u s hm => by
    have := hL.lt u s (hl.subset hm)
    show u < n
    omega⟩

theorem invL_add {σ : St} (hL : InvL σ) {u s : Nat} (hu : u < σ.nuid) (hf : ∀ t, (u, t) ∉ σ.act)
    (hp : σ.plr.holds = false) {f : Nat → Strm} {i : List Entry} {c : Cmd} {b : Bool} :
    InvL (St.mk f ((u, s) :: σ.act) i (wakeup σ.plr) c σ.nuid b) := by
  refine ⟨?_, ?_, ?_⟩
  · simp only [List.map_cons, List.nodup_cons]
    refine ⟨?_, hL.nd⟩
    simp only [List.mem_map, not_exists, not_and]
    intro e he hx
    apply hf e.2
    rw [← hx]
    exact he
  · rcases σ with ⟨_, _, _, p, _, _, _⟩
    cases p <;> simp_all [Plr.holds, wakeup, Plr.pend]
  · intro v t hm
    rcases List.mem_cons.mp hm with e | hm
    · injection e with e1 e2; subst e1; exact hu
    · exact hL.lt v t hm

theorem invL_plr {σ σ' : St} (h : Inv σ) (hL : InvL σ) {a : PAct} (hs : stepPlr σ a = some σ') :
    InvL σ' := by
  have hpd := hL.pend
  unfold stepPlr at hs
  split at hs
  · split at hs
    · injection hs with hs; subst hs
      exact invL_act hL (Nat.le_refl _) (List.Sublist.refl _) (by simp [Plr.pend])
    · injection hs with hs; subst hs
      exact invL_act hL (Nat.le_refl _) (List.Sublist.refl _) (List.Sublist.refl _)
  · injection hs with hs; subst hs
    exact invL_act hL (Nat.le_refl _) (List.Sublist.refl _) (by simp [Plr.pend])
  · injection hs with hs; subst hs
    exact invL_act hL (Nat.le_refl _) (List.Sublist.refl _) (by simp [Plr.pend])
  · rename_i u s rest hp
    rw [hp] at hpd
    have hpd : ((_ :: _) : List Entry).Sublist σ.act := hpd
    split at hs
    · injection hs with hs; subst hs
      exact invL_act (p := .body u s rest) hL (Nat.le_refl _) (List.Sublist.refl _) hpd
    · injection hs with hs; subst hs
      exact invL_act hL (Nat.le_refl _) (List.Sublist.refl _)
        ((List.sublist_cons_self _ _).trans hpd)
  · rename_i u s rest d hp
    rw [hp] at hpd
    have hpd : ((_ :: _) : List Entry).Sublist σ.act := hpd
    injection hs with hs; subst hs
    exact invL_act (p := .lock d u s rest) hL (Nat.le_refl _) (List.Sublist.refl _) hpd
  · rename_i u s rest hp
    rw [hp] at hpd
    have hpd : ((_ :: _) : List Entry).Sublist σ.act := hpd
    have ho := h.ref s (by rw [hp]; rfl)
    injection hs with hs; subst hs
    unfold cbDrop
    rw [if_pos ho]
    exact invL_act hL (Nat.le_refl _) (List.Sublist.refl _)
      ((List.sublist_cons_self _ _).trans hpd)
  · rename_i u s rest hp
    have hm := h.cur u s (by rw [hp]; rfl)
    obtain ⟨hu, hi, hl⟩ := h.actE u s hm (by rw [hp]; rfl)
    have hd := h.drp s
    rw [hu] at hd
    simp only [reduceCtorEq, if_false] at hd
    simp only at hs
    rw [if_pos hl, if_pos hu, if_neg (by omega)] at hs
    injection hs with hs; subst hs
    rw [hp] at hpd
    exact invL_act (p := .ended u s rest) hL (Nat.le_refl _) (List.Sublist.refl _) hpd
  · rename_i d u s rest hp
    rw [hp] at hpd
    have hpd : ((_ :: _) : List Entry).Sublist σ.act := hpd
    split at hs
    · injection hs with hs; subst hs
      exact invL_act (p := .body u s rest) hL (Nat.le_refl _) (List.Sublist.refl _) hpd
    · cases hs
  · rename_i u s rest hp
    rw [hp] at hpd
    have hpd : ((_ :: _) : List Entry).Sublist σ.act := hpd
    have ho := h.ref s (by rw [hp]; rfl)
    injection hs with hs; subst hs
    unfold cbDrop
    rw [if_pos ho]
    refine invL_act hL (Nat.le_refl _) (del_sub _ _) ?_
    refine sub_del ((List.sublist_cons_self _ _).trans hpd) ?_
    have hnd := hL.nd.sublist (hpd.map (·.1))
    simp only [Plr.pend, List.map_cons, List.nodup_cons, List.mem_map, not_exists, not_and] at hnd
    exact fun e he => hnd.1 e he
  · rename_i hp
    have := h.kill
    rw [hp] at this
    cases this
  · cases hs
  · cases hs

theorem not_holds_pend {p : Plr} (h : p.holds = false) : p.pend = [] := by
  cases p <;> simp_all [Plr.holds, Plr.pend]

theorem invL_step {σ σ' : St} (h : Inv σ) (hL : InvL σ) {e : Ev} (hok : Ok σ e)
    (hs : step σ e = some σ') : InvL σ' := by
  have hsame : ∀ {f : Nat → Strm} {i : List Entry} {c : Cmd} {b : Bool} {n : Nat},
      σ.nuid ≤ n → InvL (St.mk f σ.act i σ.plr c n b) := fun hn => invL_act hL hn (List.Sublist.refl _) hL.pend
  unfold step at hs
  rw [if_neg (by simp [h.ab])] at hs
  cases e with
  | noplay s =>
    simp only at hs
    split at hs
    · injection hs with hs; subst hs; exact hsame (Nat.le_refl _)
    · cases hs
  | play s =>
    simp only at hs
    split at hs
    · injection hs with hs; subst hs; exact hsame (Nat.le_refl _)
    · cases hs
  | cmd =>
    simp only [stepCmd] at hs
    split at hs
    · split at hs
      · split at hs <;> (injection hs with hs; subst hs; exact hsame (Nat.le_refl _))
      · cases hs
    · split at hs <;> (injection hs with hs; subst hs; exact hsame (Nat.le_refl _))
    · split at hs
      · cases hs
      · rename_i hp
        split at hs
        · injection hs with hs; subst hs
          refine invL_act hL (Nat.le_refl _) (del_sub _ _) ?_
          rw [not_holds_pend (by simpa using hp)]
          exact List.nil_sublist _
        · injection hs with hs; subst hs; exact hsame (Nat.le_refl _)
    · split at hs
      · split at hs <;> (injection hs with hs; subst hs; exact hsame (Nat.le_refl _))
      · cases hs
    · cases hs
  | «open» r =>
    simp only [stepOpen] at hs
    split at hs
    · split at hs
      · split at hs
        · injection hs with hs; subst hs; exact hsame (Nat.le_refl _)
        · split at hs <;> (injection hs with hs; subst hs; exact hsame (Nat.le_succ _))
      · cases hs
    · cases hs
  | regT ok =>
    cases ok with
    | false => exact hok.elim
    | true =>
      simp only [stepReg] at hs
      split at hs
      · rename_i s u hc
        split at hs
        · simp only [if_true] at hs
          injection hs with hs; subst hs; exact hsame (Nat.le_refl _)
        · split at hs
          · cases hs
          · rename_i hp
            simp only [if_true] at hs
            injection hs with hs; subst hs
            obtain ⟨_, hu, hf⟩ := h.lkP s u (h.plR s u hc)
            exact invL_add hL (h.lt s u hu) (fun t => (hf t).1) (by simpa using hp)
      · cases hs
  | addr s b =>
    simp only [stepAddr] at hs
    split at hs
    · split at hs
      · split at hs
        · injection hs with hs; subst hs; exact hsame (Nat.le_refl _)
        · split at hs <;> (injection hs with hs; subst hs; exact hsame (Nat.le_refl _))
      · injection hs with hs; subst hs; exact hsame (Nat.le_refl _)
    · cases hs
  | moved s =>
    simp only [stepMoved] at hs
    split at hs
    · rename_i u hl
      split at hs
      · cases hs
      · rename_i hp
        injection hs with hs; subst hs
        obtain ⟨hu, _, _, hf⟩ := h.lkM s u hl
        exact invL_add hL (h.lt s u hu) (fun t => (hf t).1) (by simpa using hp)
    · cases hs
  | unregS s =>
    simp only [stepUnregS] at hs
    injection hs with hs; subst hs; exact hsame (Nat.le_refl _)
  | release s =>
    simp only [stepRelease] at hs
    split at hs
    · split at hs <;> (injection hs with hs; subst hs; exact hsame (Nat.le_refl _))
    · cases hs
  | dtor s =>
    simp only [stepDtor] at hs
    split at hs
    · cases hs
    · split at hs
      · split at hs <;> (injection hs with hs; subst hs; exact hsame (Nat.le_refl _))
      · split at hs
        · split at hs
          · cases hs
          · rename_i hp
            injection hs with hs; subst hs
            refine invL_act hL (Nat.le_refl _) (del_sub _ _) ?_
            rw [not_holds_pend (by simpa using hp)]
            exact List.nil_sublist _
        · cases hs
  | plr a => exact invL_plr h hL hs

theorem inv_step {σ σ' : St} (h : Inv σ) (hL : InvL σ) {e : Ev} (hok : Ok σ e)
    (hs : step σ e = some σ') : Inv σ' := by
  unfold step at hs
  rw [if_neg (by simp [h.ab])] at hs
  cases e with
  | noplay s =>
    simp only at hs
    split at hs
    · rename_i hc
      injection hs with hs; subst hs; exact t_start h hc.1 hc.2
    · cases hs
  | play s =>
    simp only at hs
    split at hs
    · rename_i hc
      injection hs with hs; subst hs; exact t_start h hc.1 hc.2
    · cases hs
  | cmd => exact inv_cmd h hok hs
  | «open» r => exact inv_open h hok hs
  | regT ok => exact inv_reg h hok hs
  | addr s b => exact inv_addr h hs
  | moved s => exact inv_moved h hs
  | unregS s =>
    simp only [stepUnregS] at hs
    injection hs with hs; subst hs; exact t_unregS h
  | release s => exact inv_release h hok hs
  | dtor s => exact inv_dtor h hs
  | plr a => exact inv_plr h hL hs

theorem reach_inv {σ : St} (h : Reach σ) : Inv σ ∧ InvL σ := by
  induction h with
  | init => exact ⟨inv_init, invL_init⟩
  | step e _ hok hs ih => exact ⟨inv_step ih.1 ih.2 hok hs, invL_step ih.1 ih.2 hok hs⟩

end Verif.Play
