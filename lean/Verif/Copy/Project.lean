import Verif.Copy.Undo

/-! Two runs, one without the copies to a session. -/

namespace Verif.Copy

/-- The keys of the copies with these numbers. -/
def without (bad : List Nat) (_ : Strm) : Key → Bool
  | .fwd c _ _ _ => !bad.contains c
  | .ext _ => true

/-- `τ` is `σ` without the copies to `b`, which have these numbers. -/
structure Rel (b : Nat) (bad : List Nat) (σ τ : St) : Prop where
  good : Good σ
  ab : σ.ab = false
  ab' : τ.ab = false
  m : τ.m = keep (without bad) σ.m
  cps : τ.cps = σ.cps.filter (fun x => x.b != b)
  dead : τ.dead = σ.dead
  stale : σ.stale = []
  stale' : τ.stale = []
  bad : ∀ x ∈ σ.cps, x.b = b ↔ x.c ∈ bad

theorem regs_without {bad : List Nat} {x : Cp} {e : Strm × Proc} (he : e ∈ x.regs) :
    without bad e.1 e.2.key = !bad.contains x.c := by
  obtain ⟨i, j, t, h⟩ := pairs_key (x := x) (y := e.1) (k := e.2.key) (List.mem_map_of_mem he)
  rw [h]; rfl

theorem reg_none {R : List (Strm × Proc)} {m : Mgrs} {n : Nat} : (regAll m none n R).2 = true := by
  induction R generalizing m n with
  | nil => rfl
  | cons e R ih => rw [regAll, if_neg (by simp)]; exact ih

theorem left_nil {ok : Nat → Nat → Bool} (h : ∀ c n, ok c n = true) (b : Nat) (l : List Cp) :
    left ok b l = [] := by
  rw [left, List.filter_eq_nil_iff]
  intro c _
  simp [h]

theorem any_num {l : List Cp} {c : Nat} (h : ∀ y ∈ l, y.c ≠ c) :
    (l.any (fun y => y.c == c)) = false := by
  rw [List.any_eq_false]
  intro y hy
  simpa using h y hy

theorem fine_whole {o : Op} (h : o.fine) : o.whole := by
  cases o with
  | copy x f => have : f = .no := h; subst this; trivial
  | _ => trivial

/-- An operation other than a copy to `b`. -/
theorem rel_step {b : Nat} {bad : List Nat} {σ τ : St} (h : Rel b bad σ τ) {o : Op} (hf : o.fine)
    (hk : o.kills b = false) (hc : o.copiesTo b = false)
    (hb : ∀ x f, o = .copy x f → x.c ∉ bad ∧ ∀ y ∈ σ.cps, y.c ≠ x.c) :
    Rel b bad (step σ o) (step τ o) := by
  obtain ⟨hg, hgab⟩ := good_step h.good h.ab (fine_whole hf)
  have ha : ¬ σ.ab = true := by simp [h.ab]
  have ha' : ¬ τ.ab = true := by simp [h.ab']
  cases o with
  | copy x f =>
    have : f = .no := hf
    subst this
    obtain ⟨hx, hn⟩ := hb x _ rfl
    have hxb : ¬ x.b = b := by simpa [Op.copiesTo] using hc
    have hn' : (τ.cps.any (fun y => y.c == x.c)) = false := any_num (by
      intro y hy
      rw [h.cps] at hy
      exact hn y (List.mem_filter.mp hy).1)
    rw [step, if_neg ha, copy] at hg hgab ⊢
    rw [step, if_neg ha', copy, h.dead]
    split at hg <;> rename_i hd
    · rw [if_pos hd] at hgab ⊢
      rw [if_pos hd]
      exact h
    · rw [if_neg hd] at hgab ⊢
      rw [if_neg hd]
      rw [if_neg (by simp [any_num hn, h.stale])] at hg hgab ⊢
      rw [if_neg (by simp [hn', h.stale'])]
      have e1 : ∀ m : Mgrs, (regAll m (Fail.at .no) 0 x.regs).2 = true := fun m => reg_none
      have e2 : True ∧ Fail.no ≠ Fail.last := ⟨trivial, by simp⟩
      simp only [e1, if_pos e2] at hg hgab ⊢
      refine ⟨hg, hgab, h.ab', ?_, ?_, rfl, h.stale, h.stale', ?_⟩
      · show (regAll τ.m none 0 x.regs).1 = keep (without bad) (regAll σ.m none 0 x.regs).1
        rw [h.m, reg_keep h.good.sorted (by
          intro e he
          rw [regs_without he]
          simp [hx])]
      · show x :: τ.cps = (x :: σ.cps).filter (fun x => x.b != b)
        rw [List.filter_cons, if_pos (by simp [hxb]), h.cps]
      · intro z hz
        rcases List.mem_cons.mp hz with e | e
        · rw [e]
          exact ⟨fun q => absurd q hxb, fun q => absurd q hx⟩
        · exact h.bad z e
  | kill b' ok =>
    have hbb : ¬ b' = b := by simpa [Op.kills] using hk
    have hok : ∀ c n, ok c n = true := hf
    rw [step, if_neg ha] at hg hgab ⊢
    rw [step, if_neg ha']
    split at hg
    · rename_i he; rw [he] at hgab; cases hgab
    · rename_i m' hm'
      have hk' := kill_keep (kp := without bad) (P := fun x => x.b != b) (by
        intro x hx hxb
        refine ⟨by simp [hxb, hbb], ?_⟩
        intro e he
        rw [regs_without he]
        have : x.c ∉ bad := fun q => hbb (by rw [← hxb]; exact (h.bad x hx).mpr q)
        simp [this]) hm'
      rw [hm'] at hgab
      rw [h.m, h.cps, hk']
      simp only [left_nil hok] at hg hgab ⊢
      refine ⟨hg, hgab, h.ab', rfl, ?_, ?_, h.stale, h.stale', ?_⟩
      · simp only [List.filter_filter]
        apply List.filter_congr
        intro q _
        rw [Bool.and_comm]
      · show b' :: τ.dead = b' :: σ.dead
        rw [h.dead]
      · intro x hx
        exact h.bad x (List.mem_filter.mp hx).1
  | reg x o n k =>
    rw [step, if_neg ha] at hg hgab ⊢
    rw [step, if_neg ha']
    refine ⟨hg, hgab, h.ab', ?_, h.cps, h.dead, h.stale, h.stale', h.bad⟩
    show put τ.m x (ins _ (τ.m x)) = keep (without bad) (put σ.m x (ins _ (σ.m x)))
    rw [keep_put, filter_ins_in (f := fun q => without bad x q.key) rfl (h.good.sorted x), h.m]
    rfl
  | unreg x k =>
    rw [step, if_neg ha] at hg hgab ⊢
    rw [step, if_neg ha', h.m]
    have hh : hasKey (.ext k) (keep (without bad) σ.m x) = hasKey (.ext k) (σ.m x) :=
      hasKey_filter (f := without bad x) rfl
    rw [hh]
    split at hg
    · rename_i q
      rw [if_pos q] at hgab ⊢
      rw [if_pos q]
      refine ⟨hg, hgab, h.ab', ?_, h.cps, h.dead, h.stale, h.stale', h.bad⟩
      show put _ x (del _ (keep (without bad) σ.m x)) = keep (without bad) (put σ.m x (del _ (σ.m x)))
      rw [keep_put, filter_del (f := without bad x) rfl]
      rfl
    · rename_i q
      rw [if_neg q] at hgab ⊢
      rw [if_neg q]
      exact h

/-- A copy to `b`. -/
theorem rel_skip {b : Nat} {bad : List Nat} {σ τ : St} (h : Rel b bad σ τ) {x : Cp} (hxb : x.b = b)
    (hx : x.c ∈ bad) : Rel b bad (step σ (.copy x .no)) τ := by
  obtain ⟨hg, hgab⟩ := good_step h.good h.ab (o := .copy x .no) trivial
  rw [step, if_neg (by simp [h.ab]), copy] at hg hgab ⊢
  split at hg <;> rename_i hd
  · rw [if_pos hd] at hgab ⊢
    exact h
  · rw [if_neg hd] at hgab ⊢
    split at hg <;> rename_i hu
    · rw [if_pos hu] at hgab ⊢
      exact h
    · rw [if_neg hu] at hgab ⊢
      have e1 : ∀ m : Mgrs, (regAll m (Fail.at .no) 0 x.regs).2 = true := fun m => reg_none
      have e2 : True ∧ Fail.no ≠ Fail.last := ⟨trivial, by simp⟩
      simp only [e1, if_pos e2] at hg hgab ⊢
      refine ⟨hg, hgab, h.ab', ?_, ?_, h.dead, h.stale, h.stale', ?_⟩
      · show τ.m = keep (without bad) (regAll σ.m none 0 x.regs).1
        rw [h.m, reg_drop]
        intro e he
        rw [regs_without he]
        simp [hx]
      · show τ.cps = (x :: σ.cps).filter (fun x => x.b != b)
        rw [List.filter_cons, if_neg (by simp [hxb]), h.cps]
      · intro z hz
        rcases List.mem_cons.mp hz with e | e
        · rw [e]; exact ⟨fun _ => hx, fun _ => hxb⟩
        · exact h.bad z e

theorem step_nums {σ : St} {o : Op} {y : Cp} (hy : y ∈ (step σ o).cps) :
    y ∈ σ.cps ∨ ∃ f, o = .copy y f := by
  cases o with
  | copy x f =>
    rw [step, copy] at hy
    (repeat' split at hy) <;> first
      | exact .inl hy
      | (rcases List.mem_cons.mp hy with e | e
         · exact .inr ⟨f, by rw [e]⟩
         · exact .inl e)
  | kill b ok =>
    rw [step] at hy
    (repeat' split at hy) <;> first
      | exact .inl hy
      | exact .inl (List.mem_filter.mp hy).1
  | reg x o n k => rw [step] at hy; (repeat' split at hy) <;> exact .inl hy
  | unreg x k => rw [step] at hy; (repeat' split at hy) <;> exact .inl hy

theorem rel_run {b : Nat} {bad : List Nat} {os : List Op} {σ τ : St} (h : Rel b bad σ τ)
    (hf : ∀ o ∈ os, o.fine ∧ o.kills b = false) (hn : (nums os).Nodup)
    (hnew : ∀ c ∈ nums os, ∀ y ∈ σ.cps, y.c ≠ c)
    (hb : ∀ x f, Op.copy x f ∈ os → (x.b = b ↔ x.c ∈ bad)) :
    Rel b bad (run σ os) (run τ (os.filter (fun o => !o.copiesTo b))) := by
  induction os generalizing σ τ with
  | nil => exact h
  | cons o os ih =>
    obtain ⟨hf1, hk1⟩ := hf o (List.mem_cons_self ..)
    have hn2 : (nums os).Nodup := by
      cases o <;> first | exact hn | exact (List.nodup_cons.mp hn).2
    have hnew2 : ∀ c ∈ nums os, ∀ y ∈ (step σ o).cps, y.c ≠ c := by
      intro c hc y hy
      rcases step_nums hy with q | ⟨f, rfl⟩
      · refine hnew c ?_ y q
        cases o <;> first | exact hc | exact List.mem_cons_of_mem _ hc
      · intro e
        exact (List.nodup_cons.mp hn).1 (by rw [e]; exact hc)
    have ih := fun τ h => ih (σ := step σ o) (τ := τ) h
      (fun o ho => hf o (List.mem_cons_of_mem _ ho)) hn2 hnew2
      (fun x f hx => hb x f (List.mem_cons_of_mem _ hx))
    rw [List.filter_cons]
    by_cases hc : o.copiesTo b = true
    · rw [if_neg (by simp [hc])]
      refine ih τ ?_
      cases o with
      | copy x f =>
        have : f = .no := hf1
        subst this
        have hxb : x.b = b := by simpa [Op.copiesTo] using hc
        exact rel_skip h hxb ((hb x _ (List.mem_cons_self ..)).mp hxb)
      | _ => cases hc
    · have hc : o.copiesTo b = false := by simpa using hc
      rw [if_pos (by simp [hc])]
      refine ih (step τ o) (rel_step h hf1 hk1 hc ?_)
      rintro x f rfl
      refine ⟨fun q => ?_, hnew x.c (List.mem_cons_self ..)⟩
      have := (hb x f (List.mem_cons_self ..)).mpr q
      simp [Op.copiesTo, this] at hc

theorem nums_mem {os : List Op} {x : Cp} {f : Fail} (h : Op.copy x f ∈ os) : x.c ∈ nums os := by
  induction os with
  | nil => cases h
  | cons o os ih =>
    rcases List.mem_cons.mp h with e | e
    · subst e; exact List.mem_cons_self ..
    · have := ih e
      cases o <;> first | exact this | exact List.mem_cons_of_mem _ this

theorem nums_filter {os : List Op} {b : Nat} {c : Nat}
    (h : c ∈ nums (os.filter (fun o => o.copiesTo b))) : ∃ x f, Op.copy x f ∈ os ∧ x.c = c ∧ x.b = b := by
  induction os with
  | nil => cases h
  | cons o os ih =>
    rw [List.filter_cons] at h
    split at h
    · rename_i hc
      cases o with
      | copy x f =>
        rcases List.mem_cons.mp h with e | e
        · exact ⟨x, f, List.mem_cons_self .., e.symm, by simpa [Op.copiesTo] using hc⟩
        · obtain ⟨x, f, h1, h2⟩ := ih e
          exact ⟨x, f, List.mem_cons_of_mem _ h1, h2⟩
      | _ => cases hc
    · obtain ⟨x, f, h1, h2⟩ := ih h
      exact ⟨x, f, List.mem_cons_of_mem _ h1, h2⟩

theorem nums_inj {os : List Op} (hn : (nums os).Nodup) {x y : Cp} {f g : Fail}
    (hx : Op.copy x f ∈ os) (hy : Op.copy y g ∈ os) (e : x.c = y.c) : x = y := by
  induction os with
  | nil => cases hx
  | cons o os ih =>
    have hn2 : (nums os).Nodup := by
      cases o <;> first | exact hn | exact (List.nodup_cons.mp hn).2
    rcases List.mem_cons.mp hx with hx1 | hx1 <;> rcases List.mem_cons.mp hy with hy1 | hy1
    · rw [← hx1] at hy1; injection hy1 with q; exact q.symm
    · subst hx1
      exact absurd (by rw [e]; exact nums_mem hy1) (List.nodup_cons.mp hn).1
    · subst hy1
      exact absurd (by rw [← e]; exact nums_mem hx1) (List.nodup_cons.mp hn).1
    · exact ih hn2 hx1 hy1

/-- At the end `b` is destroyed. -/
theorem rel_kill {b : Nat} {bad : List Nat} {σ τ : St} (h : Rel b bad σ τ) {ok : Nat → Nat → Bool}
    (hok : ∀ c n, ok c n = true) : (step σ (.kill b ok)).m = τ.m := by
  rw [step, if_neg (by simp [h.ab]), kill_filter hok h.good.nd (fun x hx _ => h.good.one x hx), h.m]
  funext y
  show List.filter _ (σ.m y) = List.filter _ (σ.m y)
  apply List.filter_congr
  intro q hq
  cases hk : q.key with
  | ext n =>
    show _ = true
    rw [Bool.not_eq_true', List.any_eq_false]
    intro x hx
    simp only [Bool.and_eq_true, List.contains_iff_mem, not_and]
    intro _ hp
    obtain ⟨_, _, _, e⟩ := pairs_key hp
    cases e
  | fwd c i j t =>
    show (!σ.cps.any (fun x => x.b == b && (pairs x.regs).contains (y, .fwd c i j t))) =
      !bad.contains c
    have hpos : cnt σ.m y (.fwd c i j t) ≠ 0 := by
      intro h0
      rw [cnt, List.countP_eq_zero] at h0
      exact h0 q hq (by simp [hk])
    rcases h.good.own y c i j t hpos with ⟨x, hx, hp⟩ | hs
    · obtain ⟨_, _, _, e⟩ := pairs_key hp
      injection e with e
      subst e
      congr 1
      rw [Bool.eq_iff_iff, List.any_eq_true]
      simp only [Bool.and_eq_true, List.contains_iff_mem, beq_iff_eq]
      constructor
      · rintro ⟨z, hz, hzb, hzp⟩
        obtain ⟨_, _, _, e⟩ := pairs_key hzp
        injection e with e
        rw [inj_of_nodup h.good.nd hx hz e]
        exact (h.bad z hz).mp hzb
      · intro hb
        exact ⟨x, hx, (h.bad x hx).mpr hb, hp⟩
    · rw [h.stale] at hs; cases hs

end Verif.Copy
