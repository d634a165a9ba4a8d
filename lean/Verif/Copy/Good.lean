import Verif.Copy.Count

/-! Invariant of the operations. -/

namespace Verif.Copy

structure Good (σ : St) : Prop where
  sorted : Sorted σ.m
  late : Late σ.m
  ne : ∀ x ∈ σ.cps, x.a ≠ x.b
  nd : (σ.cps.map (·.c)).Nodup
  one : ∀ x ∈ σ.cps, ∀ y k, (y, k) ∈ pairs x.regs → cnt σ.m y k = 1
  own : ∀ y c i j t, cnt σ.m y (.fwd c i j t) ≠ 0 →
    (∃ x ∈ σ.cps, (y, .fwd c i j t) ∈ pairs x.regs) ∨ c ∈ σ.stale

theorem ins_sorted {p : Proc} {l : List Proc} (h : l.Pairwise (fun p q => p.order ≤ q.order)) :
    (ins p l).Pairwise (fun p q => p.order ≤ q.order) := by
  induction l with
  | nil => simp [ins]
  | cons q l ih =>
    obtain ⟨h1, h2⟩ := List.pairwise_cons.mp h
    rw [ins]
    split
    · rename_i hlt
      refine List.pairwise_cons.mpr ⟨?_, h⟩
      intro r hr
      rcases List.mem_cons.mp hr with e | e
      · subst e; omega
      · have := h1 r e; omega
    · rename_i hlt
      refine List.pairwise_cons.mpr ⟨?_, ih h2⟩
      intro r hr
      rcases mem_ins.mp hr with e | e
      · subst e; omega
      · exact h1 r e

theorem sorted_inst {m : Mgrs} {x : Cp} (h : x.a ≠ x.b) (hs : Sorted m) :
    Sorted (installed m x) := by
  intro y
  by_cases ha : y.sess = x.a
  · have := inst_src (m := m) h y.rtcp (x.s ^^ y.side)
    rw [← ha, ← side_of] at this
    rw [this]; exact ins_sorted (hs y)
  · by_cases hb : y.sess = x.b
    · have := inst_tgt (m := m) h y.rtcp (x.t ^^ y.side)
      rw [← hb, ← side_of] at this
      rw [this]; exact ins_sorted (hs y)
    · rw [inst_other ha hb]; exact hs y

theorem late_inst {m : Mgrs} {x : Cp} (h : x.a ≠ x.b) (hs : Late m) : Late (installed m x) := by
  intro y p hp hk
  by_cases ha : y.sess = x.a
  · have := inst_src (m := m) h y.rtcp (x.s ^^ y.side)
    rw [← ha, ← side_of] at this
    rw [this] at hp
    rcases mem_ins.mp hp with e | e
    · rw [e]; simp [Cp.tee, ordPlay]
    · exact hs y p e hk
  · by_cases hb : y.sess = x.b
    · have := inst_tgt (m := m) h y.rtcp (x.t ^^ y.side)
      rw [← hb, ← side_of] at this
      rw [this] at hp
      rcases mem_ins.mp hp with e | e
      · rw [e] at hk; simp [Cp.gag] at hk
      · exact hs y p e hk
    · rw [inst_other ha hb] at hp; exact hs y p hp hk

theorem sorted_sub {m m' : Mgrs} (h : ∀ y, (m' y).Sublist (m y)) (hs : Sorted m) : Sorted m' :=
  fun y => (hs y).sublist (h y)

theorem late_sub {m m' : Mgrs} (h : ∀ y, (m' y).Sublist (m y)) (hs : Late m) : Late m' :=
  fun y p hp => hs y p ((h y).subset hp)

theorem good_init : Good init := by
  refine ⟨fun x => ?_, ?_, ?_, ?_, ?_, ?_⟩
  · simp [init, base, ordWitness, ordRelay]
  · intro x p hp hk
    simp only [init, base, List.mem_cons, List.not_mem_nil, or_false] at hp
    rcases hp with e | e <;> rw [e] at hk ⊢ <;> simp [ordRelay, ordPlay, ordWitness] at hk ⊢
  · intro x hx; cases hx
  · exact List.nodup_nil
  · intro x hx; cases hx
  · intro y c i j t h
    exact absurd (by simp [cnt, init, base]) h

theorem inj_of_nodup {L : List Cp} (h : (L.map (·.c)).Nodup) {x z : Cp} (hx : x ∈ L) (hz : z ∈ L)
    (e : x.c = z.c) : x = z := by
  induction L with
  | nil => cases hx
  | cons y L ih =>
    obtain ⟨h1, h2⟩ := List.nodup_cons.mp (show (y.c :: L.map (·.c)).Nodup from h)
    rcases List.mem_cons.mp hx with ex | ex <;> rcases List.mem_cons.mp hz with ez | ez
    · rw [ex, ez]
    · exact absurd (by rw [← ex, e]; exact List.mem_map_of_mem ez) h1
    · exact absurd (by rw [← ez, ← e]; exact List.mem_map_of_mem ex) h1
    · exact ih h2 ex ez

/-- Destruction of a session, with memory short or not. -/
theorem kill_cnt {ok : Nat → Nat → Bool} {b : Nat} {L : List Cp} {m : Mgrs}
    (hn : (L.map (·.c)).Nodup) (h1 : ∀ x ∈ L, x.b = b → ∀ y k, (y, k) ∈ pairs x.regs → cnt m y k = 1) :
    ∃ m', killAll ok b m L = .ok m' ∧ (∀ y, (m' y).Sublist (m y)) ∧
      (∀ y k, (∀ x ∈ L, x.b = b → (y, k) ∉ pairs x.regs) → cnt m' y k = cnt m y k) ∧
      (∀ x ∈ L, x.b = b → (∀ i, i < 8 → ok x.c i = true) → ∀ y k, (y, k) ∈ pairs x.regs →
        cnt m' y k = 0) := by
  induction L generalizing m with
  | nil =>
    exact ⟨m, rfl, fun y => .refl _, fun _ _ _ => rfl, fun x hx => by cases hx⟩
  | cons x L ih =>
    obtain ⟨hn1, hn2⟩ := List.nodup_cons.mp (show (x.c :: L.map (·.c)).Nodup from hn)
    have dis : ∀ x' ∈ L, ∀ y k, (y, k) ∈ pairs x'.regs → (y, k) ∉ pairs x.regs := by
      intro x' hx' y k h h'
      obtain ⟨_, _, _, e⟩ := pairs_key h
      obtain ⟨_, _, _, e'⟩ := pairs_key h'
      rw [e] at e'
      injection e' with e'
      apply hn1
      rw [← e']
      exact List.mem_map_of_mem hx'
    rw [killAll]
    by_cases hb : x.b = b
    · rw [if_pos hb]
      obtain ⟨m1, ha, hs, hk, hz⟩ := unreg_cnt (ok := ok x.c) (n := 0) (regs_nodup x)
        (h1 x (List.mem_cons_self ..) hb)
      rw [ha]
      obtain ⟨m2, ha2, hs2, hk2, hz2⟩ := ih (m := m1) hn2 (by
        intro x' hx' hb' y k h
        rw [hk y k (dis x' hx' y k h)]
        exact h1 x' (List.mem_cons_of_mem _ hx') hb' y k h)
      refine ⟨m2, ha2, fun y => (hs2 y).trans (hs y), ?_, ?_⟩
      · intro y k h
        rw [hk2 y k (fun x' hx' => h x' (List.mem_cons_of_mem _ hx')),
          hk y k (h x (List.mem_cons_self ..) hb)]
      · intro x' hx' hb' hok y k h
        rcases List.mem_cons.mp hx' with e | e
        · subst e
          have h0 := hz (by rw [regs_length]; intro i hi; rw [Nat.zero_add]; exact hok i hi) y k h
          have : cnt m2 y k ≤ cnt m1 y k := (hs2 y).countP_le
          omega
        · exact hz2 x' e hb' hok y k h
    · rw [if_neg hb]
      obtain ⟨m2, ha2, hs2, hk2, hz2⟩ := ih (m := m) hn2
        (fun x' hx' => h1 x' (List.mem_cons_of_mem _ hx'))
      refine ⟨m2, ha2, hs2, ?_, ?_⟩
      · intro y k h
        exact hk2 y k (fun x' hx' => h x' (List.mem_cons_of_mem _ hx'))
      · intro x' hx' hb' hok y k h
        rcases List.mem_cons.mp hx' with e | e
        · subst e; exact absurd hb' hb
        · exact hz2 x' e hb' hok y k h

/-- The number of a copy that may be used. -/
theorem fresh_cnt {σ : St} (h : Good σ) {x : Cp} (h1 : ¬ (σ.cps.any (fun y => y.c == x.c) = true))
    (h2 : x.c ∉ σ.stale) {y : Strm} {k : Key} (hk : (y, k) ∈ pairs x.regs) : cnt σ.m y k = 0 := by
  obtain ⟨i, j, t, rfl⟩ := pairs_key hk
  by_cases h0 : cnt σ.m y (.fwd x.c i j t) = 0
  · exact h0
  · exfalso
    rcases h.own y x.c i j t h0 with ⟨z, hz, hp⟩ | hs
    · obtain ⟨_, _, _, e⟩ := pairs_key hp
      injection e with e
      apply h1
      rw [List.any_eq_true]
      exact ⟨z, hz, by simp [e]⟩
    · exact h2 hs

theorem good_copy {σ : St} (h : Good σ) {x : Cp} (hne : x.a ≠ x.b)
    (h1 : ¬ (σ.cps.any (fun y => y.c == x.c) = true)) (h2 : x.c ∉ σ.stale) {m : Mgrs}
    (hm : m = installed σ.m x) :
    Good { m := m, cps := x :: σ.cps, stale := σ.stale, dead := σ.dead, ab := σ.ab } := by
  subst hm
  refine ⟨sorted_inst hne h.sorted, late_inst hne h.late, ?_, ?_, ?_, ?_⟩
  · intro z hz
    rcases List.mem_cons.mp hz with e | e
    · rw [e]; exact hne
    · exact h.ne z e
  · refine List.nodup_cons.mpr ⟨?_, h.nd⟩
    intro hm
    obtain ⟨z, hz, hc⟩ := List.mem_map.mp hm
    apply h1
    rw [List.any_eq_true]
    exact ⟨z, hz, by simp [hc]⟩
  · intro z hz y k hk
    show cnt (installed σ.m x) y k = 1
    rw [cnt_inst]
    rcases List.mem_cons.mp hz with e | e
    · subst e
      rw [if_pos hk, fresh_cnt h h1 h2 hk]
    · rw [h.one z e y k hk, if_neg]
      intro hk'
      obtain ⟨_, _, _, e1⟩ := pairs_key hk
      obtain ⟨_, _, _, e2⟩ := pairs_key hk'
      rw [e1] at e2
      injection e2 with e2
      apply h1
      rw [List.any_eq_true]
      exact ⟨z, e, by simp [e2]⟩
  · intro y c i j t h0
    have h0 : cnt (installed σ.m x) y (.fwd c i j t) ≠ 0 := h0
    rw [cnt_inst] at h0
    by_cases hk : (y, .fwd c i j t) ∈ pairs x.regs
    · exact .inl ⟨x, List.mem_cons_self .., hk⟩
    · rw [if_neg hk] at h0
      rcases h.own y c i j t h0 with ⟨z, hz, hp⟩ | hs
      · exact .inl ⟨z, List.mem_cons_of_mem _ hz, hp⟩
      · exact .inr hs

theorem good_put {σ : St} (h : Good σ) {z : Strm} {l : List Proc}
    (hs : l.Pairwise (fun p q => p.order ≤ q.order))
    (hl : ∀ p ∈ l, (p.kind = .relay ∨ ∃ i o, p.kind = .copy i o) → ordPlay < p.order)
    (hc : ∀ c i j t, l.countP (fun q => q.key == .fwd c i j t) = cnt σ.m z (.fwd c i j t)) :
    Good { m := put σ.m z l, cps := σ.cps, stale := σ.stale, dead := σ.dead, ab := σ.ab } := by
  have hcc : ∀ y c i j t, cnt (put σ.m z l) y (.fwd c i j t) = cnt σ.m y (.fwd c i j t) := by
    intro y c i j t
    rw [cnt_put]
    split
    · rename_i e; rw [e, hc]
    · rfl
  refine ⟨?_, ?_, h.ne, h.nd, ?_, ?_⟩
  · intro y
    simp only [put]
    split
    · exact hs
    · exact h.sorted y
  · intro y p
    simp only [put]
    split
    · exact hl p
    · exact h.late y p
  · intro x hx y k hk
    show cnt (put σ.m z l) y k = 1
    obtain ⟨i, j, t, rfl⟩ := pairs_key hk
    rw [hcc]
    exact h.one x hx y _ hk
  · intro y c i j t h0
    have h0 : cnt (put σ.m z l) y (.fwd c i j t) ≠ 0 := h0
    rw [hcc] at h0
    exact h.own y c i j t h0

theorem good_step {σ : St} (h : Good σ) (hab : σ.ab = false) {o : Op} (ho : o.whole) :
    Good (step σ o) ∧ (step σ o).ab = false := by
  cases o with
  | copy x f =>
    rw [step, if_neg (by simp [hab]), copy]
    split
    · exact ⟨h, hab⟩
    · rename_i hd
      split
      · exact ⟨h, hab⟩
      · rename_i hf
        have hne : x.a ≠ x.b := fun e => hd (.inr (.inr e))
        have hf1 : ¬ (σ.cps.any (fun y => y.c == x.c) = true) := fun e => hf (.inl e)
        have hf2 : x.c ∉ σ.stale := fun e => hf (.inr e)
        have hfail : f.at = none := by
          cases f with
          | reg n => exact absurd ho id
          | _ => rfl
        rw [hfail]
        have hg := good_copy h hne hf1 hf2 (m := (regAll σ.m none 0 x.regs).1) rfl
        generalize regAll σ.m none 0 x.regs = mr at hg
        obtain ⟨m, ok⟩ := mr
        simp only at hg ⊢
        split
        · exact ⟨hg, hab⟩
        · obtain ⟨m', ha, hs, hk, hz⟩ := unreg_cnt (ok := fun _ => true) (n := 0) (m := m)
            (regs_nodup x) (hg.one x (List.mem_cons_self ..))
          rw [ha]
          refine ⟨⟨sorted_sub hs hg.sorted, late_sub hs hg.late, h.ne, h.nd, ?_, ?_⟩, hab⟩
          · intro z hz' y k hp
            show cnt m' y k = 1
            rw [hk y k ?_]
            · exact hg.one z (List.mem_cons_of_mem _ hz') y k hp
            · intro hk'
              obtain ⟨_, _, _, e1⟩ := pairs_key hp
              obtain ⟨_, _, _, e2⟩ := pairs_key hk'
              rw [e1] at e2
              injection e2 with e2
              apply hf1
              rw [List.any_eq_true]
              exact ⟨z, hz', by simp [e2]⟩
          · intro y c i j t h0
            have h0 : cnt m' y (.fwd c i j t) ≠ 0 := h0
            by_cases hp : (y, .fwd c i j t) ∈ pairs x.regs
            · exact absurd (hz (fun _ _ => rfl) y _ hp) h0
            · have : cnt m' y (.fwd c i j t) ≤ cnt m y (.fwd c i j t) := (hs y).countP_le
              rcases hg.own y c i j t (by show cnt m y _ ≠ 0; omega) with ⟨z, hz', hp'⟩ | hst
              · rcases List.mem_cons.mp hz' with e | e
                · rw [e] at hp'; exact absurd hp' hp
                · exact .inl ⟨z, e, hp'⟩
              · exact .inr hst
  | kill b ok =>
    rw [step, if_neg (by simp [hab])]
    obtain ⟨m', ha, hs, hk, hz⟩ := kill_cnt (ok := ok) (b := b) h.nd (fun x hx _ => h.one x hx)
    rw [ha]
    refine ⟨⟨sorted_sub hs h.sorted, late_sub hs h.late, ?_, ?_, ?_, ?_⟩, hab⟩
    · exact fun x hx => h.ne x (List.mem_filter.mp hx).1
    · exact h.nd.sublist (List.filter_sublist.map _)
    · intro x hx y k hp
      obtain ⟨hx1, hx2⟩ := List.mem_filter.mp hx
      show cnt m' y k = 1
      rw [hk y k ?_]
      · exact h.one x hx1 y k hp
      · intro z hz' hzb hp'
        obtain ⟨_, _, _, e1⟩ := pairs_key hp
        obtain ⟨_, _, _, e2⟩ := pairs_key hp'
        rw [e1] at e2
        injection e2 with e2
        have : x = z := by
          have hnd := h.nd
          exact inj_of_nodup hnd hx1 hz' e2
        subst this
        simp [hzb] at hx2
    · intro y c i j t h0
      have h0 : cnt m' y (.fwd c i j t) ≠ 0 := h0
      have hle : cnt m' y (.fwd c i j t) ≤ cnt σ.m y (.fwd c i j t) := (hs y).countP_le
      rcases h.own y c i j t (by omega) with ⟨x, hx, hp⟩ | hst
      · by_cases hb : x.b = b
        · by_cases hall : ∀ i, i < 8 → ok x.c i = true
          · exact absurd (hz x hx hb hall y _ hp) h0
          · right
            show c ∈ left ok b σ.cps ++ σ.stale
            refine List.mem_append_left _ ?_
            obtain ⟨_, _, _, e⟩ := pairs_key hp
            injection e with e
            rw [left, List.mem_filter]
            refine ⟨List.mem_map.mpr ⟨x, List.mem_filter.mpr ⟨hx, by simp [hb]⟩, e.symm⟩, ?_⟩
            rw [e]
            simp only [Bool.not_eq_true', List.all_eq_false, List.mem_range]
            apply Classical.byContradiction
            intro hcon
            apply hall
            intro i hi
            apply Classical.byContradiction
            intro hi'
            exact hcon ⟨i, hi, hi'⟩
        · exact .inl ⟨x, List.mem_filter.mpr ⟨hx, by simp [hb]⟩, hp⟩
      · exact .inr (List.mem_append_right _ hst)
  | reg z o n k =>
    rw [step, if_neg (by simp [hab])]
    refine ⟨good_put h (ins_sorted (h.sorted z)) ?_ ?_, hab⟩
    · intro p hp hk
      rcases mem_ins.mp hp with e | e
      · rw [e] at hk; simp at hk
      · exact h.late z p e hk
    · intro c i j t
      rw [countP_ins]
      simp [cnt]
  | unreg z k =>
    rw [step, if_neg (by simp [hab])]
    split
    · refine ⟨good_put h ((h.sorted z).sublist del_sublist) ?_ ?_, hab⟩
      · exact fun p hp => h.late z p (del_sublist.subset hp)
      · intro c i j t
        rw [countP_del]
        simp [cnt]
    · exact ⟨h, hab⟩

theorem good_run {σ : St} (h : Good σ) (hab : σ.ab = false) {os : List Op} (ho : ∀ o ∈ os, o.whole) :
    Good (run σ os) ∧ (run σ os).ab = false := by
  induction os generalizing σ with
  | nil => exact ⟨h, hab⟩
  | cons o os ih =>
    obtain ⟨h1, h2⟩ := good_step h hab (ho o (List.mem_cons_self ..))
    exact ih h1 h2 (fun o' ho' => ho o' (List.mem_cons_of_mem _ ho'))

end Verif.Copy
