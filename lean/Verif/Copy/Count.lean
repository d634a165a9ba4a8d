import Verif.Copy.Install

/-! Counting processors by their keys. -/

namespace Verif.Copy

/-- How many processors with key `k` the stream `y` has. -/
def cnt (m : Mgrs) (y : Strm) (k : Key) : Nat := (m y).countP (fun q => q.key == k)

/-- Where something is registered, and under which key. -/
def pairs (l : List (Strm × Proc)) : List (Strm × Key) := l.map (fun e => (e.1, e.2.key))

theorem hasKey_iff {k : Key} {m : Mgrs} {y : Strm} : hasKey k (m y) = true ↔ 0 < cnt m y k := by
  rw [cnt, List.countP_pos_iff, hasKey, List.any_eq_true]

theorem cnt_zero {m : Mgrs} {y : Strm} {k : Key} : cnt m y k = 0 ↔ ∀ q ∈ m y, q.key ≠ k := by
  rw [cnt, List.countP_eq_zero]
  simp

theorem cnt_put {m : Mgrs} {x y : Strm} {l : List Proc} {k : Key} :
    cnt (put m x l) y k = if y = x then l.countP (fun q => q.key == k) else cnt m y k := by
  simp only [cnt, put]
  split <;> rfl

theorem countP_ins {p : Proc} {k : Key} : ∀ {l : List Proc},
    (ins p l).countP (fun q => q.key == k) =
      l.countP (fun q => q.key == k) + if p.key = k then 1 else 0
  | [] => by simp [ins, List.countP_cons]
  | q :: l => by
    rw [ins]
    split
    · rw [List.countP_cons]; simp
    · rw [List.countP_cons, List.countP_cons, countP_ins]; omega

theorem countP_del {k j : Key} : ∀ {l : List Proc},
    (del k l).countP (fun q => q.key == j) =
      l.countP (fun q => q.key == j) - if k = j then 1 else 0
  | [] => by simp [del]
  | q :: l => by
    rw [del]
    split
    · rename_i h
      rw [List.countP_cons, h]
      by_cases e : k = j <;> simp [e]
    · rename_i h
      rw [List.countP_cons, List.countP_cons, countP_del]
      by_cases e : k = j
      · subst e
        simp [h]
      · simp [e]

theorem del_sublist {k : Key} : ∀ {l : List Proc}, (del k l).Sublist l
  | [] => .slnil
  | q :: l => by
    rw [del]
    split
    · exact List.sublist_cons_self _ _
    · exact List.Sublist.cons₂ _ del_sublist

theorem regs_length (x : Cp) : x.regs.length = 8 := by
  simp [Cp.regs, regs]

theorem regs_key {x : Cp} {e : Strm × Proc} (h : e ∈ x.regs) :
    ∃ i j t, e.2.key = .fwd x.c i j t := by
  simp only [Cp.regs, regs, List.mem_flatMap] at h
  obtain ⟨i, -, j, -, h⟩ := h
  simp only [List.mem_cons, List.not_mem_nil, or_false] at h
  rcases h with h | h <;> rw [h] <;> exact ⟨_, _, _, rfl⟩

theorem pairs_key {x : Cp} {y : Strm} {k : Key} (h : (y, k) ∈ pairs x.regs) :
    ∃ i j t, k = .fwd x.c i j t := by
  simp only [pairs, List.mem_map, Prod.mk.injEq] at h
  obtain ⟨e, he, -, rfl⟩ := h
  exact regs_key he

theorem regs_nodup (x : Cp) : (pairs x.regs).Nodup := by
  have : ((pairs x.regs).map (·.2)).Nodup := by
    simp [pairs, Cp.regs, regs]
  exact List.Pairwise.of_map _ (fun a b h e => h (congrArg _ e)) this

theorem cnt_reg {m : Mgrs} {n : Nat} {R : List (Strm × Proc)} {y : Strm} {k : Key} :
    cnt (regAll m none n R).1 y k = cnt m y k + (pairs R).countP (fun e => e == (y, k)) := by
  induction R generalizing m n with
  | nil => rfl
  | cons e R ih =>
    obtain ⟨z, p⟩ := e
    rw [regAll, if_neg (by simp), ih, cnt_put]
    show _ = cnt m y k + ((z, p.key) :: pairs R).countP _
    rw [List.countP_cons]
    by_cases hy : y = z
    · subst hy
      rw [if_pos rfl, countP_ins]
      by_cases hk : p.key = k
      · simp [hk, cnt]; omega
      · simp [hk, cnt]
    · have : ¬ z = y := fun q => hy q.symm
      simp [hy, this]

theorem countP_nodup {α : Type} [BEq α] [LawfulBEq α] [DecidableEq α] {l : List α} (h : l.Nodup) (a : α) :
    l.countP (fun e => e == a) = if a ∈ l then 1 else 0 := by
  induction l with
  | nil => simp
  | cons b l ih =>
    obtain ⟨h1, h2⟩ := List.nodup_cons.mp h
    rw [List.countP_cons, ih h2]
    by_cases e : b = a
    · subst e; simp [h1]
    · have : ¬ a = b := fun q => e q.symm
      simp [e, this]

theorem cnt_inst {m : Mgrs} {x : Cp} {y : Strm} {k : Key} :
    cnt (installed m x) y k = cnt m y k + if (y, k) ∈ pairs x.regs then 1 else 0 := by
  rw [installed, cnt_reg, countP_nodup (regs_nodup x)]

theorem regAll_ok {m : Mgrs} {n : Nat} {R : List (Strm × Proc)} : (regAll m none n R).2 = true := by
  induction R generalizing m n with
  | nil => rfl
  | cons e R ih => rw [regAll, if_neg (by simp)]; exact ih

/-- Unregistration of what is there. -/
theorem unreg_cnt {ok : Nat → Bool} {n : Nat} {m : Mgrs} {R : List (Strm × Proc)}
    (hn : (pairs R).Nodup) (h1 : ∀ y k, (y, k) ∈ pairs R → cnt m y k = 1) :
    ∃ m', unregAll ok n m R = .ok m' ∧ (∀ y, (m' y).Sublist (m y)) ∧
      (∀ y k, (y, k) ∉ pairs R → cnt m' y k = cnt m y k) ∧
      ((∀ i, i < R.length → ok (n + i) = true) → ∀ y k, (y, k) ∈ pairs R → cnt m' y k = 0) := by
  induction R generalizing m n with
  | nil => exact ⟨m, rfl, fun y => .refl _, fun _ _ _ => rfl, fun _ y k h => by cases h⟩
  | cons e R ih =>
    obtain ⟨z, p⟩ := e
    have hn' : ((z, p.key) :: pairs R).Nodup := hn
    obtain ⟨hn1, hn2⟩ := List.nodup_cons.mp hn'
    have h1' : ∀ y k, (y, k) ∈ (z, p.key) :: pairs R → cnt m y k = 1 := h1
    have hz := h1' z p.key (List.mem_cons_self ..)
    rw [unregAll, if_pos (hasKey_iff.mpr (by omega))]
    by_cases hok : ok n = true
    · rw [if_pos hok]
      have hc : ∀ y k, cnt (put m z (del p.key (m z))) y k =
          cnt m y k - if (y, k) = (z, p.key) then 1 else 0 := by
        intro y k
        rw [cnt_put]
        by_cases hy : y = z
        · subst hy
          rw [if_pos rfl, countP_del]
          by_cases hk : p.key = k
          · simp [hk, cnt]
          · have : ¬ k = p.key := fun q => hk q.symm
            simp [hk, this, cnt]
        · simp [hy]
      obtain ⟨m', ha, hb, hcn, hd⟩ := ih (m := put m z (del p.key (m z))) (n := n + 1) hn2 (by
        intro y k hm
        have hne : (y, k) ≠ (z, p.key) := by intro q; rw [q] at hm; exact hn1 hm
        rw [hc, if_neg hne]
        exact h1' y k (List.mem_cons_of_mem _ hm))
      refine ⟨m', ha, ?_, ?_, ?_⟩
      · intro y
        refine (hb y).trans ?_
        simp only [put]
        split
        · rename_i e; rw [e]; exact del_sublist
        · exact .refl _
      · intro y k hm
        have hm : (y, k) ∉ (z, p.key) :: pairs R := hm
        have hne : (y, k) ≠ (z, p.key) := by intro q; rw [q] at hm; exact hm (List.mem_cons_self ..)
        rw [hcn y k (fun q => hm (List.mem_cons_of_mem _ q)), hc, if_neg hne]
        rfl
      · intro hall y k hm
        have hm : (y, k) ∈ (z, p.key) :: pairs R := hm
        by_cases hq : (y, k) ∈ pairs R
        · refine hd (fun i hi => ?_) y k hq
          have := hall (i + 1) (by simp; omega)
          rw [show n + 1 + i = n + (i + 1) by omega]; exact this
        · rcases List.mem_cons.mp hm with e | e
          · rw [hcn y k hq, hc, if_pos e]
            have := h1' y k (e ▸ List.mem_cons_self ..)
            omega
          · exact absurd e hq
    · rw [if_neg hok]
      obtain ⟨m', ha, hb, hcn, hd⟩ := ih (m := m) (n := n + 1) hn2
        (fun y k hm => h1' y k (List.mem_cons_of_mem _ hm))
      refine ⟨m', ha, hb, ?_, ?_⟩
      · intro y k hm
        have hm : (y, k) ∉ (z, p.key) :: pairs R := hm
        exact hcn y k (fun q => hm (List.mem_cons_of_mem _ q))
      · intro hall
        have := hall 0 (by simp)
        rw [Nat.add_zero] at this
        exact absurd this hok

theorem sub_missing {l l' : List Proc} {k : Key} (h : l'.Sublist l) (hk : hasKey k l = false) :
    hasKey k l' = false := by
  rw [hasKey, List.any_eq_false] at hk ⊢
  exact fun q hq => hk q (h.subset hq)

/-- Unregistration of what is not there. -/
theorem unreg_missing {ok : Nat → Bool} {n : Nat} {m : Mgrs} {R : List (Strm × Proc)}
    {e : Strm × Proc} (he : e ∈ R) (hk : hasKey e.2.key (m e.1) = false) :
    unregAll ok n m R = .error .abort := by
  induction R generalizing m n with
  | nil => cases he
  | cons f R ih =>
    obtain ⟨z, p⟩ := f
    rw [unregAll]
    split
    · rename_i hh
      rcases List.mem_cons.mp he with q | q
      · rw [q] at hk
        rw [hk] at hh
        cases hh
      · refine ih q ?_
        split
        · refine sub_missing ?_ hk
          simp only [put]
          split
          · rename_i hz; rw [hz]; exact del_sublist
          · exact .refl _
        · exact hk
    · rfl

end Verif.Copy
