import Verif.Copy.Good

/-! Taking copies back. -/

namespace Verif.Copy

/-- The processors whose keys pass the test. -/
def keep (kp : Strm → Key → Bool) (m : Mgrs) : Mgrs := fun y => (m y).filter (fun q => kp y q.key)

theorem filter_ins_out {p : Proc} {f : Proc → Bool} (h : f p = false) {l : List Proc} :
    (ins p l).filter f = l.filter f := by
  induction l with
  | nil => simp [ins, h]
  | cons q l ih =>
    rw [ins]
    split
    · rw [List.filter_cons, if_neg (by simp [h])]
    · rw [List.filter_cons, List.filter_cons, ih]

theorem ins_front {p : Proc} {l : List Proc} (h : ∀ q ∈ l, p.order < q.order) : ins p l = p :: l := by
  cases l with
  | nil => rfl
  | cons q l => rw [ins, if_pos (h q (List.mem_cons_self ..))]

theorem filter_ins_in {p : Proc} {f : Proc → Bool} (h : f p = true) {l : List Proc}
    (hs : l.Pairwise (fun p q => p.order ≤ q.order)) :
    (ins p l).filter f = ins p (l.filter f) := by
  induction l with
  | nil => simp [ins, h]
  | cons q l ih =>
    obtain ⟨h1, h2⟩ := List.pairwise_cons.mp hs
    rw [ins]
    split
    · rename_i hlt
      rw [List.filter_cons, if_pos h, ins_front]
      intro r hr
      rcases List.mem_cons.mp (List.mem_filter.mp hr).1 with e | e
      · subst e; exact hlt
      · have := h1 r e; omega
    · rename_i hlt
      rw [List.filter_cons, List.filter_cons, ih h2]
      split
      · rw [ins, if_neg hlt]
      · rfl

theorem filter_del {k : Key} {f : Key → Bool} (h : f k = true) {l : List Proc} :
    (del k l).filter (fun q => f q.key) = del k (l.filter (fun q => f q.key)) := by
  induction l with
  | nil => rfl
  | cons q l ih =>
    rw [del]
    split
    · rename_i e
      rw [List.filter_cons, if_pos (by rw [e]; exact h), del, if_pos e]
    · rename_i e
      rw [List.filter_cons, List.filter_cons]
      split
      · rw [ih, del, if_neg e]
      · exact ih

theorem del_filter {k : Key} {l : List Proc} (h : l.countP (fun q => q.key == k) ≤ 1) :
    del k l = l.filter (fun q => q.key != k) := by
  induction l with
  | nil => rfl
  | cons q l ih =>
    rw [List.countP_cons] at h
    rw [del, List.filter_cons]
    by_cases e : q.key = k
    · rw [if_pos e, if_neg (by simp [e])]
      have h0 : l.countP (fun q => q.key == k) = 0 := by simp [e] at h; simpa using h
      rw [List.countP_eq_zero] at h0
      refine (List.filter_eq_self.mpr ?_).symm
      intro r hr
      have := h0 r hr
      simpa using this
    · rw [if_neg e, if_pos (by simp [e]), ih (by omega)]

theorem hasKey_filter {k : Key} {f : Key → Bool} (h : f k = true) {l : List Proc} :
    hasKey k (l.filter (fun q => f q.key)) = hasKey k l := by
  induction l with
  | nil => rfl
  | cons q l ih =>
    rw [List.filter_cons]
    split
    · simp only [hasKey, List.any_cons] at ih ⊢
      rw [ih]
    · rename_i e
      have : q.key ≠ k := fun e' => e (by rw [e']; exact h)
      rw [ih]
      simp [hasKey, this]

theorem keep_put {kp : Strm → Key → Bool} {m : Mgrs} {z : Strm} {l : List Proc} :
    keep kp (put m z l) = put (keep kp m) z (l.filter (fun q => kp z q.key)) := by
  funext y
  simp only [keep, put]
  split
  · rename_i e; rw [e]
  · rfl

theorem sorted_put {m : Mgrs} (hs : Sorted m) {z : Strm} {p : Proc} :
    Sorted (put m z (ins p (m z))) := by
  intro y
  simp only [put]
  split
  · exact ins_sorted (hs z)
  · exact hs y

theorem reg_keep {kp : Strm → Key → Bool} {R : List (Strm × Proc)} {m : Mgrs} {n : Nat} (hs : Sorted m)
    (h : ∀ e ∈ R, kp e.1 e.2.key = true) :
    keep kp (regAll m none n R).1 = (regAll (keep kp m) none n R).1 := by
  induction R generalizing m n with
  | nil => rfl
  | cons e R ih =>
    obtain ⟨z, p⟩ := e
    rw [regAll, if_neg (by simp), regAll, if_neg (by simp), ih (sorted_put hs)
      (fun e he => h e (List.mem_cons_of_mem _ he)), keep_put, filter_ins_in
      (f := fun q => kp z q.key) (h _ (List.mem_cons_self ..)) (hs z)]
    rfl

theorem put_self (m : Mgrs) (z : Strm) : put m z (m z) = m := by
  funext y
  simp only [put]
  split
  · rename_i e; rw [e]
  · rfl

theorem reg_drop {kp : Strm → Key → Bool} {R : List (Strm × Proc)} {m : Mgrs} {n : Nat}
    (h : ∀ e ∈ R, kp e.1 e.2.key = false) : keep kp (regAll m none n R).1 = keep kp m := by
  induction R generalizing m n with
  | nil => rfl
  | cons e R ih =>
    obtain ⟨z, p⟩ := e
    rw [regAll, if_neg (by simp), ih (fun e he => h e (List.mem_cons_of_mem _ he)), keep_put,
      filter_ins_out (f := fun q => kp z q.key) (h _ (List.mem_cons_self ..))]
    exact put_self (keep kp m) z

theorem unreg_keep {kp : Strm → Key → Bool} {ok : Nat → Bool} {R : List (Strm × Proc)} {m m' : Mgrs}
    {n : Nat} (h : ∀ e ∈ R, kp e.1 e.2.key = true) (hu : unregAll ok n m R = .ok m') :
    unregAll ok n (keep kp m) R = .ok (keep kp m') := by
  induction R generalizing m n with
  | nil => cases hu; rfl
  | cons e R ih =>
    obtain ⟨z, p⟩ := e
    have h0 : kp z p.key = true := h _ (List.mem_cons_self ..)
    rw [unregAll] at hu ⊢
    split at hu
    · rename_i hh
      rw [if_pos (by rw [keep, hasKey_filter h0]; exact hh)]
      have := ih (fun e he => h e (List.mem_cons_of_mem _ he)) hu
      rw [← this]
      congr 1
      split
      · rw [keep_put, filter_del h0]
        rfl
      · rfl
    · cases hu

/-- Unregistration of what is there, with memory to spare. -/
theorem unreg_filter {R : List (Strm × Proc)} {m : Mgrs} {n : Nat} (hn : (pairs R).Nodup)
    (h1 : ∀ y k, (y, k) ∈ pairs R → cnt m y k = 1) :
    unregAll (fun _ => true) n m R = .ok (keep (fun y k => !(pairs R).contains (y, k)) m) := by
  induction R generalizing m n with
  | nil =>
    rw [unregAll]
    congr 1
    funext y
    exact (List.filter_eq_self.mpr (fun _ _ => by simp [pairs])).symm
  | cons e R ih =>
    obtain ⟨z, p⟩ := e
    obtain ⟨hn1, hn2⟩ := List.nodup_cons.mp (show ((z, p.key) :: pairs R).Nodup from hn)
    have h1' : ∀ y k, (y, k) ∈ (z, p.key) :: pairs R → cnt m y k = 1 := h1
    have hz := h1' z p.key (List.mem_cons_self ..)
    rw [unregAll, if_pos (hasKey_iff.mpr (by omega)), if_pos rfl,
      del_filter (by show cnt m z p.key ≤ 1; omega), ih hn2]
    · congr 1
      funext y
      simp only [keep, put]
      show _ = (m y).filter (fun q => !((z, p.key) :: pairs R).contains (y, q.key))
      split
      · rename_i e
        rw [e, List.filter_filter]
        apply List.filter_congr
        intro q _
        rw [List.contains_cons]
        by_cases hk : q.key = p.key
        · simp [hk]
        · have h1 : ((z, q.key) == (z, p.key)) = false := by simp [hk]
          have h2 : (q.key != p.key) = true := by simp [hk]
          rw [h1, h2, Bool.false_or, Bool.and_true]
      · rename_i e
        apply List.filter_congr
        intro q _
        rw [List.contains_cons]
        simp [e]
    · intro y k hm
      have hne : (y, k) ≠ (z, p.key) := by intro q; rw [q] at hm; exact hn1 hm
      rw [cnt_put]
      split
      · rename_i e
        subst e
        have hk : k ≠ p.key := fun q => hne (by rw [q])
        rw [List.countP_filter]
        rw [← h1' y k (List.mem_cons_of_mem _ hm), cnt]
        apply List.countP_congr
        intro q _
        by_cases e : q.key = k
        · simp [e, hk]
        · simp [e]
      · exact h1' y k (List.mem_cons_of_mem _ hm)

/-- Destruction of a session, with memory to spare. -/
theorem kill_filter {ok : Nat → Nat → Bool} (hok : ∀ c n, ok c n = true) {b : Nat} {L : List Cp}
    {m : Mgrs} (hn : (L.map (·.c)).Nodup)
    (h1 : ∀ x ∈ L, x.b = b → ∀ y k, (y, k) ∈ pairs x.regs → cnt m y k = 1) :
    killAll ok b m L =
      .ok (keep (fun y k => !L.any (fun x => x.b == b && (pairs x.regs).contains (y, k))) m) := by
  induction L generalizing m with
  | nil =>
    rw [killAll]
    congr 1
    funext y
    exact (List.filter_eq_self.mpr (fun _ _ => by simp)).symm
  | cons x L ih =>
    obtain ⟨hn1, hn2⟩ := List.nodup_cons.mp (show (x.c :: L.map (·.c)).Nodup from hn)
    have hokx : ok x.c = fun _ => true := funext (hok x.c)
    rw [killAll]
    split
    · rename_i hb
      rw [hokx, unreg_filter (regs_nodup x) (h1 x (List.mem_cons_self ..) hb)]
      simp only
      rw [ih hn2]
      · congr 1
        funext y
        simp only [keep, List.filter_filter]
        apply List.filter_congr
        intro q _
        simp [hb, Bool.and_comm]
      · intro z hz hzb y k hk
        have hnk : (y, k) ∉ pairs x.regs := by
          intro hk'
          obtain ⟨_, _, _, e1⟩ := pairs_key hk
          obtain ⟨_, _, _, e2⟩ := pairs_key hk'
          rw [e1] at e2
          injection e2 with e2
          apply hn1
          rw [← e2]
          exact List.mem_map_of_mem hz
        rw [← h1 z (List.mem_cons_of_mem _ hz) hzb y k hk, cnt, cnt, keep, List.countP_filter]
        apply List.countP_congr
        intro q _
        by_cases e : q.key = k
        · simp [e, hnk]
        · simp [e]
    · rename_i hb
      rw [ih hn2 (fun z hz => h1 z (List.mem_cons_of_mem _ hz))]
      congr 1
      funext y
      simp only [keep]
      apply List.filter_congr
      intro q _
      simp [hb]

theorem kill_keep {kp : Strm → Key → Bool} {P : Cp → Bool} {ok : Nat → Nat → Bool} {b : Nat}
    {L : List Cp} {m m' : Mgrs}
    (h : ∀ x ∈ L, x.b = b → P x = true ∧ ∀ e ∈ x.regs, kp e.1 e.2.key = true)
    (hu : killAll ok b m L = .ok m') :
    killAll ok b (keep kp m) (L.filter P) = .ok (keep kp m') := by
  induction L generalizing m with
  | nil => cases hu; rfl
  | cons x L ih =>
    have ih := fun m => ih (m := m) (fun z hz => h z (List.mem_cons_of_mem _ hz))
    rw [killAll] at hu
    split at hu
    · rename_i hb
      obtain ⟨hP, hk⟩ := h x (List.mem_cons_self ..) hb
      split at hu
      · cases hu
      · rename_i m1 hm1
        rw [List.filter_cons, if_pos hP, killAll, if_pos hb, unreg_keep hk hm1]
        exact ih _ hu
    · rename_i hb
      rw [List.filter_cons]
      split
      · rw [killAll, if_neg hb]; exact ih _ hu
      · exact ih _ hu

/-- A registration fails half way. -/
theorem reg_fail {R : List (Strm × Proc)} {m : Mgrs} {n k : Nat} (hkn : k ≤ n)
    (hl : n - k < R.length) (hn : (pairs R).Nodup) (h0 : ∀ y q, (y, q) ∈ pairs R → cnt m y q = 0) :
    (regAll m (some n) k R).2 = false ∧
      ∃ e ∈ R, hasKey e.2.key ((regAll m (some n) k R).1 e.1) = false := by
  induction R generalizing m k with
  | nil => simp at hl
  | cons e R ih =>
    obtain ⟨z, p⟩ := e
    obtain ⟨hn1, hn2⟩ := List.nodup_cons.mp (show ((z, p.key) :: pairs R).Nodup from hn)
    have h0' : ∀ y q, (y, q) ∈ (z, p.key) :: pairs R → cnt m y q = 0 := h0
    rw [regAll]
    by_cases e : n = k
    · rw [if_pos (by rw [e])]
      refine ⟨rfl, (z, p), List.mem_cons_self .., ?_⟩
      have := h0' z p.key (List.mem_cons_self ..)
      cases hh : hasKey p.key (m z) with
      | false => rfl
      | true => rw [hasKey_iff] at hh; omega
    · rw [if_neg (by simp [e])]
      obtain ⟨ha, e', he', hb⟩ := ih (m := put m z (ins p (m z))) (k := k + 1) (by omega)
        (by simp at hl; omega) hn2 (by
          intro y q hm
          rw [cnt_put]
          split
          · rename_i ey
            subst ey
            rw [countP_ins, if_neg (fun eq => hn1 (by rw [eq]; exact hm))]
            exact h0' y q (List.mem_cons_of_mem _ hm)
          · exact h0' y q (List.mem_cons_of_mem _ hm))
      exact ⟨ha, e', List.mem_cons_of_mem _ he', hb⟩

end Verif.Copy
