import Verif.Copy.Project

/-! C66: what remains of copies. -/

namespace Verif.Copy

theorem run_nums {N : List Nat} {σ : St} {os : List Op} (h1 : ∀ y ∈ σ.cps, y.c ∈ N)
    (h2 : ∀ c ∈ σ.stale, c ∈ N) (h3 : ∀ c ∈ nums os, c ∈ N) :
    (∀ y ∈ (run σ os).cps, y.c ∈ N) ∧ ∀ c ∈ (run σ os).stale, c ∈ N := by
  induction os generalizing σ with
  | nil => exact ⟨h1, h2⟩
  | cons o os ih =>
    refine ih (σ := step σ o) ?_ ?_ ?_
    · intro y hy
      rcases step_nums hy with q | ⟨f, rfl⟩
      · exact h1 y q
      · exact h3 _ (List.mem_cons_self ..)
    · intro c hc
      cases o with
      | kill b ok =>
        rw [step] at hc
        (repeat' split at hc) <;> try exact h2 c hc
        rcases List.mem_append.mp hc with q | q
        · obtain ⟨y, hy, rfl⟩ := List.mem_map.mp (List.mem_filter.mp q).1
          exact h1 y (List.mem_filter.mp hy).1
        · exact h2 c q
      | copy x f => rw [step, copy] at hc; (repeat' split at hc) <;> exact h2 c hc
      | reg x o n k => rw [step] at hc; (repeat' split at hc) <;> exact h2 c hc
      | unreg x k => rw [step] at hc; (repeat' split at hc) <;> exact h2 c hc
    · intro c hc
      refine h3 c ?_
      cases o <;> first | exact hc | exact List.mem_cons_of_mem _ hc

/-- C66. As long as no registration fails half way, the server survives whatever copies are made, of
live sessions or of dead ones, however sessions end and however short memory is when they do; and
the processors stay in order, with copying and relaying behind those of order `PPROC_ORD_PLAY`. -/
theorem C66_safe_partial {os : List Op} (h : ∀ o ∈ os, o.whole) :
    (run init os).ab = false ∧ Sorted (run init os).m ∧ Late (run init os).m := by
  obtain ⟨hg, ha⟩ := good_run good_init rfl h
  exact ⟨ha, hg.sorted, hg.late⟩

/-- C66. A copy that fails after its last registration leaves everything as it was. -/
theorem C66_failed_partial {os : List Op} (h : ∀ o ∈ os, o.whole) (x : Cp) :
    run init (os ++ [.copy x .last]) = run init os := by
  obtain ⟨hg, ha⟩ := good_run good_init rfl h
  rw [run, List.foldl_append]
  show step (run init os) (.copy x .last) = _
  generalize run init os = σ at *
  rw [step, if_neg (by simp [ha]), copy]
  split
  · rfl
  · rename_i hd
    split
    · rfl
    · rename_i hu
      have h0 : ∀ y k, (y, k) ∈ pairs x.regs → cnt σ.m y k = 0 := fun y k hk =>
        fresh_cnt hg (fun q => hu (.inl q)) (fun q => hu (.inr q)) hk
      have hne : x.a ≠ x.b := fun e => hd (.inr (.inr e))
      have h1 : ∀ y k, (y, k) ∈ pairs x.regs → cnt (regAll σ.m (Fail.at .last) 0 x.regs).1 y k = 1 := by
        intro y k hk
        have := cnt_inst (m := σ.m) (x := x) (y := y) (k := k)
        rw [h0 y k hk, if_pos hk] at this
        exact this
      have hk : keep (fun y k => !(pairs x.regs).contains (y, k))
          (regAll σ.m (Fail.at .last) 0 x.regs).1 = σ.m := by
        show keep _ (regAll σ.m none 0 x.regs).1 = σ.m
        rw [reg_drop]
        · funext y
          refine List.filter_eq_self.mpr ?_
          intro q hq
          simp only [Bool.not_eq_true', List.contains_eq_mem, decide_eq_false_iff_not]
          intro hm
          have := h0 y q.key hm
          rw [cnt, List.countP_eq_zero] at this
          exact this q hq (by simp)
        · intro e he
          have : (e.1, e.2.key) ∈ pairs x.regs := List.mem_map_of_mem he
          simpa using this
      have hu := unreg_filter (n := 0) (regs_nodup x) h1
      rw [hk] at hu
      simp [hu]

/-- C66. Where a registration fails half way, the server aborts (pproc_manager.c:297). -/
theorem C66_failed_counterexample {os : List Op} (h : ∀ o ∈ os, o.whole) {x : Cp} {n : Nat}
    (hn : n < 8) (ha : x.a ∉ (run init os).dead) (hb : x.b ∉ (run init os).dead) (hne : x.a ≠ x.b)
    (hc : x.c ∉ nums os) : (run init (os ++ [.copy x (.reg n)])).ab = true := by
  obtain ⟨hg, hab⟩ := good_run good_init rfl h
  obtain ⟨hs, ht⟩ := run_nums (σ := init) (os := os)
    (fun y hy => by cases hy) (fun y hy => by cases hy) (fun _ hc => hc)
  rw [run, List.foldl_append]
  show (step (run init os) (.copy x (.reg n))).ab = true
  generalize run init os = σ at *
  have hu : ¬ ((σ.cps.any (fun y => y.c == x.c)) = true ∨ x.c ∈ σ.stale) := by
    rintro (q | q)
    · rw [any_num (fun y hy e => hc (by rw [← e]; exact hs y hy))] at q
      cases q
    · exact hc (ht _ q)
  rw [step, if_neg (by simp [hab]), copy, if_neg (by
    rintro (q | q | q)
    · exact ha q
    · exact hb q
    · exact hne q), if_neg hu]
  obtain ⟨h2, e, he, hm⟩ := reg_fail (m := σ.m) (n := n) (k := 0) (Nat.zero_le _)
    (by rw [regs_length]; omega) (regs_nodup x)
    (fun y k hk => fresh_cnt hg (fun q => hu (.inl q)) (fun q => hu (.inr q)) hk)
  have := unreg_missing (ok := fun _ => true) (n := 0) he hm
  have e2 : Fail.at (.reg n) = some n := rfl
  rw [e2]
  generalize regAll σ.m (some n) 0 x.regs = r at *
  obtain ⟨m, r⟩ := r
  have h2 : r = false := h2
  simp only at this
  simp [h2, this]

/-- C66. When the target of copies is destroyed, and memory is not short, all that is left of the
copies is gone: every stream of every session is as if they had never been made. -/
theorem C66_undone_partial {os : List Op} {b : Nat} {ok : Nat → Nat → Bool}
    (hf : ∀ o ∈ os, o.fine) (hk : ∀ o ∈ os, o.kills b = false) (hn : (nums os).Nodup)
    (hok : ∀ c n, ok c n = true) :
    (run init (os ++ [.kill b ok])).m = (run init (os.filter (fun o => !o.copiesTo b))).m := by
  rw [run, List.foldl_append]
  refine rel_kill (b := b) (bad := nums (os.filter (fun o => o.copiesTo b))) (rel_run
    ⟨good_init, rfl, rfl, ?_, rfl, rfl, rfl, rfl, fun x hx => by cases hx⟩
    (fun o ho => ⟨hf o ho, hk o ho⟩) hn (fun _ _ y hy => by cases hy) ?_) hok
  · funext y
    exact (List.filter_eq_self.mpr (fun q hq => by
      simp only [init, base, List.mem_cons, List.not_mem_nil, or_false] at hq
      rcases hq with e | e <;> rw [e] <;> rfl)).symm
  · intro x f hx
    constructor
    · intro e
      exact nums_mem (f := f) (List.mem_filter.mpr ⟨hx, by simp [Op.copiesTo, e]⟩)
    · intro hm
      obtain ⟨z, g, hz, e, hzb⟩ := nums_filter hm
      rw [← hzb, nums_inj hn hx hz e.symm]

end Verif.Copy
