import Verif.Timed.Spec
import Verif.Queue.Props
import Mathlib.Tactic.ByContra

/-!
# C28: timed tasks
-/

namespace Verif.Timed

open Queue (Rep)

theorem bump_spec : ∀ (due off ct : Int), due ≤ ct → ∀ d', bump due off ct = some d' →
    0 < off ∧ (∃ k : Nat, d' = due + k * off) ∧ ct < d' ∧ d' - off ≤ ct := by
  intro due off ct hle d' h
  fun_induction bump due off ct with
  | case1 due h1 h2 ih =>
    by_cases hn : due + off ≤ ct
    · obtain ⟨a, ⟨k, hk⟩, b, c⟩ := ih hn h
      refine ⟨a, ⟨k + 1, ?_⟩, b, c⟩
      rw [hk]; push_cast; rw [Int.add_mul]; omega
    · unfold bump at h
      rw [if_neg hn] at h
      cases h
      exact ⟨h2, ⟨1, by simp⟩, by omega, by omega⟩
  | case2 => simp at h
  | case3 => omega

theorem bump_some : ∀ (due off ct : Int), 0 < off → ∃ d', bump due off ct = some d' := by
  intro due off ct ho
  fun_induction bump due off ct with
  | case1 due h1 h2 ih => exact ih
  | case2 => omega
  | case3 due h => exact ⟨_, rfl⟩

/-- The state and the log agree. -/
structure Inv (s : St) (items : List Nat) : Prop where
  rep : Rep s.q ⟨items, 4294967295⟩
  mem : ∀ id, id ∈ items ↔ ∃ d off, life id s.log = .waiting d off
  due : ∀ id d off, life id s.log = .waiting d off → s.mem id = ⟨d, off⟩
  run : ∀ ct id, s.pc = .running ct id ↔ ∃ d off, life id s.log = .running ct d off
  rdue : ∀ ct id d off, life id s.log = .running ct d off → s.mem id = ⟨d, off⟩ ∧ d ≤ ct
  fresh : ∀ id, s.next ≤ id → life id s.log = .unborn
  good : Good s.log

theorem Inv.init (cap : Nat) (nxt : Nat → Option Nat) : Inv (init cap nxt) [] :=
  ⟨Rep.init cap nxt, by simp [Timed.init, life], by simp [Timed.init, life], by simp [Timed.init, life],
    by simp [Timed.init, life], by simp [Timed.init, life], trivial⟩

theorem rep_put {q : Queue.Q} {items : List Nat} {x : Nat} (h : Rep q ⟨items, 4294967295⟩) (hx : x ∉ items) :
    ∃ q', q.put x = .ok (q', true) ∧ Rep q' ⟨items ++ [x], 4294967295⟩ := by
  obtain ⟨q', b, e1, e2, e3⟩ := Queue.put_ok h hx
  simp only [Queue.Spec.step, ne_eq, not_true_eq_false, false_and, if_false] at e2 e3
  cases e2
  exact ⟨q', e1, e3⟩

theorem life_sched {i id : Nat} {d o : Int} {l : List Obs} :
    life i (.sched id d o :: l) = if id = i then .waiting d o else life i l := rfl
theorem life_fin {i id : Nat} {l : List Obs} : life i (.fin id :: l) = if id = i then .dead else life i l := rfl
theorem life_shut {i id : Nat} {l : List Obs} : life i (.shut id :: l) = if id = i then .dead else life i l := rfl
theorem life_cancel {i id : Nat} {ok : Bool} {l : List Obs} :
    life i (.cancel id ok :: l) = if id = i ∧ ok = true then .dead else life i l := rfl
theorem life_scanEnd {i : Nat} {ct : Int} {l : List Obs} : life i (.scanEnd ct :: l) = life i l := rfl

theorem life_run {i id : Nat} {ct d o : Int} {l : List Obs} (h : life id l = .waiting d o) :
    life i (.run id ct :: l) = if id = i then .running ct d o else life i l := by
  simp only [life]
  split
  · rename_i e; subst e; rw [h]
  · rfl

theorem life_resched {i id : Nat} {ct d d' o : Int} {l : List Obs} (h : life id l = .running ct d o) :
    life i (.resched id d' :: l) = if id = i then .waiting d' o else life i l := by
  simp only [life]
  split
  · rename_i e; subst e; rw [h]
  · rfl

theorem inv_schedule {s : St} {items : List Nat} (h : Inv s items) (now off : Int) :
    ∃ s' items', schedule s now off = .ok s' ∧ Inv s' items' := by
  have hf := h.fresh s.next (Nat.le_refl _)
  have hx : s.next ∉ items := by
    rw [h.mem, hf]; rintro ⟨d, o, e⟩; cases e
  obtain ⟨q', e, hr⟩ := rep_put h.rep hx
  refine ⟨_, _, by simp only [schedule, e]; rfl, hr, ?_, ?_, ?_, ?_, ?_, ?_⟩
  · intro id
    simp only [life_sched, List.mem_append, List.mem_singleton, h.mem]
    by_cases he : s.next = id
    · subst he; simp
    · rw [if_neg he]
      constructor
      · rintro (h1 | h1)
        · exact h1
        · exact absurd h1.symm he
      · exact .inl
  · intro id d o
    simp only [life_sched, setM]
    by_cases he : s.next = id
    · subst he; simp only [if_true]; rintro ⟨⟩; rfl
    · rw [if_neg he, if_neg (Ne.symm he)]; exact h.due id d o
  · intro ct id
    simp only [life_sched, h.run]
    by_cases he : s.next = id
    · subst he; simp [hf]
    · rw [if_neg he]
  · intro ct id d o
    simp only [life_sched, setM]
    by_cases he : s.next = id
    · subst he; simp
    · rw [if_neg he, if_neg (Ne.symm he)]; exact h.rdue ct id d o
  · intro id hid
    simp only [life_sched]
    rw [if_neg (by simp only [] at hid; omega)]
    exact h.fresh id (by simp only [] at hid; omega)
  · exact ⟨hf, h.good⟩

theorem inv_dead {s : St} {items items' : List Nat} {q' : Queue.Q} {id : Nat} {o : Obs} {pc : Pc} (h : Inv s items)
    (hr : Rep q' ⟨items', 4294967295⟩) (hlife : ∀ i, life i (o :: s.log) = if id = i then .dead else life i s.log)
    (hleg : Legit s.log o) (hm : ∀ i, i ∈ items' ↔ (i ∈ items ∧ i ≠ id))
    (hpc : ∀ ct i, pc = .running ct i ↔ (s.pc = .running ct i ∧ i ≠ id)) (hborn : life id s.log ≠ .unborn) :
    Inv { s with q := q', pc := pc, log := o :: s.log } items' := by
  refine ⟨hr, ?_, ?_, ?_, ?_, ?_, hleg, h.good⟩
  · intro i
    simp only [hlife]
    rw [hm, h.mem]
    by_cases he : id = i
    · subst he; simp
    · simp [if_neg he, Ne.symm he]
  · intro i d o'
    simp only [hlife]
    by_cases he : id = i
    · subst he; simp
    · simp only [if_neg he]; exact h.due i d o'
  · intro ct i
    simp only [hlife]
    rw [hpc, h.run]
    by_cases he : id = i
    · subst he; simp
    · simp [if_neg he, Ne.symm he]
  · intro ct i d o'
    simp only [hlife]
    by_cases he : id = i
    · subst he; simp
    · simp only [if_neg he]; exact h.rdue ct i d o'
  · intro i hi
    simp only [hlife]
    by_cases he : id = i
    · subst he; exact absurd (h.fresh _ hi) hborn
    · rw [if_neg he]; exact h.fresh i hi

theorem mem_eraseP_eq {items : List Nat} (hn : items.Nodup) {p : Nat → Bool} {x : Nat} (h : items.find? p = some x) (i : Nat) :
    i ∈ items.eraseP p ↔ (i ∈ items ∧ i ≠ x) := by
  induction items with
  | nil => simp at h
  | cons a l ih =>
    obtain ⟨h1, h2⟩ := List.nodup_cons.1 hn
    by_cases hp : p a = true
    · rw [List.find?_cons_of_pos hp] at h
      cases h
      rw [List.eraseP_cons_of_pos hp]
      constructor
      · intro hm; exact ⟨by simp [hm], by rintro rfl; exact h1 hm⟩
      · rintro ⟨hm, hne⟩
        rcases List.mem_cons.1 hm with e | e
        · exact absurd e hne
        · exact e
    · rw [List.find?_cons_of_neg hp] at h
      rw [List.eraseP_cons_of_neg hp, List.mem_cons, ih h2 h, List.mem_cons]
      have hxl : x ∈ l := List.mem_of_find?_eq_some h
      constructor
      · rintro (rfl | ⟨e1, e2⟩)
        · exact ⟨.inl rfl, by rintro rfl; exact h1 hxl⟩
        · exact ⟨.inr e1, e2⟩
      · rintro ⟨rfl | e1, e2⟩
        · exact .inl rfl
        · exact .inr ⟨e1, e2⟩

theorem countP_eraseP {items : List Nat} {p : Nat → Bool} {x : Nat} (h : items.find? p = some x) :
    (items.eraseP p).countP p + 1 = items.countP p := by
  induction items with
  | nil => simp at h
  | cons a l ih =>
    by_cases hp : p a = true
    · rw [List.eraseP_cons_of_pos hp, List.countP_cons_of_pos hp]
    · rw [List.find?_cons_of_neg hp] at h
      rw [List.eraseP_cons_of_neg hp, List.countP_cons_of_neg hp, List.countP_cons_of_neg hp]
      exact ih h

theorem inv_cancel {s : St} {items : List Nat} (h : Inv s items) (id : Nat) :
    ∃ s' items', cancel s id = .ok s' ∧ Inv s' items' := by
  obtain ⟨q', e, hr⟩ := Queue.matching_ok h.rep (fun j => j == id)
  simp only [] at e hr
  cases hf : items.find? (fun j => j == id) with
  | none =>
    rw [hf] at e
    have hn : id ∉ items := by
      intro hm
      have := List.find?_eq_none.1 hf id hm
      simp at this
    have hl : ∀ i, life i (.cancel id false :: s.log) = life i s.log := by intro i; simp [life_cancel]
    refine ⟨{ s with log := .cancel id false :: s.log }, items, by simp only [cancel, e], ?_⟩
    refine ⟨h.rep, ?_, ?_, ?_, ?_, ?_, ⟨?_, h.good⟩⟩ <;> (try simp only [hl])
    · exact h.mem
    · exact h.due
    · exact h.run
    · exact h.rdue
    · exact h.fresh
    · simp only [Legit, ← h.mem]; simp [hn]
  | some x =>
    rw [hf] at e
    have hx : x = id := by have := List.find?_some hf; simpa using this
    subst hx
    have hm : x ∈ items := List.mem_of_find?_eq_some hf
    have hw := (h.mem x).1 hm
    refine ⟨_, items.eraseP (fun j => j == x), by simp only [cancel, e]; rfl, ?_⟩
    refine inv_dead (id := x) (pc := s.pc) h hr ?_ ?_ (mem_eraseP_eq h.rep.nodup hf) ?_ ?_
    · intro i; simp [life_cancel]
    · simpa only [Legit, true_iff] using hw
    · intro ct i
      constructor
      · intro hp
        refine ⟨hp, ?_⟩
        rintro rfl
        obtain ⟨d, o, hl⟩ := (h.run ct i).1 hp
        obtain ⟨d', o', hl'⟩ := hw
        rw [hl] at hl'; cases hl'
      · exact fun hp => hp.1
    · obtain ⟨d, o, hl⟩ := hw; rw [hl]; simp

theorem inv_pick {s : St} {items : List Nat} (h : Inv s items) (ct : Int) (hpc : s.pc = .scan ct) :
    ∃ s' items', pick s ct = .ok s' ∧ Inv s' items' ∧
      (s'.pc = .idle ∨ ((∃ x, s'.pc = .running ct x) ∧ (∃ o, s'.log = o :: s.log ∧ ∀ i d off, o ≠ .sched i d off) ∧
        items'.countP (fun j => decide ((s'.mem j).due ≤ ct)) + 1 = items.countP (fun j => decide ((s.mem j).due ≤ ct)))) := by
  obtain ⟨q', e, hr⟩ := Queue.matching_ok h.rep (fun j => decide ((s.mem j).due ≤ ct))
  simp only [] at e hr
  have hnr : ∀ ct' i d o, life i s.log ≠ .running ct' d o := by
    intro ct' i d o hl
    have := (h.run ct' i).2 ⟨d, o, hl⟩
    rw [hpc] at this; cases this
  cases hf : items.find? (fun j => decide ((s.mem j).due ≤ ct)) with
  | none =>
    rw [hf] at e
    refine ⟨{ s with pc := .idle, log := .scanEnd ct :: s.log }, items, by simp only [pick, e], ?_, .inl rfl⟩
    refine ⟨h.rep, ?_, ?_, ?_, ?_, ?_, ⟨?_, h.good⟩⟩ <;> (try simp only [life_scanEnd])
    · exact h.mem
    · exact h.due
    · intro ct' i
      constructor
      · intro hc; cases hc
      · rintro ⟨d, o, hl⟩; exact absurd hl (hnr _ _ _ _)
    · exact h.rdue
    · exact h.fresh
    · intro i d o hl
      have := List.find?_eq_none.1 hf i ((h.mem i).2 ⟨d, o, hl⟩)
      rw [h.due i d o hl] at this
      simpa using this
  | some x =>
    rw [hf] at e
    have hxm : x ∈ items := List.mem_of_find?_eq_some hf
    obtain ⟨d, o, hl⟩ := (h.mem x).1 hxm
    have hdue : d ≤ ct := by
      have := List.find?_some hf
      rw [h.due x d o hl] at this
      simpa using this
    have hlf : ∀ i, life i (.run x ct :: s.log) = if x = i then .running ct d o else life i s.log := fun i => life_run hl
    refine ⟨{ s with q := q', pc := .running ct x, log := .run x ct :: s.log },
      items.eraseP (fun j => decide ((s.mem j).due ≤ ct)), by simp only [pick, e], ?_,
      .inr ⟨⟨x, rfl⟩, ⟨_, rfl, by simp⟩, countP_eraseP hf⟩⟩
    refine ⟨hr, ?_, ?_, ?_, ?_, ?_, ⟨⟨d, o, hl, hdue⟩, h.good⟩⟩ <;> simp only [hlf]
    · intro i
      rw [mem_eraseP_eq h.rep.nodup hf, h.mem]
      by_cases he : x = i
      · subst he; simp
      · simp [if_neg he, Ne.symm he]
    · intro i d' o'
      by_cases he : x = i
      · subst he; simp
      · simp only [if_neg he]; exact h.due i d' o'
    · intro ct' i
      by_cases he : x = i
      · subst he
        simp only [if_true]
        constructor
        · rintro ⟨⟩; exact ⟨d, o, rfl⟩
        · rintro ⟨d', o', hc⟩; cases hc; rfl
      · simp only [if_neg he]
        constructor
        · rintro ⟨⟩; exact absurd rfl he
        · rintro ⟨d', o', hc⟩; exact absurd hc (hnr _ _ _ _)
    · intro ct' i d' o'
      by_cases he : x = i
      · subst he
        simp only [if_true]
        rintro ⟨⟩
        exact ⟨h.due x _ _ hl, hdue⟩
      · simp only [if_neg he]; intro hc; exact absurd hc (hnr _ _ _ _)
    · intro i hi
      by_cases he : x = i
      · subst he; have := h.fresh x hi; rw [hl] at this; cases this
      · simp only [if_neg he]; exact h.fresh i hi

theorem inv_ret {s : St} {items : List Nat} (h : Inv s items) (ct : Int) (id : Nat) (hpc : s.pc = .running ct id) (more : Bool) :
    (∃ s' items', ret s ct id more = .ok s' ∧ Inv s' items' ∧ s'.pc = .scan ct ∧
      (∃ o, s'.log = o :: s.log ∧ ∀ i d off, o ≠ .sched i d off) ∧
      items'.countP (fun j => decide ((s'.mem j).due ≤ ct)) = items.countP (fun j => decide ((s.mem j).due ≤ ct))) ∨
    (ret s ct id more = .error .hang ∧ (s.mem id).offset ≤ 0) := by
  obtain ⟨d, o, hl⟩ := (h.run ct id).1 hpc
  have honly : ∀ ct' i d' o', life i s.log = .running ct' d' o' → i = id := by
    intro ct' i d' o' hc
    have := (h.run ct' i).2 ⟨_, _, hc⟩
    rw [hpc] at this; cases this; rfl
  obtain ⟨hmem, hdue⟩ := h.rdue ct id d o hl
  have hni : id ∉ items := by
    rw [h.mem, hl]; rintro ⟨_, _, hc⟩; cases hc
  cases more with
  | false =>
    refine .inl ⟨{ s with pc := .scan ct, log := .fin id :: s.log }, items, by simp [ret], ?_, rfl, ⟨_, rfl, by simp⟩, rfl⟩
    refine inv_dead (id := id) (pc := .scan ct) h h.rep (fun i => life_fin) ⟨ct, d, o, hl⟩ ?_ ?_ (by rw [hl]; simp)
    · intro i
      constructor
      · intro hi; exact ⟨hi, by rintro rfl; exact hni hi⟩
      · exact fun hi => hi.1
    · intro ct' i
      constructor
      · intro hc; cases hc
      · rintro ⟨h1, h2⟩; rw [hpc] at h1; cases h1; exact absurd rfl h2
  | true =>
    cases hb : bump d o ct with
    | none =>
      refine .inr ⟨by simp only [ret, hmem, hb, if_true], ?_⟩
      rw [hmem]
      by_contra hc
      obtain ⟨d', hd⟩ := bump_some d o ct (by simpa using hc)
      rw [hd] at hb; cases hb
    | some d' =>
      obtain ⟨b1, b2, b3, b4⟩ := bump_spec d o ct hdue d' hb
      obtain ⟨q', e, hr⟩ := rep_put h.rep hni
      have hlf : ∀ i, life i (.resched id d' :: s.log) = if id = i then .waiting d' o else life i s.log :=
        fun i => life_resched hl
      refine .inl ⟨{ s with q := q', mem := setM s.mem id ⟨d', o⟩, pc := .scan ct, log := .resched id d' :: s.log },
        items ++ [id], by simp only [ret, hmem, hb, if_true, e], ?_, rfl, ⟨_, rfl, by simp⟩, ?_⟩
      rotate_left
      · rw [List.countP_append, List.countP_singleton]
        have h1 : decide ((setM s.mem id ⟨d', o⟩ id).due ≤ ct) = false := by simp [setM, b3]
        simp only [h1]
        rw [if_neg (by simp), Nat.add_zero]
        refine List.countP_congr fun j hj => ?_
        have : j ≠ id := by rintro rfl; exact hni hj
        simp [setM, this]
      refine ⟨hr, ?_, ?_, ?_, ?_, ?_, ⟨⟨ct, d, o, hl, b1, b2, b3, b4⟩, h.good⟩⟩ <;> simp only [hlf]
      · intro i
        rw [List.mem_append, List.mem_singleton, h.mem]
        by_cases he : id = i
        · subst he; simp
        · simp [if_neg he, Ne.symm he]
      · intro i d1 o1
        simp only [setM]
        by_cases he : id = i
        · subst he; simp only [if_true]; rintro ⟨⟩; rfl
        · simp only [if_neg he, if_neg (Ne.symm he)]; exact h.due i d1 o1
      · intro ct' i
        constructor
        · intro hc; cases hc
        · rintro ⟨d1, o1, hc⟩
          by_cases he : id = i
          · simp [if_pos he] at hc
          · simp only [if_neg he] at hc; exact absurd (honly _ _ _ _ hc).symm he
      · intro ct' i d1 o1
        by_cases he : id = i
        · simp [if_pos he]
        · simp only [if_neg he]; intro hc; exact absurd (honly _ _ _ _ hc).symm he
      · intro i hi
        by_cases he : id = i
        · subst he; have := h.fresh id hi; rw [hl] at this; cases this
        · simp only [if_neg he]; exact h.fresh i hi

theorem Inv.setpc {s : St} {items : List Nat} (h : Inv s items) {pc : Pc} (h1 : ∀ ct i, s.pc ≠ .running ct i)
    (h2 : ∀ ct i, pc ≠ .running ct i) : Inv { s with pc := pc } items :=
  ⟨h.rep, h.mem, h.due, fun ct i => ⟨fun hc => absurd hc (h2 ct i), fun hc => absurd ((h.run ct i).2 hc) (h1 ct i)⟩,
    h.rdue, h.fresh, h.good⟩

theorem inv_drainGet {s : St} {items : List Nat} (h : Inv s items) (hpc : s.pc = .drainGet) :
    (∃ s' items', drainGet s = .ok s' ∧ Inv s' items') ∨ (drainGet s = .error .disabled ∧ items = []) := by
  obtain ⟨q', e, hr⟩ := Queue.getItem_ok h.rep
  simp only [] at e hr
  cases items with
  | nil => exact .inr ⟨by simp only [drainGet, e, List.take_nil], rfl⟩
  | cons x l =>
    simp only [List.take_succ_cons, List.take_zero, List.drop_succ_cons, List.drop_zero] at e hr
    have hw := (h.mem x).1 (by simp)
    have hnd := List.nodup_cons.1 h.rep.nodup
    refine .inl ⟨_, l, by simp only [drainGet, e]; rfl, ?_⟩
    refine inv_dead (id := x) (pc := .drain) h hr (fun i => life_shut) hw ?_ ?_ ?_
    · intro i
      constructor
      · intro hi; exact ⟨by simp [hi], by rintro rfl; exact hnd.1 hi⟩
      · rintro ⟨hi, hne⟩
        rcases List.mem_cons.1 hi with e | e
        · exact absurd e hne
        · exact e
    · intro ct i
      rw [hpc]; simp
    · obtain ⟨d, o, hl⟩ := hw; rw [hl]; simp

/-- Every step keeps the invariant; the only ways not to go on are: not the thread's turn, blocked on the empty queue
at shutdown, or an endless loop on a task with no positive period. -/
theorem inv_step {s : St} {items : List Nat} (h : Inv s items) (e : Ev) :
    (∃ s' items', step s e = .ok s' ∧ Inv s' items') ∨ step s e = .error .disabled ∨
    (step s e = .error .hang ∧ ∃ ct id, s.pc = .running ct id ∧ (s.mem id).offset ≤ 0) := by
  cases e with
  | sched now off =>
    obtain ⟨s', i', e1, e2⟩ := inv_schedule h now off
    exact .inl ⟨s', i', e1, e2⟩
  | cancel id =>
    simp only [step]
    split
    · obtain ⟨s', i', e1, e2⟩ := inv_cancel h id
      exact .inl ⟨s', i', e1, e2⟩
    · exact .inr (.inl rfl)
  | wake ct =>
    simp only [step]
    cases hp : s.pc <;> (first | exact .inr (.inl rfl) | skip)
    exact .inl ⟨_, items, rfl, h.setpc (by simp [hp]) (by simp)⟩
  | pick =>
    simp only [step]
    cases hp : s.pc <;> (first | exact .inr (.inl rfl) | skip)
    rename_i ct
    obtain ⟨s', i', e1, e2, -⟩ := inv_pick h ct hp
    exact .inl ⟨s', i', e1, e2⟩
  | ret more =>
    simp only [step]
    cases hp : s.pc <;> (first | exact .inr (.inl rfl) | skip)
    rename_i ct id
    rcases inv_ret h ct id hp more with h1 | ⟨h1, h2⟩
    · obtain ⟨s', i', e1, e2, -⟩ := h1
      exact .inl ⟨s', i', e1, e2⟩
    · exact .inr (.inr ⟨h1, ct, id, rfl, h2⟩)
  | term =>
    simp only [step]
    cases hp : s.pc <;> (first | exact .inr (.inl rfl) | skip)
    exact .inl ⟨_, items, rfl, h.setpc (by simp [hp]) (by simp)⟩
  | drain =>
    simp only [step]
    cases hp : s.pc <;> (first | exact .inr (.inl rfl) | skip)
    · refine .inl ⟨_, items, rfl, h.setpc (by simp [hp]) ?_⟩
      split <;> simp
    · rcases inv_drainGet h hp with h1 | ⟨h1, -⟩
      · exact .inl h1
      · exact .inr (.inl h1)

theorem inv_run : ∀ (es : List Ev) {s : St} {items : List Nat}, Inv s items → ∀ {s' : St}, run s es = .ok s' → ∃ items', Inv s' items'
  | [], s, items, h, s', e => by cases e; exact ⟨items, h⟩
  | ev :: es, s, items, h, s', e => by
    simp only [run] at e
    rcases inv_step h ev with ⟨s1, i1, e1, h1⟩ | e1 | ⟨e1, -⟩
    · rw [e1] at e; exact inv_run es h1 e
    · rw [e1] at e; cases e
    · rw [e1] at e; cases e

/-- **C28.**  Whatever clients and callbacks do and however they interleave with the timer's thread, the
observations are legitimate: no task runs before it is due; a scan ends only when no task is due; a task put back is
due at the first multiple of its period strictly after the scan's clock; cancellation succeeds exactly on tasks
that wait; finished and cancelled tasks are dead. -/
theorem C28_tasks (cap : Nat) (nxt : Nat → Option Nat) (es : List Ev) (s : St) (h : run (init cap nxt) es = .ok s) :
    Good s.log := by
  obtain ⟨items, hi⟩ := inv_run es (Inv.init cap nxt) h
  exact hi.good

theorem no_fault : ∀ (es : List Ev) {s : St} {items : List Nat}, Inv s items → ∀ f, run s es ≠ .error (.fault f)
  | [], s, items, h, f => by simp [run]
  | ev :: es, s, items, h, f => by
    simp only [run]
    rcases inv_step h ev with ⟨s1, i1, e1, h1⟩ | e1 | ⟨e1, -⟩
    · rw [e1]; exact no_fault es h1 f
    · rw [e1]; simp
    · rw [e1]; simp

/-- No invalid memory access, no failed assertion. -/
theorem C28_safe (cap : Nat) (nxt : Nat → Option Nat) (es : List Ev) (f : Fault) : run (init cap nxt) es ≠ .error (.fault f) :=
  no_fault es (Inv.init cap nxt) f

/-! ### Consequences, in terms of the log alone.  `l = a ++ b :: c` says that `b` was observed after `c`. -/

theorem good_append : ∀ {a b : List Obs}, Good (a ++ b) → Good b
  | [], _, h => h
  | _ :: a, _, h => good_append (a := a) h.2

theorem good_at {a : List Obs} {o : Obs} {c : List Obs} (h : Good (a ++ o :: c)) : Legit c o := (good_append h).1

theorem life_dead_stays {i : Nat} : ∀ {a c : List Obs}, Good (a ++ c) → life i c = .dead → life i (a ++ c) = .dead
  | [], c, _, h => h
  | o :: a, c, hg, h => by
    have ih := life_dead_stays (a := a) hg.2 h
    have hl : Legit (a ++ c) o := hg.1
    simp only [List.cons_append]
    cases o with
    | sched id d off =>
      rw [life_sched]
      split
      · rename_i e; subst e
        simp only [Legit] at hl; rw [ih] at hl; cases hl
      · exact ih
    | run id ct =>
      by_cases e : id = i
      · subst e
        obtain ⟨d, off, h1, -⟩ := hl; rw [ih] at h1; cases h1
      · simp only [life, if_neg e]; exact ih
    | resched id d =>
      by_cases e : id = i
      · subst e
        obtain ⟨_, _, _, h1, -⟩ := hl; rw [ih] at h1; cases h1
      · simp only [life, if_neg e]; exact ih
    | fin id => rw [life_fin]; split <;> first | rfl | exact ih
    | cancel id ok => rw [life_cancel]; split <;> first | rfl | exact ih
    | scanEnd ct => exact ih
    | shut id => rw [life_shut]; split <;> first | rfl | exact ih

/-- What ends a task. -/
def Ends (i : Nat) (o : Obs) : Prop := o = .fin i ∨ o = .cancel i true ∨ o = .shut i

theorem ends_dead {i : Nat} {o : Obs} {c : List Obs} (h : Ends i o) : life i (o :: c) = .dead := by
  rcases h with rfl | rfl | rfl <;> simp [life]

/-- A task that is finished, cancelled in time or given up at shutdown never runs again (and its references are not
released twice: it does not end again). -/
theorem C28_ended_never_runs (cap : Nat) (nxt : Nat → Option Nat) (es : List Ev) (s : St) (h : run (init cap nxt) es = .ok s)
    (i : Nat) (a c : List Obs) (o : Obs) (hlog : s.log = a ++ o :: c) (ho : Ends i o) :
    (∀ ct, Obs.run i ct ∉ a) ∧ (∀ o', Ends i o' → o' ∉ a) := by
  have hg := C28_tasks cap nxt es s h
  rw [hlog] at hg
  have key : ∀ (x : Obs), x ∈ a → ∃ c', Legit c' x ∧ life i c' = .dead := by
    intro x hx
    obtain ⟨a1, a2, rfl⟩ := List.append_of_mem hx
    have hg' : Good (a1 ++ x :: (a2 ++ o :: c)) := by simpa using hg
    refine ⟨a2 ++ o :: c, good_at hg', life_dead_stays (good_append hg').2 (ends_dead ho)⟩
  refine ⟨fun ct hx => ?_, fun o' ho' hx => ?_⟩
  · obtain ⟨c', ⟨d, off, h1, -⟩, h2⟩ := key _ hx
    rw [h2] at h1; cases h1
  · obtain ⟨c', h1, h2⟩ := key _ hx
    rcases ho' with rfl | rfl | rfl
    · obtain ⟨_, _, _, h3⟩ := h1; rw [h2] at h3; cases h3
    · obtain ⟨_, _, h3⟩ := h1.1 rfl; rw [h2] at h3; cases h3
    · obtain ⟨_, _, h3⟩ := h1; rw [h2] at h3; cases h3

/-- What the log says about a task, by its life. -/
def Told (i : Nat) (l : List Obs) : Life → Prop
  | .unborn => ∀ o ∈ l, (∀ d off, o ≠ .sched i d off) ∧ (∀ ct, o ≠ .run i ct) ∧ ¬ Ends i o
  | .waiting d off => ∃ (k : Nat) (d0 : Int), Obs.sched i d0 off ∈ l ∧ d = d0 + k * off ∧
      ((∃ ct, Obs.run i ct ∈ l) ∨ k = 0) ∧ (∀ ct, Obs.run i ct ∈ l → ct < d) ∧
      (∀ d1 off1, Obs.sched i d1 off1 ∈ l → d1 = d0 ∧ off1 = off) ∧ ∀ o ∈ l, ¬ Ends i o
  | .running ct d off => ∃ (k : Nat) (d0 : Int), Obs.sched i d0 off ∈ l ∧ d = d0 + k * off ∧ Obs.run i ct ∈ l ∧ d ≤ ct ∧
      (∀ ct', Obs.run i ct' ∈ l → ct' ≤ ct) ∧
      (∀ d1 off1, Obs.sched i d1 off1 ∈ l → d1 = d0 ∧ off1 = off) ∧ ∀ o ∈ l, ¬ Ends i o
  | .dead => ((∃ ct, Obs.run i ct ∈ l) ∨ Obs.cancel i true ∈ l ∨ Obs.shut i ∈ l) ∧ ∃ o ∈ l, Ends i o

/-- The observation concerns task `i`. -/
def About (i : Nat) (o : Obs) : Prop := (∃ d off, o = .sched i d off) ∨ (∃ ct, o = .run i ct) ∨ Ends i o

theorem told_other {i : Nat} {l : List Obs} {o : Obs} {x : Life} (h : Told i l x) (ho : ¬ About i o) : Told i (o :: l) x := by
  have h1 : ∀ d off, o ≠ .sched i d off := fun d off e => ho (.inl ⟨d, off, e⟩)
  have h2 : ∀ ct, o ≠ .run i ct := fun ct e => ho (.inr (.inl ⟨ct, e⟩))
  have h3 : ¬ Ends i o := fun e => ho (.inr (.inr e))
  have m1 : ∀ d off, Obs.sched i d off ∈ o :: l ↔ Obs.sched i d off ∈ l := by
    intro d off; rw [List.mem_cons]; exact ⟨fun h => h.elim (fun e => absurd e.symm (h1 _ _)) id, .inr⟩
  have m2 : ∀ ct, Obs.run i ct ∈ o :: l ↔ Obs.run i ct ∈ l := by
    intro ct; rw [List.mem_cons]; exact ⟨fun h => h.elim (fun e => absurd e.symm (h2 _)) id, .inr⟩
  cases x with
  | unborn =>
    intro o' ho'
    rcases List.mem_cons.1 ho' with rfl | ho'
    · exact ⟨h1, h2, h3⟩
    · exact h o' ho'
  | waiting d off =>
    obtain ⟨k, d0, a, b, c, d, e, f⟩ := h
    simp only [Told, m1, m2]
    exact ⟨k, d0, a, b, c, d, e, by simpa using ⟨h3, f⟩⟩
  | running ct d off =>
    obtain ⟨k, d0, a, b, c, d, e, g, f⟩ := h
    simp only [Told, m1, m2]
    exact ⟨k, d0, a, b, c, d, e, g, by simpa using ⟨h3, f⟩⟩
  | dead =>
    obtain ⟨a, o', b, c⟩ := h
    simp only [Told, m2]
    refine ⟨?_, o', by simp [b], c⟩
    rcases a with a | a | a
    · exact .inl a
    · exact .inr (.inl (by simp [a]))
    · exact .inr (.inr (by simp [a]))

theorem told : ∀ {l : List Obs} (i : Nat), Good l → Told i l (life i l)
  | [], i, _ => by intro o ho; simp at ho
  | o :: l, i, hg => by
    have ih := told i hg.2
    have hl := hg.1
    have other : ¬ About i o → life i (o :: l) = life i l → Told i (o :: l) (life i (o :: l)) := by
      intro h1 h2; rw [h2]; exact told_other ih h1
    cases o with
    | sched id d off =>
      by_cases e : id = i
      · subst e
        simp only [Legit] at hl
        rw [hl] at ih
        rw [life_sched, if_pos rfl]
        refine ⟨0, d, by simp, by simp, .inr rfl, ?_, ?_, ?_⟩
        · intro ct hm
          rcases List.mem_cons.1 hm with h | h
          · cases h
          · exact absurd rfl ((ih _ h).2.1 ct)
        · intro d1 off1 hm
          rcases List.mem_cons.1 hm with h | h
          · cases h; exact ⟨rfl, rfl⟩
          · exact absurd rfl ((ih _ h).1 d1 off1)
        · intro o' ho'
          rcases List.mem_cons.1 ho' with h | h
          · subst h; simp [Ends]
          · exact (ih _ h).2.2
      · exact other (by simp [About, Ends, e]) (by simp [life, e])
    | run id ct =>
      by_cases e : id = i
      · subst e
        obtain ⟨d, off, h1, h2⟩ := hl
        rw [h1] at ih
        rw [life_run h1, if_pos rfl]
        obtain ⟨k, d0, a, b, c, d', e, f⟩ := ih
        refine ⟨k, d0, by simp [a], b, by simp, h2, ?_, ?_, ?_⟩
        · intro ct' hm
          rcases List.mem_cons.1 hm with h | h
          · cases h; exact Int.le_refl _
          · have := d' ct' h; omega
        · intro d1 off1 hm
          rcases List.mem_cons.1 hm with h | h
          · cases h
          · exact e d1 off1 h
        · intro o' ho'
          rcases List.mem_cons.1 ho' with h | h
          · subst h; simp [Ends]
          · exact f _ h
      · exact other (by simp [About, Ends, e]) (by simp [life, e])
    | resched id d' =>
      by_cases e : id = i
      · subst e
        obtain ⟨ct, d, off, h1, h2, ⟨k', h3⟩, h4, h5⟩ := hl
        rw [h1] at ih
        rw [life_resched h1, if_pos rfl]
        obtain ⟨k, d0, a, b, c, g, m, e, f⟩ := ih
        refine ⟨k + k', d0, by simp [a], ?_, .inl ⟨ct, by simp [c]⟩, ?_, ?_, ?_⟩
        · rw [h3, b]; push_cast; rw [Int.add_mul]; omega
        · intro ct' hm
          rcases List.mem_cons.1 hm with h | h
          · cases h
          · have := m ct' h; omega
        · intro d1 off1 hm
          rcases List.mem_cons.1 hm with h | h
          · cases h
          · exact e d1 off1 h
        · intro o' ho'
          rcases List.mem_cons.1 ho' with h | h
          · subst h; simp [Ends]
          · exact f _ h
      · exact other (by simp [About, Ends]) (by simp [life, e])
    | fin id =>
      by_cases e : id = i
      · subst e
        obtain ⟨ct, d, off, h1⟩ := hl
        rw [h1] at ih
        rw [life_fin, if_pos rfl]
        obtain ⟨k, d0, a, b, c, -⟩ := ih
        exact ⟨.inl ⟨ct, by simp [c]⟩, .fin id, by simp, .inl rfl⟩
      · exact other (by simp [About, Ends, e]) (by simp [life, e])
    | cancel id ok =>
      by_cases e : id = i ∧ ok = true
      · obtain ⟨rfl, rfl⟩ := e
        rw [life_cancel, if_pos ⟨rfl, rfl⟩]
        exact ⟨.inr (.inl (by simp)), .cancel id true, by simp, .inr (.inl rfl)⟩
      · exact other (by simpa [About, Ends] using e) (by simp [life, e])
    | scanEnd ct => exact other (by simp [About, Ends]) (by simp [life])
    | shut id =>
      by_cases e : id = i
      · subst e
        rw [life_shut, if_pos rfl]
        exact ⟨.inr (.inr (by simp)), .shut id, by simp, .inr (.inr rfl)⟩
      · exact other (by simp [About, Ends, e]) (by simp [life, e])

/-- No task runs early, and the due times of a task are its first due time plus multiples of its period: a run at
`ct` is at or after such a due time, which for the first run is the one asked for and for later ones is after every
earlier run.  In particular no task runs twice in a scan. -/
theorem C28_never_early (cap : Nat) (nxt : Nat → Option Nat) (es : List Ev) (s : St) (h : run (init cap nxt) es = .ok s)
    (i : Nat) (ct : Int) (a c : List Obs) (hlog : s.log = a ++ .run i ct :: c) :
    ∃ (k : Nat) (d0 off : Int), Obs.sched i d0 off ∈ c ∧ d0 + k * off ≤ ct ∧ ((∃ ct', Obs.run i ct' ∈ c) ∨ k = 0) ∧
      ∀ ct', Obs.run i ct' ∈ c → ct' < d0 + k * off := by
  have hg := C28_tasks cap nxt es s h
  rw [hlog] at hg
  have hg' := good_append hg
  obtain ⟨d, off, h1, h2⟩ := hg'.1
  have ht := told i hg'.2
  rw [h1] at ht
  obtain ⟨k, d0, b1, b2, b3, b4, -⟩ := ht
  exact ⟨k, d0, off, b1, by omega, b3, fun ct' hm => by have := b4 ct' hm; omega⟩

/-- A periodic task is put back to its next multiple strictly after the clock of the run: not earlier, and not a
period later than needed. -/
theorem C28_next_period (cap : Nat) (nxt : Nat → Option Nat) (es : List Ev) (s : St) (h : run (init cap nxt) es = .ok s)
    (i : Nat) (d : Int) (a c : List Obs) (hlog : s.log = a ++ .resched i d :: c) :
    ∃ (k : Nat) (d0 off ct : Int), Obs.sched i d0 off ∈ c ∧ d = d0 + k * off ∧ Obs.run i ct ∈ c ∧
      (∀ ct', Obs.run i ct' ∈ c → ct' ≤ ct) ∧ ct < d ∧ d - off ≤ ct := by
  have hg := C28_tasks cap nxt es s h
  rw [hlog] at hg
  have hg' := good_append hg
  obtain ⟨ct, d1, off, h1, h2, ⟨k', h3⟩, h4, h5⟩ := hg'.1
  have ht := told i hg'.2
  rw [h1] at ht
  obtain ⟨k, d0, b1, b2, b3, b4, b5, -⟩ := ht
  refine ⟨k + k', d0, off, ct, b1, ?_, b3, b5, h4, h5⟩
  rw [h3, b2]; push_cast; rw [Int.add_mul]; omega

/-- A task due at the clock of a scan and scheduled before its end has been run, cancelled or given up by then. -/
theorem C28_first_scan (cap : Nat) (nxt : Nat → Option Nat) (es : List Ev) (s : St) (h : run (init cap nxt) es = .ok s)
    (i : Nat) (ct d off : Int) (a c : List Obs) (hlog : s.log = a ++ .scanEnd ct :: c) (hs : Obs.sched i d off ∈ c)
    (hd : d ≤ ct) : (∃ ct', Obs.run i ct' ∈ c) ∨ Obs.cancel i true ∈ c ∨ Obs.shut i ∈ c := by
  have hg := C28_tasks cap nxt es s h
  rw [hlog] at hg
  have hg' := good_append hg
  have ht := told i hg'.2
  cases hl : life i c with
  | unborn => rw [hl] at ht; exact absurd rfl ((ht _ hs).1 d off)
  | waiting d' off' =>
    rw [hl] at ht
    obtain ⟨k, d0, b1, b2, b3, b4, b5, b6⟩ := ht
    rcases b3 with b3 | rfl
    · exact .inl b3
    · obtain ⟨rfl, rfl⟩ := b5 d off hs
      have : ct < d' := hg'.1 i d' off hl
      simp at b2
      omega
  | running ct' d' off' =>
    rw [hl] at ht
    obtain ⟨k, d0, b1, b2, b3, -⟩ := ht
    exact .inl ⟨_, b3⟩
  | dead => rw [hl] at ht; exact ht.1

/-- A cancellation that comes before the task is picked up succeeds, and the task never runs. -/
theorem C28_cancelled_never_runs (cap : Nat) (nxt : Nat → Option Nat) (es : List Ev) (s : St) (h : run (init cap nxt) es = .ok s)
    (i : Nat) (ok : Bool) (d off : Int) (a c : List Obs) (hlog : s.log = a ++ .cancel i ok :: c) (hs : Obs.sched i d off ∈ c)
    (hr : ∀ ct, Obs.run i ct ∉ c) (he : ∀ o, Ends i o → o ∉ c) : ok = true ∧ ∀ ct, Obs.run i ct ∉ s.log := by
  have hg := C28_tasks cap nxt es s h
  rw [hlog] at hg
  have hg' := good_append hg
  have ht := told i hg'.2
  have hok : ok = true := by
    refine hg'.1.2 ?_
    cases hl : life i c with
    | unborn => rw [hl] at ht; exact absurd rfl ((ht _ hs).1 d off)
    | waiting d' off' => exact ⟨_, _, rfl⟩
    | running ct' d' off' =>
      rw [hl] at ht
      obtain ⟨k, d0, b1, b2, b3, -⟩ := ht
      exact absurd b3 (hr _)
    | dead =>
      rw [hl] at ht
      obtain ⟨-, o, h1, h2⟩ := ht
      exact absurd h1 (he o h2)
  subst hok
  refine ⟨rfl, fun ct hm => ?_⟩
  rw [hlog] at hm
  rcases List.mem_append.1 hm with hm | hm
  · exact (C28_ended_never_runs cap nxt es s h i a c _ hlog (.inr (.inl rfl))).1 ct hm
  · rcases List.mem_cons.1 hm with hm | hm
    · cases hm
    · exact hr ct hm

/-- The observation is a run of task `i`. -/
def isRun (i : Nat) : Obs → Bool
  | .run j _ => j == i
  | _ => false

theorem runs_aux (i : Nat) : ∀ (l : List Obs), Good l → (∀ d, Obs.resched i d ∉ l) →
    l.countP (isRun i) ≤ 1 ∧ (l.countP (isRun i) = 1 → ∀ d off, life i l ≠ .waiting d off) := by
  intro l
  induction l with
  | nil => intro _ _; simp [life]
  | cons o l ih =>
    intro hg hno
    obtain ⟨i1, i2⟩ := ih hg.2 (fun d hm => hno d (by simp [hm]))
    have hl := hg.1
    have other : isRun i o = false → (l.countP (isRun i) = 1 → ∀ d off, life i (o :: l) ≠ .waiting d off) →
        (o :: l).countP (isRun i) ≤ 1 ∧ ((o :: l).countP (isRun i) = 1 → ∀ d off, life i (o :: l) ≠ .waiting d off) := by
      intro h1 h2
      rw [List.countP_cons_of_neg (by simp [h1])]
      exact ⟨i1, h2⟩
    cases o with
    | run id ct =>
      by_cases e : id = i
      · subst e
        obtain ⟨d, off, h1, h2⟩ := hl
        have h0 : l.countP (isRun id) = 0 := by
          rcases Nat.eq_or_lt_of_le i1 with h | h
          · exact absurd h1 (i2 h d off)
          · omega
        rw [List.countP_cons_of_pos (by simp [isRun]), h0]
        refine ⟨by omega, ?_⟩
        intro _ d' off'; rw [life_run h1, if_pos rfl]; simp
      · exact other (by simp [isRun, e]) (by simp only [life, if_neg e]; exact i2)
    | sched id d off =>
      refine other rfl ?_
      intro hh d' off'
      rw [life_sched]
      split
      · rename_i e; subst e
        simp only [Legit] at hl
        have ht := told id hg.2
        rw [hl] at ht
        obtain ⟨o, m1, m2⟩ := List.countP_pos_iff.1 (by rw [hh]; exact Nat.one_pos)
        cases o <;> simp [isRun] at m2
        subst m2
        exact absurd rfl ((ht _ m1).2.1 _)
      · exact i2 hh d' off'
    | resched id d =>
      have e : id ≠ i := by rintro rfl; exact hno d (by simp)
      exact other rfl (by simp only [life, if_neg e]; exact i2)
    | fin id =>
      refine other rfl fun hh d off => ?_
      rw [life_fin]
      split
      · simp
      · exact i2 hh d off
    | cancel id ok =>
      refine other rfl fun hh d off => ?_
      rw [life_cancel]
      split
      · simp
      · exact i2 hh d off
    | scanEnd ct => exact other rfl (by simp only [life_scanEnd]; exact i2)
    | shut id =>
      refine other rfl fun hh d off => ?_
      rw [life_shut]
      split
      · simp
      · exact i2 hh d off

/-- A task that is never put back, its callback declining to be called again, runs at most once; with
`C28_first_scan`, exactly once unless cancelled. -/
theorem C28_one_shot (cap : Nat) (nxt : Nat → Option Nat) (es : List Ev) (s : St) (h : run (init cap nxt) es = .ok s)
    (i : Nat) (hno : ∀ d, Obs.resched i d ∉ s.log) : s.log.countP (isRun i) ≤ 1 :=
  (runs_aux i s.log (C28_tasks cap nxt es s h) hno).1

/-- The turns of one scan: `n` callbacks answering `f 0`, `f 1`, … -/
def turns : Nat → (Nat → Bool) → List Ev
  | 0, _ => [.pick]
  | n + 1, f => .pick :: .ret (f 0) :: turns n (fun j => f (j + 1))

theorem scan_ends_aux : ∀ (n : Nat) (s : St) (items : List Nat) (ct : Int) (f : Nat → Bool), Inv s items → s.pc = .scan ct →
    (∀ i d off, Obs.sched i d off ∈ s.log → 0 < off) →
    items.countP (fun j => decide ((s.mem j).due ≤ ct)) = n →
    ∃ m s', run s (turns m f) = .ok s' ∧ s'.pc = .idle := by
  intro n
  induction n with
  | zero =>
    intro s items ct f h hpc hpos hn
    obtain ⟨s', i', e1, e2, e3⟩ := inv_pick h ct hpc
    rcases e3 with e3 | ⟨-, -, e3⟩
    · exact ⟨0, s', by simp only [turns, run, step, hpc, e1], e3⟩
    · omega
  | succ n ih =>
    intro s items ct f h hpc hpos hn
    obtain ⟨s', i', e1, e2, e3⟩ := inv_pick h ct hpc
    rcases e3 with e3 | ⟨⟨x, e3⟩, ⟨o, e4, e5⟩, e6⟩
    · exact ⟨0, s', by simp only [turns, run, step, hpc, e1], e3⟩
    · have hpos' : ∀ i d off, Obs.sched i d off ∈ s'.log → 0 < off := by
        intro i d off hm
        rw [e4] at hm
        rcases List.mem_cons.1 hm with hm | hm
        · exact absurd hm.symm (e5 _ _ _)
        · exact hpos i d off hm
      rcases inv_ret e2 ct x e3 (f 0) with ⟨s2, i2, g1, g2, g3, ⟨o', g4, g5⟩, g6⟩ | ⟨-, g1⟩
      · obtain ⟨m, s3, k1, k2⟩ := ih s2 i2 ct (fun j => f (j + 1)) g2 g3 (by
          intro i d off hm
          rw [g4] at hm
          rcases List.mem_cons.1 hm with hm | hm
          · exact absurd hm.symm (g5 _ _ _)
          · exact hpos' i d off hm) (by omega)
        exact ⟨m + 1, s3, by simp only [turns, run, step, hpc, e1, e3, g1]; exact k1, k2⟩
      · exfalso
        obtain ⟨d, off, hl⟩ := (e2.run ct x).1 e3
        have ht := told x e2.good
        rw [hl] at ht
        obtain ⟨k, d0, b1, -⟩ := ht
        have := hpos' _ _ _ b1
        rw [(e2.rdue ct x d off hl).1] at g1
        simp only [] at g1
        omega

/-- A scan comes to its end, whatever the callbacks answer, if all periods are positive. -/
theorem C28_scan_ends (cap : Nat) (nxt : Nat → Option Nat) (es : List Ev) (s : St) (h : run (init cap nxt) es = .ok s)
    (ct : Int) (hpc : s.pc = .scan ct) (hpos : ∀ i d off, Obs.sched i d off ∈ s.log → 0 < off) (f : Nat → Bool) :
    ∃ n s', run s (turns n f) = .ok s' ∧ s'.pc = .idle := by
  obtain ⟨items, hi⟩ := inv_run es (Inv.init cap nxt) h
  exact scan_ends_aux _ s items ct f hi hpc hpos rfl

/-- A session: two tasks, one cancelled in time, the other periodic with period 10, run at 25 and put back to 30. -/
def demo : List Ev := [.sched 0 10, .sched 0 20, .cancel 1, .wake 25, .pick, .ret true, .pick]

def logOf : Except Stop St → List Obs
  | .ok s => s.log
  | .error _ => []

example : logOf (run (init 3 (fun _ => none)) demo) =
    [.scanEnd 25, .resched 0 30, .run 0 25, .cancel 1 true, .sched 1 20 20, .sched 0 10 10] := by
  decide +kernel

/-- Cancelling a periodic task while its callback runs fails, and the task runs again. -/
theorem C28_cancel_while_running : logOf (run (init 3 (fun _ => none))
    [.sched 0 10, .wake 10, .pick, .cancel 0, .ret true, .pick, .wake 20, .pick]) =
    [.run 0 20, .scanEnd 10, .resched 0 20, .cancel 0 false, .run 0 10, .sched 0 10 10] := by
  decide +kernel

def stopOf : Except Stop St → Option Stop
  | .ok _ => none
  | .error e => some e

/-- A task without a positive period that asks to be called again stops the timer for good. -/
theorem C28_zero_period_hangs : stopOf (run (init 3 (fun _ => none)) [.sched 0 0, .wake 0, .pick, .ret true]) = some .hang := by
  decide +kernel

/-- A cancellation between the length test and the removal at shutdown leaves the thread waiting on an empty queue,
which nothing wakes: `rtpp_timed_shutdown` never returns. -/
theorem C28_shutdown_can_hang : ∃ s, run (init 3 (fun _ => none)) [.sched 0 10, .term, .drain, .cancel 0] = .ok s ∧
    s.pc = .drainGet ∧ step s .drain = .error .disabled := by
  exact ⟨_, rfl, rfl, rfl⟩

end Verif.Timed
