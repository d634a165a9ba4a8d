import Verif.Acct.Inv

/-! # The invariants are kept -/

namespace Verif.Acct

/-- A change of one process only. -/
theorem setP_inv {s : St} {p : Nat} {q : Proc} (h : Inv s)
    (h1 : ∀ n i o, q.tbl n = some (.csv i o) → i < s.files.length)
    (h2 : q.pc.held = true → ∃ i o, q.at i o ∧ ∃ l ∈ s.locks, l.ino = i ∧ l.pid = p ∧ l.e = none)
    (h3 : ∀ k, q.pc = .olock k → ∃ i o, q.at i o) : Inv (s.setP p q) := by
  obtain ⟨i1, i2, i3, i4, i5⟩ := h
  refine ⟨i1, ?_, ?_, ?_, i5⟩
  · intro x m i o hq
    simp only [St.setP] at hq ⊢
    by_cases hqp : x = p
    · subst hqp; simp only [if_true] at hq; exact h1 m i o hq
    · simp only [hqp, if_false] at hq; exact i2 x m i o hq
  · intro x hq
    simp only [St.setP] at hq ⊢
    by_cases hqp : x = p
    · subst hqp; simp only [if_true] at hq ⊢; exact h2 hq
    · simp only [hqp, if_false] at hq ⊢; exact i3 x hq
  · intro x k hq
    simp only [St.setP] at hq ⊢
    by_cases hqp : x = p
    · subst hqp; simp only [if_true] at hq ⊢; exact h3 k hq
    · simp only [hqp, if_false] at hq ⊢; exact i4 x k hq

/-- Closing and going on. -/
theorem close_inv {s s1 : St} {p n : Nat} {pc : Pc} (h : Inv s) (hc : s.closeFd p n = .ok s1)
    (hh : pc.held = false) (ho : ∀ k, pc ≠ .olock k) : Inv (s1.to p pc) := by
  obtain ⟨⟨u1, u2, u3⟩, c1, c2, c3, c4, c5, c6, c7, c8, c9⟩ := closeFd_spec hc
  obtain ⟨i1, i2, i3, i4, i5⟩ := h
  refine ⟨?_, ?_, ?_, ?_, ?_⟩
  · intro i hi; simp only [St.to, St.setP] at hi ⊢; rw [u3]; exact i1 i (u2 ▸ hi)
  · intro q m i o hq
    simp only [St.to, St.setP, Proc.goto] at hq ⊢
    rw [u3]
    by_cases hqp : q = p
    · subst hqp
      simp only [if_true] at hq
      rcases c9 m with h' | h'
      · exact i2 q m i o (h' ▸ hq)
      · rw [h'] at hq; cases hq
    · simp only [hqp, if_false] at hq; exact i2 q m i o (u1 q hqp ▸ hq)
  · intro q hq
    simp only [St.to, St.setP, Proc.goto] at hq ⊢
    by_cases hqp : q = p
    · subst hqp; simp [hh] at hq
    · simp only [hqp, if_false] at hq ⊢
      rw [u1 q hqp] at hq ⊢
      obtain ⟨i, o, ha, l, hl, hx⟩ := i3 q hq
      exact ⟨i, o, ha, l, c7 l hl (by grind), hx⟩
  · intro q k hq
    simp only [St.to, St.setP, Proc.goto] at hq ⊢
    by_cases hqp : q = p
    · subst hqp; simp at hq; exact absurd hq (ho k)
    · simp only [hqp, if_false] at hq ⊢
      rw [u1 q hqp] at hq ⊢; exact i4 q k hq
  · intro l hl l' hl'
    exact i5 l (c6 l hl) l' (c6 l' hl')

/-- Going on, nothing else. -/
theorem to_inv {s : St} {p : Nat} {pc : Pc} (h : Inv s) (hh : pc.held = true → (s.procs p).pc.held = true)
    (ho : ∀ k, pc ≠ .olock k) : Inv (s.to p pc) := by
  obtain ⟨i1, i2, i3, i4, i5⟩ := h
  refine ⟨i1, ?_, ?_, ?_, i5⟩
  · intro q m i o hq
    simp only [St.to, St.setP, Proc.goto] at hq ⊢
    by_cases hqp : q = p
    · subst hqp; simp at hq; exact i2 q m i o hq
    · simp [hqp] at hq; exact i2 q m i o hq
  · intro q hq
    simp only [St.to, St.setP, Proc.goto] at hq ⊢
    by_cases hqp : q = p
    · subst hqp; simp at hq; simpa [Proc.at] using i3 q (hh hq)
    · simp [hqp] at hq; simpa [hqp] using i3 q hq
  · intro q k hq
    simp only [St.to, St.setP, Proc.goto] at hq ⊢
    by_cases hqp : q = p
    · subst hqp; simp at hq; exact absurd hq (ho k)
    · simp [hqp] at hq; simpa [hqp] using i4 q k hq

/-- Taking the lock. -/
theorem lock_inv {s : St} {p i o : Nat} (h : Inv s) (hb : s.busy p i o = false) :
    Inv { s with locks := s.locks ++ [⟨i, p, o, none⟩] } := by
  obtain ⟨i1, i2, i3, i4, i5⟩ := h
  have nb := not_busy hb
  refine ⟨i1, i2, ?_, i4, ?_⟩
  · intro q hq
    obtain ⟨i', o', ha, l, hl, hx⟩ := i3 q hq
    exact ⟨i', o', ha, l, by simp [hl], hx⟩
  · intro l hl l' hl' he h1 h2
    simp only [List.mem_append, List.mem_singleton] at hl hl'
    rcases hl with hl | rfl <;> rcases hl' with hl' | rfl
    · exact i5 l hl l' hl' he h1 h2
    · exact nb l hl he h1
    · exact (nb l' hl' he.symm h2).symm
    · rfl

theorem locked_inv {s : St} {p i o : Nat} {pc : Pc} (h : Inv s) (hb : s.busy p i o = false) (ha : (s.procs p).at i o)
    (ho : ∀ k, pc ≠ .olock k) : Inv (St.to { s with locks := s.locks ++ [⟨i, p, o, none⟩] } p pc) := by
  obtain ⟨i1, i2, i3, i4, i5⟩ := lock_inv h hb
  refine ⟨i1, ?_, ?_, ?_, i5⟩
  · intro q m i o hq
    simp only [St.to, St.setP, Proc.goto] at hq ⊢
    by_cases hqp : q = p
    · subst hqp; simp at hq; exact i2 q m i o hq
    · simp [hqp] at hq; exact i2 q m i o hq
  · intro q hq
    simp only [St.to, St.setP, Proc.goto] at hq ⊢
    by_cases hqp : q = p
    · subst hqp; simp only [if_true]
      exact ⟨i, o, ha, ⟨i, q, o, none⟩, by simp, rfl, rfl, rfl⟩
    · simp [hqp] at hq; simpa [hqp] using i3 q hq
  · intro q k hq
    simp only [St.to, St.setP, Proc.goto] at hq ⊢
    by_cases hqp : q = p
    · subst hqp; simp at hq; exact absurd hq (ho k)
    · simp [hqp] at hq; simpa [hqp] using i4 q k hq

/-- Giving it back. -/
theorem unlock_inv {s s1 : St} {p : Nat} {pos : Int} {pc : Pc} (h : Inv s) (hu : unlockf s p pos = .ok s1)
    (hh : pc.held = false) (ho : ∀ k, pc ≠ .olock k) : Inv (s1.to p pc) := by
  unfold unlockf at hu
  split at hu
  · cases hu
  · cases hu; exact to_inv h (by simp [hh]) ho
  next n i o hf =>
    cases hu
    obtain ⟨i1, i2, i3, i4, i5⟩ := h
    refine ⟨i1, ?_, ?_, ?_, ?_⟩
    · intro q m i o hq
      simp only [St.to, St.setP, Proc.goto] at hq ⊢
      by_cases hqp : q = p
      · subst hqp; simp at hq; exact i2 q m i o hq
      · simp [hqp] at hq; exact i2 q m i o hq
    · intro q hq
      simp only [St.to, St.setP, Proc.goto] at hq ⊢
      by_cases hqp : q = p
      · subst hqp; simp [hh] at hq
      · simp only [hqp, if_false] at hq ⊢
        obtain ⟨i', o', ha, l, hl, hx⟩ := i3 q hq
        exact ⟨i', o', ha, l, unlk_mem hl (by grind), hx⟩
    · intro q k hq
      simp only [St.to, St.setP, Proc.goto] at hq ⊢
      by_cases hqp : q = p
      · subst hqp; simp at hq; exact absurd hq (ho k)
      · simp [hqp] at hq; simpa [hqp] using i4 q k hq
    · intro l hl l' hl' he h1 h2
      exact i5 l (mem_unlk hl h1).1 l' (mem_unlk hl' h2).1 he h1 h2

/-- Writing. -/
theorem append_inv {s : St} {p n i o : Nat} {w : List UInt8} (h : Inv s) (hf : (s.procs p).fd = some n)
    (ht : (s.procs p).tbl n = some (.csv i o)) : Inv (s.append p n i w) := by
  obtain ⟨i1, i2, i3, i4, i5⟩ := h
  have hi := i2 p n i o ht
  refine ⟨?_, ?_, ?_, ?_, i5⟩
  · intro j hj; simp only [St.append, St.setP, List.length_set] at hj ⊢; exact i1 j hj
  · intro q m j o' hq
    simp only [St.append, St.setP, Proc.bind, List.length_set] at hq ⊢
    by_cases hqp : q = p
    · subst hqp; simp only [if_true] at hq
      by_cases hm : m = n
      · simp only [hm, if_true] at hq; grind
      · simp only [hm, if_false] at hq; exact i2 q m j o' hq
    · simp [hqp] at hq; exact i2 q m j o' hq
  · intro q hq
    simp only [St.append, St.setP, Proc.bind] at hq ⊢
    by_cases hqp : q = p
    · subst hqp; simp only [if_true] at hq ⊢
      obtain ⟨i', o', ⟨n', ha, hb⟩, l, hl, hx⟩ := i3 q hq
      have : n' = n := by grind
      subst this
      have : i' = i := by grind
      subst this
      exact ⟨i', _, ⟨n', ha, if_pos rfl⟩, l, hl, hx⟩
    · simp [hqp] at hq; simpa [hqp] using i3 q hq
  · intro q k hq
    simp only [St.append, St.setP, Proc.bind] at hq ⊢
    by_cases hqp : q = p
    · subst hqp; simp only [if_true] at hq ⊢
      exact ⟨i, _, n, hf, if_pos rfl⟩
    · simp [hqp] at hq; simpa [hqp] using i4 q k hq

theorem e1_inv {s s' : St} {p : Nat} {k : Option (List UInt8)} (h : Inv s) (hs : s.e1 p k = .ok s') : Inv s' := by
  have hh : (failTo k).held = false := by cases k <;> rfl
  have ho : ∀ k', failTo k ≠ .olock k' := by cases k <;> simp [failTo]
  unfold St.e1 at hs
  split at hs
  · cases hs; exact to_inv h (by simp [hh]) ho
  · split at hs
    · cases hs
    next s1 hc => cases hs; exact close_inv h hc hh ho

theorem to_procs (s : St) (p x : Nat) (pc : Pc) :
    (s.to p pc).procs x = if x = p then (s.procs p).goto pc else s.procs x := rfl

theorem step_inv {s s' : St} {e : Ev} (h : Inv s) (hs : step s e = some (.ok s')) : Inv s' := by
  cases e with
  | ctor p => simp only [step] at hs; split at hs <;> cases hs; exact to_inv h (by simp [Pc.held]) (by simp)
  | begin p w => simp only [step] at hs; split at hs <;> cases hs; exact to_inv h (by simp [Pc.held]) (by simp)
  | stat p ok =>
    simp only [step] at hs
    (repeat' split at hs) <;> cases hs <;> exact to_inv h (by simp [Pc.held]) (by simp)
  | close p =>
    simp only [step] at hs
    split at hs
    next k hk =>
      simp only [Option.some.injEq] at hs
      unfold doClose at hs
      split at hs
      · cases hs; exact to_inv h (by simp [Pc.held]) (by simp)
      · split at hs
        · cases hs
        next s1 hc => cases hs; exact close_inv h hc rfl (by simp)
    · cases hs
  | «open» p r =>
    simp only [step] at hs
    split at hs
    next k hk =>
      rw [Option.map_eq_some_iff] at hs
      obtain ⟨s1, h1, h2⟩ := hs
      cases h2
      have hh : (failTo k).held = false := by cases k <;> rfl
      have ho : ∀ k', failTo k ≠ .olock k' := by cases k <;> simp [failTo]
      unfold doOpen at h1
      split at h1
      · cases h1
        exact setP_inv h (h.tbl p) (fun hc => by rw [hh] at hc; cases hc) (fun k' hc => absurd hc (ho k'))
      next n =>
        split at h1
        · split at h1
          next i hi =>
            cases h1
            refine setP_inv h ?_ (fun hc => by cases hc) (fun k' _ => ⟨i, 0, n, rfl, if_pos rfl⟩)
            intro m j o hm
            simp only [Proc.bind] at hm
            split at hm
            · cases hm; exact h.name _ hi
            · exact h.tbl p m j o hm
          · cases h1
            have h' : Inv { s with files := s.files ++ [[]], name := some s.files.length } := by
              refine ⟨by simp, ?_, h.held, h.olock, h.excl⟩
              intro p n i o ht; have := h.tbl p n i o ht; simp; omega
            refine setP_inv h' ?_ (fun hc => by cases hc) (fun k' _ => ⟨s.files.length, 0, n, rfl, if_pos rfl⟩)
            intro m j o hm
            simp only [Proc.bind] at hm
            split at hm
            · cases hm; simp
            · exact h'.tbl p m j o hm
        · cases h1
    · cases hs
  | olock p ok =>
    simp only [step] at hs
    split at hs
    next k hk =>
      unfold doOlock at hs
      split at hs
      · cases hs
      · simp only [Option.some.injEq] at hs; exact e1_inv h hs
      next n i o hf =>
        obtain ⟨hf1, hf2⟩ := file_some hf
        split at hs
        · split at hs
          · cases hs
          next hb =>
            simp only at hs
            split at hs
            · simp only [Option.some.injEq] at hs; exact e1_inv (lock_inv h (by simpa using hb)) hs
            · cases hs; exact locked_inv h (by simpa using hb) ⟨n, hf1, hf2⟩ (by simp)
        · simp only [Option.some.injEq] at hs; exact e1_inv h hs
    · cases hs
  | ofstat p ok =>
    simp only [step] at hs
    split at hs
    next k pos hk =>
      simp only [Option.some.injEq] at hs
      unfold doOfstat at hs
      split at hs
      · cases hs
      · exact e1_inv h hs
      next n i o hf =>
        split at hs
        · cases hs
          refine setP_inv h (h.tbl p) (fun _ => h.held p (by rw [hk]; rfl)) ?_
          intro k' hc
          simp only at hc
          split at hc <;> cases hc
        · exact e1_inv h hs
    · cases hs
  | head p r =>
    simp only [step] at hs
    split at hs
    next k pos hk =>
      have hp : (s.procs p).pc.held = true := by rw [hk]; rfl
      unfold doHead at hs
      split at hs
      · cases hs
      · cases hs; exact to_inv h (fun _ => hp) (by simp)
      next n i o hf =>
        obtain ⟨hf1, hf2⟩ := file_some hf
        have hap : ∀ w, ((s.append p n i w).procs p).pc.held = true := by
          intro w; simp [St.append, St.setP, Proc.bind, hk, Pc.held]
        split at hs
        · cases hs; exact to_inv (append_inv h hf1 hf2) (fun _ => hap _) (by simp)
        · split at hs <;> cases hs
          exact to_inv (append_inv h hf1 hf2) (fun _ => hap _) (by simp)
        · cases hs; exact to_inv h (fun _ => hp) (by simp)
    · cases hs
  | ounlock p =>
    simp only [step] at hs
    split at hs
    next k pos g hk =>
      simp only [Option.some.injEq] at hs
      cases hu : unlockf s p pos with
      | error f => rw [hu] at hs; cases hs
      | ok s1 =>
        rw [hu] at hs; cases hs
        refine unlock_inv h hu ?_ ?_ <;> cases g <;> cases k <;> simp [goodTo, failTo, Pc.held]
    · cases hs
  | lock p ok =>
    simp only [step] at hs
    split at hs
    next w hk =>
      unfold doLock at hs
      split at hs
      · cases hs
      · cases hs; exact to_inv h (by simp [Pc.held]) (by simp)
      next n i o hf =>
        obtain ⟨hf1, hf2⟩ := file_some hf
        split at hs
        · split at hs
          · cases hs
          next hb =>
            simp only at hs
            split at hs
            · cases hs; exact to_inv (lock_inv h (by simpa using hb)) (by simp [Pc.held]) (by simp)
            · cases hs; exact locked_inv h (by simpa using hb) ⟨n, hf1, hf2⟩ (by simp)
        · cases hs; exact to_inv h (by simp [Pc.held]) (by simp)
    · cases hs
  | write p r =>
    simp only [step] at hs
    split at hs
    next w pos hk =>
      have hp : (s.procs p).pc.held = true := by rw [hk]; rfl
      unfold doWrite at hs
      split at hs
      · cases hs
      · cases hs; exact to_inv h (fun _ => hp) (by simp)
      next n i o hf =>
        obtain ⟨hf1, hf2⟩ := file_some hf
        have hap : ∀ w, ((s.append p n i w).procs p).pc.held = true := by
          intro w; simp [St.append, St.setP, Proc.bind, hk, Pc.held]
        split at hs
        · cases hs; exact to_inv (append_inv h hf1 hf2) (fun _ => hap _) (by simp)
        · split at hs <;> cases hs
          exact to_inv (append_inv h hf1 hf2) (fun _ => hap _) (by simp)
        · cases hs; exact to_inv h (fun _ => hp) (by simp)
    · cases hs
  | unlock p =>
    simp only [step] at hs
    split at hs
    next pos hk =>
      simp only [Option.some.injEq] at hs
      cases hu : unlockf s p pos with
      | error f => rw [hu] at hs; cases hs
      | ok s1 => rw [hu] at hs; cases hs; exact unlock_inv h hu rfl (by simp)
    · cases hs
  | dtor p =>
    simp only [step] at hs
    split at hs
    · simp only [Option.some.injEq] at hs
      unfold doDtor at hs
      split at hs
      · cases hs; exact to_inv h (by simp [Pc.held]) (by simp)
      · split at hs
        · cases hs
        next s1 hc => cases hs; exact close_inv h hc rfl (by simp)
    · cases hs
  | die p =>
    cases hs
    have h' : Inv { s.setP p ⟨none, none, fun _ => none, .dead⟩ with locks := s.locks } :=
      setP_inv h (by simp) (fun hc => by cases hc) (by simp)
    refine ⟨h'.name, h'.tbl, ?_, h'.olock, ?_⟩
    · intro q hq
      obtain ⟨i, o, ha, l, hl, hx⟩ := h'.held q hq
      refine ⟨i, o, ha, l, ?_, hx⟩
      rw [List.mem_filter]
      refine ⟨hl, ?_⟩
      have : q ≠ p := by
        intro hc; subst hc; simp [St.setP, Pc.held] at hq
      simp [hx.2.1, this]
    · intro l hl l' hl'
      exact h.excl l (List.mem_filter.mp hl).1 l' (List.mem_filter.mp hl').1
  | fopen p n =>
    simp only [step] at hs
    split at hs
    next hn =>
      cases hs
      have key : ∀ i o, (s.procs p).at i o → ((s.procs p).bind n (some .other)).at i o := by
        rintro i o ⟨m, h1, h2⟩
        refine ⟨m, h1, ?_⟩
        have : m ≠ n := by intro hc; subst hc; rw [hn] at h2; cases h2
        simp [Proc.bind, this, h2]
      refine setP_inv h ?_ ?_ ?_
      · intro m i o hm
        simp only [Proc.bind] at hm
        split at hm
        · cases hm
        · exact h.tbl p m i o hm
      · intro hc
        obtain ⟨i, o, ha, hl⟩ := h.held p hc
        exact ⟨i, o, key i o ha, hl⟩
      · intro k hc
        obtain ⟨i, o, ha⟩ := h.olock p k hc
        exact ⟨i, o, key i o ha⟩
    · cases hs
  | fclose p n =>
    simp only [step] at hs
    split at hs
    next hn =>
      cases hs
      have key : ∀ i o, (s.procs p).at i o → ((s.procs p).bind n none).at i o := by
        rintro i o ⟨m, h1, h2⟩
        refine ⟨m, h1, ?_⟩
        have : m ≠ n := by intro hc; subst hc; rw [hn] at h2; cases h2
        simp [Proc.bind, this, h2]
      refine setP_inv h ?_ ?_ ?_
      · intro m i o hm
        simp only [Proc.bind] at hm
        split at hm
        · cases hm
        · exact h.tbl p m i o hm
      · intro hc
        obtain ⟨i, o, ha, hl⟩ := h.held p hc
        exact ⟨i, o, key i o ha, hl⟩
      · intro k hc
        obtain ⟨i, o, ha⟩ := h.olock p k hc
        exact ⟨i, o, key i o ha⟩
    · cases hs
  | unlink => cases hs; exact ⟨by simp, h.tbl, h.held, h.olock, h.excl⟩
  | mkfile =>
    cases hs
    refine ⟨by simp, ?_, h.held, h.olock, h.excl⟩
    intro p n i o ht; have := h.tbl p n i o ht; simp; omega
  | relink i => simp only [step] at hs; split at hs <;> cases hs; exact ⟨by grind, h.tbl, h.held, h.olock, h.excl⟩
  | trunc i =>
    simp only [step] at hs; split at hs <;> cases hs
    exact ⟨by simpa using h.name, by simpa using h.tbl, h.held, h.olock, h.excl⟩

end Verif.Acct
