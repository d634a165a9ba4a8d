import Verif.Copy.Install

/-! C66: the media of a copied session. -/

namespace Verif.Copy

variable {W : World} {m : Mgrs}

/-- C66. When copies do not lead back, the way of every packet comes to an end, and how far the stack
reaches makes no difference. -/
theorem C66_terminates_partial {r : Nat → Nat} (h : Acyclic r m) (i o : Strm) (st : Nat) :
    ∃ res, ∀ d, r i.sess < d → handleat W m d i o st = some res := by
  obtain ⟨res, hres⟩ := Option.isSome_iff_exists.mp
    (handleat_some (W := W) h (r i.sess + 1) i o st (by omega))
  exact ⟨res, fun d hd => handleat_le hd hres⟩

/-- C66. Whatever the copies, each reference to the packet is given up once: the packet is not
touched after the last reference is gone, and none is left over. -/
theorem C66_refs {d : Nat} {i o : Strm} {st : Nat} {a : Act} {l : List Ev}
    (h : handleat W m d i o st = some (a, l)) : refs 1 l = some 0 :=
  handleat_refs h 0

/-- C66. A packet that comes in on a stream of the source and is not stopped by a processor of the
order of `PPROC_ORD_WITNESS` or lower is handled in the target session as well, once, as if it had
come in behind the processors of order `PPROC_ORD_PLAY`, and in the source session exactly as
without the copy. -/
theorem C66_copied_partial {r : Nat → Nat} {x : Cp} (h : x.a ≠ x.b)
    (hr : Acyclic r (installed m x)) {d : Nat} (hd : r x.a < d) (i j : Bool) (o : Strm) {st : Nat}
    (hst : st ≤ 8)
    (hp : ∀ p ∈ m ⟨x.a, i, x.s ^^ j⟩, st ≤ p.order → p.order ≤ 8 →
      ¬ Stops W ⟨x.a, i, x.s ^^ j⟩ p) :
    ∃ a e1 e2 aB eB,
      handleat W m d ⟨x.a, i, x.s ^^ j⟩ o st = some (a, e1 ++ e2) ∧
      handleat W m d ⟨x.b, i, x.t ^^ !j⟩ ⟨x.b, i, x.t ^^ j⟩ 8 = some (aB, eB) ∧
      handleat W (installed m x) d ⟨x.a, i, x.s ^^ j⟩ o st =
        some (a, e1 ++ (.copied ⟨x.b, i, x.t ^^ !j⟩ :: eB) ++ e2) := by
  have hrm := acyclic_of_inst h hr
  have hba : r x.b < r x.a := by
    have := hr ⟨x.a, i, x.s ^^ j⟩ (x.tee i j)
      (by rw [inst_src h]; exact mem_ins.mpr (.inl rfl)) _ _ rfl
    exact this
  cases d with
  | zero => omega
  | succ d =>
  generalize hsrc : (⟨x.a, i, x.s ^^ j⟩ : Strm) = src at *
  have hsess : src.sess = x.a := by rw [← hsrc]
  have hinst : installed m x src = ins (x.tee i j) (m src) := by rw [← hsrc]; exact inst_src h i j
  let f := fun ti to => (handleat W m d ti to (ordPlay + 1)).map (·.2)
  have hfg : ∀ l : List Proc, (∀ p ∈ l, p ∈ installed m x src) →
      loop (fun ti to => (handleat W (installed m x) d ti to (ordPlay + 1)).map (·.2)) W src o st l =
      loop f W src o st l := by
    intro l hl
    apply loop_congr
    intro p hp ti to hk
    have := hr src p (hl p hp) ti to hk
    show Option.map _ (handleat W (installed m x) d ti to 8) = Option.map _ (handleat W m d ti to 8)
    rw [same h hr d ti to (by rw [← hsess]; exact this)]
  have hsome : ∀ p ∈ m src, ∀ ti to, p.kind = .copy ti to → (f ti to).isSome := by
    intro p hp ti to hk
    have := hrm src p hp ti to hk
    rw [hsess] at this
    simp only [f, Option.isSome_map]
    exact handleat_some hrm d ti to _ (by omega)
  obtain ⟨l1, l2, hl, hi, h1, h2⟩ := ins_split (x.tee i j) (m src)
  have hin1 : ∀ p ∈ l1, p ∈ m src := fun p hp => by rw [hl]; exact List.mem_append_left _ hp
  obtain ⟨e1, he1⟩ := loop_pass (W := W) (f := f) (i := src) (o := o) (st := st) l1
    (by
      intro q hq hc
      apply hp q (hin1 q hq)
      · by_cases h0 : 0 < st
        · exact Nat.le_of_not_lt (fun hlt => hc ⟨h0, hlt⟩)
        · omega
      · exact h1 q hq)
    (fun q hq => hsome q (hin1 q hq))
  obtain ⟨⟨a, e2⟩, h2'⟩ := Option.isSome_iff_exists.mp (loop_some (W := W) (f := f) (i := src) (o := o)
    (st := st) (l := l2) (fun p hp => hsome p (by rw [hl]; exact List.mem_append_right _ hp)))
  obtain ⟨⟨aB, eB⟩, hB⟩ := Option.isSome_iff_exists.mp (handleat_some (W := W) hrm d
    ⟨x.b, i, x.t ^^ !j⟩ ⟨x.b, i, x.t ^^ j⟩ 8 (by show r x.b < d; omega))
  have hm : loop f W src o st (m src) = some (a, e1 ++ e2) := by
    rw [hl, he1, h2']; rfl
  have hm' : loop f W src o st (installed m x src) =
      some (a, e1 ++ (.copied ⟨x.b, i, x.t ^^ !j⟩ :: (eB ++ e2))) := by
    rw [hinst, hi, he1, loop, if_neg (by simp [Cp.tee]; omega)]
    have hf : f ⟨x.b, i, x.t ^^ !j⟩ ⟨x.b, i, x.t ^^ j⟩ = some eB := by
      show Option.map _ (handleat W m d _ _ 8) = _
      rw [hB]; rfl
    simp only [Cp.tee, hf, h2', Option.map_some]
  have hB' := handleat_succ hB
  have e : ∀ y, installed m x src = y → handleat W (installed m x) (d + 1) src o st =
      (match loop f W src o st y with
        | none => none
        | some (.take, l) => some (.take, l)
        | some (a, l) => some (a, l ++ [.freed src])) := by
    intro y hy
    rw [handleat, hfg _ (fun p hp => hp), hy]
    rfl
  have em : handleat W m (d + 1) src o st =
      (match loop f W src o st (m src) with
        | none => none
        | some (.take, l) => some (.take, l)
        | some (a, l) => some (a, l ++ [.freed src])) := rfl
  rw [e _ rfl, em, hm, hm']
  cases a with
  | take => exact ⟨.take, e1, e2, aB, eB, rfl, hB', by simp⟩
  | pass => exact ⟨.pass, e1, e2 ++ [.freed src], aB, eB, by simp, hB', by simp⟩
  | drop => exact ⟨.drop, e1, e2 ++ [.freed src], aB, eB, by simp, hB', by simp⟩

/-- C66. A packet stopped earlier than that is not copied. -/
theorem C66_early_partial {r : Nat → Nat} {x : Cp} (h : x.a ≠ x.b) (hs : Sorted m)
    (hr : Acyclic r (installed m x)) (d : Nat) (i j : Bool) (o : Strm) {st : Nat} {p : Proc}
    (hp : p ∈ m ⟨x.a, i, x.s ^^ j⟩) (h1 : st ≤ p.order) (h2 : p.order ≤ 8)
    (h3 : Stops W ⟨x.a, i, x.s ^^ j⟩ p) :
    handleat W (installed m x) d ⟨x.a, i, x.s ^^ j⟩ o st =
      handleat W m d ⟨x.a, i, x.s ^^ j⟩ o st := by
  cases d with
  | zero => rfl
  | succ d =>
  generalize hsrc : (⟨x.a, i, x.s ^^ j⟩ : Strm) = src at *
  have hsess : src.sess = x.a := by rw [← hsrc]
  have hinst : installed m x src = ins (x.tee i j) (m src) := by rw [← hsrc]; exact inst_src h i j
  obtain ⟨l1, l2, hl, hi, hl1, hl2⟩ := ins_split (x.tee i j) (m src)
  have hp1 : p ∈ l1 := by
    rw [hl] at hp
    rcases List.mem_append.mp hp with q | q
    · exact q
    · exfalso
      have hso := hs src
      rw [hl] at hso
      have hso := (List.pairwise_append.mp hso).2.1
      cases l2 with
      | nil => cases q
      | cons q0 l3 =>
        have hlt : 8 < q0.order := hl2 q0 l3 rfl
        rcases List.mem_cons.mp q with e | e
        · subst e; omega
        · have := (List.pairwise_cons.mp hso).1 p e
          omega
  obtain ⟨la, lb, hla⟩ := List.append_of_mem hp1
  rw [handleat, handleat, hinst, hi, hl, hla, List.append_assoc, List.append_assoc, List.cons_append,
    List.cons_append,
    loop_tail (ps := lb ++ x.tee i j :: l2) (qs := lb ++ l2) (by omega) h3 la]
  have : loop (fun ti to => (handleat W (installed m x) d ti to (ordPlay + 1)).map (·.2)) W src o st
      (la ++ p :: (lb ++ l2)) =
      loop (fun ti to => (handleat W m d ti to (ordPlay + 1)).map (·.2)) W src o st
      (la ++ p :: (lb ++ l2)) := by
    apply loop_congr
    intro q hq ti to hk
    have hq' : q ∈ installed m x src := by
      rw [hinst]
      refine mem_ins.mpr (.inr ?_)
      rw [hl, hla]
      simpa using hq
    have := hr src q hq' ti to hk
    show Option.map _ (handleat W (installed m x) d ti to 8) = Option.map _ (handleat W m d ti to 8)
    rw [same h hr d ti to (by rw [← hsess]; exact this)]
  rw [this]

/-- C66. A packet handled in the target leaves through the stream of the target, if nothing there
stops it and there is an address to send it to. -/
theorem C66_heard {d : Nat} (i o : Strm) {l1 l2 : List Proc} {p : Proc} (hm : m i = l1 ++ p :: l2)
    (hk : p.kind = .relay) (hord : 8 ≤ p.order) (hsnd : W.snd o = true)
    (h1 : ∀ q ∈ l1, 8 ≤ q.order → ¬ Stops W i q ∧ ∀ ti to, q.kind ≠ .copy ti to) :
    ∃ e, handleat W m (d + 1) i o 8 = some (.take, e ++ [.sent o]) := by
  have hskip := loop_skip (W := W) (f := fun ti to => (handleat W m d ti to (ordPlay + 1)).map (·.2))
    (i := i) (o := o) (st := 8) (by omega) (l := m i)
  rw [hm, List.filter_append, List.filter_cons, if_pos (by simpa using hord)] at hskip
  obtain ⟨e1, he1⟩ := loop_pass (W := W)
    (f := fun ti to => (handleat W m d ti to (ordPlay + 1)).map (·.2)) (i := i) (o := o) (st := 8)
    (l1.filter (fun p => decide (8 ≤ p.order)))
    (by
      intro q hq _
      obtain ⟨hq1, hq2⟩ := List.mem_filter.mp hq
      exact (h1 q hq1 (by simpa using hq2)).1)
    (by
      intro q hq ti to hc
      obtain ⟨hq1, hq2⟩ := List.mem_filter.mp hq
      exact absurd hc ((h1 q hq1 (by simpa using hq2)).2 ti to))
  refine ⟨e1, ?_⟩
  rw [handleat, hm, hskip, he1, loop, if_neg (by omega)]
  simp [hk, hsnd]

/-- C66. What the parties of the target send goes nowhere: it is not relayed, not copied, and not
seen by any processor behind those of order `PPROC_ORD_PLAY`. -/
theorem C66_silenced {x : Cp} (h : x.a ≠ x.b) (hl : Late m) {d : Nat} (i j : Bool) (o : Strm)
    {a : Act} {l : List Ev}
    (hh : handleat W (installed m x) d ⟨x.b, i, x.t ^^ j⟩ o 0 = some (a, l)) :
    ∀ e ∈ l, e = .freed ⟨x.b, i, x.t ^^ j⟩ ∨ e = .kept ⟨x.b, i, x.t ^^ j⟩ ∨
      ∃ n p, e = .seen n ⟨x.b, i, x.t ^^ j⟩ ∧ p ∈ m ⟨x.b, i, x.t ^^ j⟩ ∧ p.kind = .other n ∧
        p.order ≤ 7 := by
  generalize htgt : (⟨x.b, i, x.t ^^ j⟩ : Strm) = tgt at *
  have hinst : installed m x tgt = ins (x.gag i j) (m tgt) := by rw [← htgt]; exact inst_tgt h i j
  cases d with
  | zero => cases hh
  | succ d =>
  rw [handleat, hinst] at hh
  obtain ⟨l1, l2, hm, hi, h1, _⟩ := ins_split (x.gag i j) (m tgt)
  have hin : ∀ p ∈ l1, p ∈ m tgt := fun p hp => by rw [hm]; exact List.mem_append_left _ hp
  rw [hi] at hh
  have key : ∀ (l1 : List Proc), (∀ p ∈ l1, p ∈ m tgt ∧ p.order ≤ 7) → ∀ a l,
      loop (fun ti to => (handleat W (installed m x) d ti to (ordPlay + 1)).map (·.2)) W tgt o 0
        (l1 ++ x.gag i j :: l2) = some (a, l) →
      ∀ e ∈ l, e = .kept tgt ∨
        ∃ n p, e = .seen n tgt ∧ p ∈ m tgt ∧ p.kind = .other n ∧ p.order ≤ 7 := by
    intro l1
    induction l1 with
    | nil =>
      intro _ a l hloop
      rw [List.nil_append, loop, if_neg (by omega)] at hloop
      simp only [Cp.gag, Option.some.injEq, Prod.mk.injEq] at hloop
      rw [← hloop.2]
      intro e he; cases he
    | cons q l1 ih =>
      intro hq a l hloop
      have ih := ih (fun p hp => hq p (List.mem_cons_of_mem _ hp))
      obtain ⟨hqm, hqo⟩ := hq q (List.mem_cons_self ..)
      rw [List.cons_append, loop, if_neg (by omega)] at hloop
      cases hk : q.kind with
      | copy b c =>
        have := hl tgt q hqm (.inr ⟨b, c, hk⟩)
        simp only [ordPlay] at this
        omega
      | relay =>
        have := hl tgt q hqm (.inl hk)
        simp only [ordPlay] at this
        omega
      | stop =>
        simp only [hk, Option.some.injEq, Prod.mk.injEq] at hloop
        rw [← hloop.2]
        intro e he; cases he
      | other n =>
        have hn : ∀ e, e = Ev.seen n tgt → e = .kept tgt ∨
            ∃ n p, e = .seen n tgt ∧ p ∈ m tgt ∧ p.kind = .other n ∧ p.order ≤ 7 :=
          fun e he => .inr ⟨n, q, he, hqm, hk, hqo⟩
        simp only [hk] at hloop
        split at hloop
        · split at hloop
          · cases hloop
          · rename_i a' l' hl'
            simp only [Option.some.injEq, Prod.mk.injEq] at hloop
            rw [← hloop.2]
            intro e he
            rcases List.mem_cons.mp he with q | q
            · exact hn e q
            · exact ih _ _ hl' e q
        · simp only [Option.some.injEq, Prod.mk.injEq] at hloop
          rw [← hloop.2]
          intro e he
          rcases List.mem_cons.mp he with q | q
          · exact hn e q
          · left; simpa using q
        · simp only [Option.some.injEq, Prod.mk.injEq] at hloop
          rw [← hloop.2]
          intro e he
          exact hn e (by simpa using he)
  have key := key l1 (fun p hp => ⟨hin p hp, h1 p hp⟩)
  split at hh
  · cases hh
  · rename_i l' hl'
    simp only [Option.some.injEq, Prod.mk.injEq] at hh
    rw [← hh.2]
    exact fun e he => .inr (key _ _ hl' e he)
  · rename_i a' l' _ hl'
    simp only [Option.some.injEq, Prod.mk.injEq] at hh
    rw [← hh.2]
    intro e he
    rcases List.mem_append.mp he with q | q
    · exact .inr (key _ _ hl' e q)
    · left; simpa using q

/-- C66. Where copies lead back, the way of the packet has no end: no stack is deep enough. -/
theorem C66_cycle {S : Strm → Prop}
    (h : ∀ y, S y → ∃ l1 p l2 i o, m y = l1 ++ p :: l2 ∧ p.kind = .copy i o ∧ S i ∧ 8 ≤ p.order ∧
      ∀ q ∈ l1, ¬ Stops W y q) (d : Nat) :
    ∀ (y o : Strm) (st : Nat), S y → st ≤ 8 → handleat W m d y o st = none := by
  induction d with
  | zero => intros; rfl
  | succ d ih =>
    intro y o st hy hst
    obtain ⟨l1, p, l2, ti, to, hm, hk, hS, hpo, hl1⟩ := h y hy
    have key : ∀ l1 : List Proc, (∀ q ∈ l1, ¬ Stops W y q) →
        loop (fun ti to => (handleat W m d ti to (ordPlay + 1)).map (·.2)) W y o st (l1 ++ p :: l2) =
          none := by
      intro l1
      induction l1 with
      | nil =>
        intro _
        rw [List.nil_append, loop, if_neg (by omega)]
        have : handleat W m d ti to (ordPlay + 1) = none := ih ti to 8 hS (Nat.le_refl _)
        simp [hk, this]
      | cons q l1 ih' =>
        intro hq
        have ih' := ih' (fun q' hq' => hq q' (List.mem_cons_of_mem _ hq'))
        have h0 := hq q (List.mem_cons_self ..)
        rw [List.cons_append, loop, ih']
        split
        · rfl
        · unfold Stops at h0
          cases hkq : q.kind with
          | copy b c =>
            simp only
            split <;> rfl
          | stop => rw [hkq] at h0; exact absurd trivial h0
          | relay => rw [hkq] at h0; exact absurd trivial h0
          | other n =>
            rw [hkq] at h0
            simp only
            split
            · rfl
            · rename_i ho; exact absurd (by simp [ho]) h0
            · rename_i ho; exact absurd (by simp [ho]) h0
    rw [handleat, hm, key l1 hl1]

end Verif.Copy
