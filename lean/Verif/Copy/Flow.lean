import Verif.Copy.Spec

/-! The way of a packet. -/

namespace Verif.Copy

variable {W : World} {m m' : Mgrs}

theorem loop_congr {f g : Strm → Strm → Option (List Ev)} {i o : Strm} {st : Nat} :
    ∀ {l : List Proc}, (∀ p ∈ l, ∀ ti to, p.kind = .copy ti to → f ti to = g ti to) →
      loop f W i o st l = loop g W i o st l
  | [], _ => rfl
  | p :: ps, h => by
    have ih := loop_congr (i := i) (o := o) (st := st) (l := ps)
      (fun q hq => h q (List.mem_cons_of_mem _ hq))
    have h0 := h p (List.mem_cons_self ..)
    simp only [loop, ih]
    split
    · rfl
    · split
      · rename_i ti to hk
        rw [h0 _ _ hk]
      · rfl
      · rfl
      · rfl

theorem loop_skip {f : Strm → Strm → Option (List Ev)} {i o : Strm} {st : Nat} (hst : 0 < st) :
    ∀ {l : List Proc}, loop f W i o st l = loop f W i o st (l.filter (fun p => decide (st ≤ p.order)))
  | [] => rfl
  | p :: ps => by
    have ih := loop_skip (f := f) (i := i) (o := o) hst (l := ps)
    rw [List.filter_cons]
    by_cases h : p.order < st
    · rw [if_neg (by simp; omega), ← ih, loop, if_pos ⟨hst, h⟩]
    · rw [if_pos (by simp; omega), loop, loop, ih]

theorem handleat_congr {i o : Strm} {st : Nat} {d : Nat} (hst : 0 < st)
    (hl : (m i).filter (fun p => decide (st ≤ p.order)) =
      (m' i).filter (fun p => decide (st ≤ p.order)))
    (hr : ∀ p ∈ m i, ∀ ti to, p.kind = .copy ti to →
      handleat W m d ti to 8 = handleat W m' d ti to 8) :
    handleat W m (d + 1) i o st = handleat W m' (d + 1) i o st := by
  have : loop (fun ti to => (handleat W m d ti to (ordPlay + 1)).map (·.2)) W i o st (m i) =
      loop (fun ti to => (handleat W m' d ti to (ordPlay + 1)).map (·.2)) W i o st (m' i) := by
    rw [loop_skip hst, loop_skip hst (l := m' i), ← hl]
    apply loop_congr
    intro p hp ti to hk
    show Option.map _ (handleat W m d ti to 8) = _
    rw [hr p (List.mem_filter.mp hp).1 ti to hk]
    rfl
  rw [handleat, handleat, this]

theorem loop_some {f : Strm → Strm → Option (List Ev)} {i o : Strm} {st : Nat} :
    ∀ {l : List Proc}, (∀ p ∈ l, ∀ ti to, p.kind = .copy ti to → (f ti to).isSome) →
      (loop f W i o st l).isSome
  | [], _ => rfl
  | p :: ps, h => by
    obtain ⟨⟨a, l'⟩, ih⟩ := Option.isSome_iff_exists.mp (loop_some (i := i) (o := o) (st := st)
      (l := ps) (fun q hq => h q (List.mem_cons_of_mem _ hq)))
    have h0 := h p (List.mem_cons_self ..)
    simp only [loop, ih]
    split
    · rfl
    · split
      · rename_i ti to hk
        obtain ⟨l, hl⟩ := Option.isSome_iff_exists.mp (h0 _ _ hk)
        rw [hl]; rfl
      · rfl
      · split <;> rfl
      · split <;> rfl

theorem handleat_some {r : Nat → Nat} (h : Acyclic r m) :
    ∀ (d : Nat) (i o : Strm) (st : Nat), r i.sess < d → (handleat W m d i o st).isSome
  | 0, _, _, _, h => absurd h (Nat.not_lt_zero _)
  | d + 1, i, o, st, hd => by
    have hl := loop_some (f := fun ti to => (handleat W m d ti to (ordPlay + 1)).map (·.2)) (W := W)
      (i := i) (o := o) (st := st) (l := m i) (by
        intro p hp ti to hk
        have := h i p hp ti to hk
        simp only [Option.isSome_map]
        exact handleat_some h d ti to _ (by omega))
    obtain ⟨⟨a, l⟩, hl⟩ := Option.isSome_iff_exists.mp hl
    rw [handleat, hl]
    cases a <;> rfl

theorem loop_mono {f g : Strm → Strm → Option (List Ev)} {i o : Strm} {st : Nat}
    (hfg : ∀ a b l, f a b = some l → g a b = some l) :
    ∀ {l : List Proc} {r : Act × List Ev}, loop f W i o st l = some r → loop g W i o st l = some r
  | [], _, h => h
  | p :: ps, r, h => by
    have ih := fun r => loop_mono (i := i) (o := o) (st := st) hfg (l := ps) (r := r)
    rw [loop] at h ⊢
    split at h
    · rename_i hc; rw [if_pos hc]; exact ih _ h
    · rename_i hc
      rw [if_neg hc]
      split at h
      · split at h
        · cases h
        · rename_i l hl
          split at h
          · cases h
          · rename_i a l' hl'
            rw [hfg _ _ _ hl]
            simp only [ih _ hl']
            exact h
      · exact h
      · exact h
      · split at h
        · split at h
          · cases h
          · rename_i a l' hl'
            simp only [ih _ hl']
            exact h
        · exact h
        · exact h

theorem handleat_succ : ∀ {d : Nat} {i o : Strm} {st : Nat} {r : Act × List Ev},
    handleat W m d i o st = some r → handleat W m (d + 1) i o st = some r
  | 0, _, _, _, _, h => by cases h
  | d + 1, i, o, st, r, h => by
    rw [handleat] at h ⊢
    have up : ∀ {r}, loop (fun ti to => (handleat W m d ti to (ordPlay + 1)).map (·.2)) W i o st (m i) =
        some r →
        loop (fun ti to => (handleat W m (d + 1) ti to (ordPlay + 1)).map (·.2)) W i o st (m i) =
        some r := by
      intro r hl
      refine loop_mono ?_ hl
      intro a b l hq
      simp only [Option.map_eq_some_iff] at hq ⊢
      obtain ⟨r, hr, hl⟩ := hq
      exact ⟨r, handleat_succ hr, hl⟩
    split at h
    · cases h
    · rename_i hl
      rw [up hl]
      exact h
    · rename_i a l hn hl
      rw [up hl]
      cases a with
      | take => exact absurd rfl hn
      | pass => exact h
      | drop => exact h

theorem handleat_le {d e : Nat} (hde : d ≤ e) {i o : Strm} {st : Nat} {r : Act × List Ev}
    (h : handleat W m d i o st = some r) : handleat W m e i o st = some r := by
  induction hde with
  | refl => exact h
  | step _ ih => exact handleat_succ ih

/-! References. -/

theorem refs_append : ∀ {n k : Nat} {l l' : List Ev}, refs n l = some k →
    refs n (l ++ l') = refs k l'
  | n, k, [], l', h => by simp only [refs, Option.some.injEq] at h; rw [h]; rfl
  | 0, k, e :: l, l', h => by cases h
  | n + 1, k, e :: l, l', h => by
    rw [List.cons_append]
    cases e <;> exact refs_append (l := l) h

theorem loop_refs {f : Strm → Strm → Option (List Ev)} {i o : Strm} {st : Nat}
    (hf : ∀ a b l, f a b = some l → ∀ k, refs (k + 1) l = some k) :
    ∀ {ps : List Proc} {a : Act} {l : List Ev}, loop f W i o st ps = some (a, l) →
      ∀ k, refs (k + 1) l = some (if a = .take then k else k + 1)
  | [], a, l, h, k => by
    simp only [loop, Option.some.injEq, Prod.mk.injEq] at h
    obtain ⟨rfl, rfl⟩ := h
    rfl
  | p :: ps, a, l, h, k => by
    have ih := fun a l => loop_refs (i := i) (o := o) (st := st) hf (ps := ps) (a := a) (l := l)
    rw [loop] at h
    split at h
    · exact ih _ _ h k
    · split at h
      · split at h
        · cases h
        · rename_i l1 hl1
          split at h
          · cases h
          · rename_i a' l' hl'
            simp only [Option.some.injEq, Prod.mk.injEq] at h
            obtain ⟨rfl, rfl⟩ := h
            show refs (k + 2) (l1 ++ l') = _
            rw [refs_append (hf _ _ _ hl1 (k + 1))]
            exact ih _ _ hl' k
      · cases h; rfl
      · split at h <;> cases h <;> rfl
      · split at h
        · split at h
          · cases h
          · rename_i a' l' hl'
            simp only [Option.some.injEq, Prod.mk.injEq] at h
            obtain ⟨rfl, rfl⟩ := h
            exact ih _ _ hl' k
        · cases h; rfl
        · cases h; rfl

theorem handleat_refs : ∀ {d : Nat} {i o : Strm} {st : Nat} {a : Act} {l : List Ev},
    handleat W m d i o st = some (a, l) → ∀ k, refs (k + 1) l = some k
  | 0, _, _, _, _, _, h => by cases h
  | d + 1, i, o, st, a, l, h => by
    intro k
    rw [handleat] at h
    have key := fun a l => loop_refs (W := W) (i := i) (o := o) (st := st)
      (f := fun ti to => (handleat W m d ti to (ordPlay + 1)).map (·.2)) (ps := m i) (a := a) (l := l)
      (by
        intro a b l hq
        simp only [Option.map_eq_some_iff] at hq
        obtain ⟨⟨a', l'⟩, hr, rfl⟩ := hq
        exact handleat_refs hr)
    split at h
    · cases h
    · rename_i l' hl
      cases h
      have := key _ _ hl k
      simpa using this
    · rename_i a' l' hn hl
      cases h
      have := key _ _ hl k
      have hnt : a ≠ .take := fun e => hn e
      rw [if_neg hnt] at this
      rw [refs_append this]
      rfl

/-! A processor put into the list. -/

theorem stops_loop {f : Strm → Strm → Option (List Ev)} {i o : Strm} {st : Nat} {p : Proc}
    (hp : ¬ (0 < st ∧ p.order < st)) (hs : Stops W i p) (ps qs : List Proc) :
    loop f W i o st (p :: ps) = loop f W i o st (p :: qs) := by
  unfold Stops at hs
  rw [loop, loop, if_neg hp, if_neg hp]
  cases hk : p.kind with
  | copy a b => rw [hk] at hs; exact absurd hs id
  | stop => rfl
  | relay => rfl
  | other n =>
    rw [hk] at hs
    simp only
    cases ho : W.oth n i with
    | pass => exact absurd ho hs
    | take => rfl
    | drop => rfl

/-- The loop over a list with something behind a processor that stops the packet. -/
theorem loop_tail {f : Strm → Strm → Option (List Ev)} {i o : Strm} {st : Nat} {p : Proc}
    (hp : ¬ (0 < st ∧ p.order < st)) (hs : Stops W i p) (ps qs : List Proc) :
    ∀ l1 : List Proc, loop f W i o st (l1 ++ p :: ps) = loop f W i o st (l1 ++ p :: qs)
  | [] => stops_loop hp hs ps qs
  | q :: l1 => by
    rw [List.cons_append, List.cons_append, loop, loop, loop_tail hp hs ps qs l1]

/-- Where a processor is put: behind those of lower or the same order. -/
theorem ins_split (p : Proc) : ∀ l : List Proc, ∃ l1 l2, l = l1 ++ l2 ∧ ins p l = l1 ++ p :: l2 ∧
    (∀ q ∈ l1, q.order ≤ p.order) ∧ (∀ q l3, l2 = q :: l3 → p.order < q.order)
  | [] => ⟨[], [], rfl, rfl, by simp, by simp⟩
  | q :: qs => by
    rw [ins]
    split
    · rename_i h
      exact ⟨[], q :: qs, rfl, rfl, by simp, fun q' l3 e => by cases e; exact h⟩
    · rename_i h
      obtain ⟨l1, l2, h1, h2, h3, h4⟩ := ins_split p qs
      refine ⟨q :: l1, l2, by rw [h1]; rfl, by rw [h2]; rfl, ?_, h4⟩
      intro q' hq
      rcases List.mem_cons.mp hq with e | e
      · subst e; omega
      · exact h3 _ e

/-- The loop over a list that passes the packet on. -/
theorem loop_pass {f : Strm → Strm → Option (List Ev)} {i o : Strm} {st : Nat} :
    ∀ (l1 : List Proc), (∀ q ∈ l1, ¬ (0 < st ∧ q.order < st) → ¬ Stops W i q) →
      (∀ q ∈ l1, ∀ ti to, q.kind = .copy ti to → (f ti to).isSome) →
      ∃ e1, ∀ l2, loop f W i o st (l1 ++ l2) =
        (loop f W i o st l2).map (fun r => (r.1, e1 ++ r.2))
  | [], _, _ => ⟨[], fun l2 => by simp⟩
  | q :: l1, h, hf => by
    obtain ⟨e1, he⟩ := loop_pass l1 (fun q hq => h q (List.mem_cons_of_mem _ hq))
      (fun q hq => hf q (List.mem_cons_of_mem _ hq))
    have h0 := h q (List.mem_cons_self ..)
    have hf0 := hf q (List.mem_cons_self ..)
    by_cases hc : 0 < st ∧ q.order < st
    · refine ⟨e1, fun l2 => ?_⟩
      rw [List.cons_append, loop, if_pos hc, he]
    · have h0 := h0 hc
      unfold Stops at h0
      cases hk : q.kind with
      | copy a b =>
        obtain ⟨l, hl⟩ := Option.isSome_iff_exists.mp (hf0 a b hk)
        refine ⟨.copied a :: (l ++ e1), fun l2 => ?_⟩
        rw [List.cons_append, loop, if_neg hc]
        simp only [hk, hl, he]
        cases loop f W i o st l2 with
        | none => rfl
        | some r => simp
      | stop => rw [hk] at h0; exact absurd trivial h0
      | relay => rw [hk] at h0; exact absurd trivial h0
      | other n =>
        rw [hk] at h0
        have hp : W.oth n i = .pass := by
          cases ho : W.oth n i with
          | pass => rfl
          | take => exact absurd (by simp [ho]) h0
          | drop => exact absurd (by simp [ho]) h0
        refine ⟨.seen n i :: e1, fun l2 => ?_⟩
        rw [List.cons_append, loop, if_neg hc]
        simp only [hk, hp, he]
        cases loop f W i o st l2 with
        | none => rfl
        | some r => simp

end Verif.Copy
