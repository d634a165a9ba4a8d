import Verif.Plane.Model

/-! # Lemmas about chains of processors -/

namespace Verif.Plane

open Verif.Pproc (Act)

/-- The processors of a chain with a given key. -/
def sel (k : Key) (l : List Proc) : List Proc := l.filter fun p => decide (p.key = k)

def Sorted (l : List Proc) : Prop := l.Pairwise fun p q => p.order ≤ q.order

theorem sel_nil (k : Key) : sel k [] = [] := rfl

theorem sel_cons (k : Key) (p : Proc) (l : List Proc) :
    sel k (p :: l) = if p.key = k then p :: sel k l else sel k l := by
  simp only [sel, List.filter_cons, decide_eq_true_eq]

theorem sel_append (k : Key) (l m : List Proc) : sel k (l ++ m) = sel k l ++ sel k m := by
  simp [sel]

theorem mem_sel {k : Key} {p : Proc} {l : List Proc} : p ∈ sel k l ↔ p ∈ l ∧ p.key = k := by
  simp [sel]

theorem mem_register {p q : Proc} {l : List Proc} : q ∈ register p l ↔ q = p ∨ q ∈ l := by
  induction l with
  | nil => simp [register]
  | cons x xs ih =>
    simp only [register]
    split
    · simp
    · simp only [List.mem_cons, ih]; grind

theorem sorted_register {p : Proc} {l : List Proc} (h : Sorted l) : Sorted (register p l) := by
  induction l with
  | nil => simp [register, Sorted]
  | cons x xs ih =>
    simp only [register]
    split
    next hx =>
      refine List.Pairwise.cons ?_ h
      intro q hq
      rcases List.mem_cons.mp hq with rfl | hq
      · omega
      · have := (List.pairwise_cons.mp h).1 q hq; omega
    next hx =>
      refine List.Pairwise.cons ?_ (ih (List.pairwise_cons.mp h).2)
      intro q hq
      rcases mem_register.mp hq with rfl | hq
      · omega
      · exact (List.pairwise_cons.mp h).1 q hq

theorem sel_register_ne {p : Proc} {k : Key} (hk : p.key ≠ k) (l : List Proc) : sel k (register p l) = sel k l := by
  induction l with
  | nil => simp [register, sel, hk]
  | cons x xs ih =>
    simp only [register]
    split
    · rw [sel_cons, if_neg hk]
    · rw [sel_cons, sel_cons, ih]

theorem sel_register_eq {p : Proc} {l : List Proc} (h : sel p.key l = []) : sel p.key (register p l) = [p] := by
  induction l with
  | nil => simp [register, sel]
  | cons x xs ih =>
    rw [sel_cons] at h
    split at h
    · cases h
    next hx =>
      simp only [register]
      split
      · rw [sel_cons, if_pos rfl, sel_cons, if_neg hx, h]
      · rw [sel_cons, if_neg hx, ih h]

/-- A chain with a processor of that key is split at it. -/
theorem split_of_sel {k : Key} {p : Proc} {r : List Proc} {l : List Proc} (h : sel k l = p :: r) :
    ∃ pre post, l = pre ++ p :: post ∧ p.key = k ∧ sel k pre = [] ∧ sel k post = r := by
  induction l with
  | nil => cases h
  | cons x xs ih =>
    rw [sel_cons] at h
    split at h
    next hx =>
      cases h
      exact ⟨[], xs, rfl, hx, rfl, rfl⟩
    next hx =>
      obtain ⟨pre, post, h1, h2, h3, h4⟩ := ih h
      refine ⟨x :: pre, post, by rw [h1]; rfl, h2, ?_, h4⟩
      rw [sel_cons, if_neg hx, h3]

theorem unregister_spec {k : Key} {p : Proc} {r : List Proc} {l : List Proc} (h : sel k l = p :: r) :
    ∃ l', unregister k l = .ok l' ∧ sel k l' = r ∧ (∀ k', k' ≠ k → sel k' l' = sel k' l) ∧
      l'.Sublist l := by
  induction l with
  | nil => cases h
  | cons x xs ih =>
    rw [sel_cons] at h
    split at h
    next hx =>
      cases h
      refine ⟨xs, by simp [unregister, hx], rfl, ?_, List.sublist_cons_self _ _⟩
      intro k' hk'
      rw [sel_cons, if_neg (by rw [hx]; exact fun e => hk' e.symm)]
    next hx =>
      obtain ⟨l', h1, h2, h3, h4⟩ := ih h
      refine ⟨x :: l', by simp [unregister, hx, h1], ?_, ?_, h4.cons_cons _⟩
      · rw [sel_cons, if_neg hx, h2]
      · intro k' hk'
        rw [sel_cons, sel_cons, h3 k' hk']

theorem unregister_ok {k : Key} {l l' : List Proc} (h : unregister k l = .ok l') :
    sel k l ≠ [] ∧ (∀ k', k' ≠ k → sel k' l' = sel k' l) ∧ l'.Sublist l := by
  have hne : sel k l ≠ [] := by
    intro hn
    induction l generalizing l' with
    | nil => cases h
    | cons x xs ih =>
      rw [sel_cons] at hn
      split at hn
      · cases hn
      next hx =>
        simp only [unregister, hx, if_false] at h
        split at h
        · cases h
        next r hr => exact ih hr hn
  match hs : sel k l with
  | [] => exact absurd hs hne
  | p :: r =>
    obtain ⟨l2, h1, _, h3, h4⟩ := unregister_spec hs
    rw [h] at h1
    cases h1
    exact ⟨by simp, h3, h4⟩

theorem lookup_eq (k : Key) (l : List Proc) : lookup k l = (sel k l).head? := by
  induction l with
  | nil => rfl
  | cons x xs ih =>
    rw [sel_cons]
    simp only [lookup]
    split
    · rfl
    · exact ih

/-! ### The loop -/

theorem Act.or_nop (a : Act) : Act.nop.or a = a := by
  cases a; simp [Act.nop, Act.or]

/-- Nothing after a processor that always takes or drops is run. -/
theorem loop_cut {nested : Sid → Ctx → Nat → Except Fault (Act × List Eff)} {v : View} {c : Ctx} {s : Nat} {d : Proc}
    (hs : s ≤ d.order) (hl : likes v c d.kind = true)
    (hd : ∀ r, enq nested v c d.key d.kind = .ok r → (r.act.take || r.act.drop) = true)
    (pre post : List Proc) (a : Act) :
    loop nested v c s (pre ++ d :: post) a = loop nested v c s (pre ++ [d]) a := by
  induction pre generalizing a with
  | nil =>
    have e1 : ¬ (s > 0 ∧ d.order < s) := by omega
    simp only [List.nil_append, loop, e1, hl, if_false, Bool.true_eq_false]
    cases he : enq nested v c d.key d.kind with
    | error e => rfl
    | ok r =>
      have := hd r he
      have h2 : ((a.or r.act).take || (a.or r.act).drop) = true := by
        simp only [Act.or, Bool.or_eq_true] at this ⊢
        rcases this with h | h <;> simp [h]
      simp only [h2, if_true]
  | cons x xs ih =>
    simp only [List.cons_append, loop, ih]

/-- What holds of the effects of every processor that is run holds of the effects of the loop. -/
theorem loop_effs {nested : Sid → Ctx → Nat → Except Fault (Act × List Eff)} {v : View} {c : Ctx} {s : Nat}
    {Q : Eff → Prop} {l : List Proc} {a : Act} {t : Enq}
    (h : ∀ p ∈ l, ¬ (s > 0 ∧ p.order < s) → likes v c p.kind = true →
      ∀ r, enq nested v c p.key p.kind = .ok r → ∀ e ∈ r.effs, Q e)
    (ht : loop nested v c s l a = .ok t) : ∀ e ∈ t.effs, Q e := by
  induction l generalizing a t with
  | nil =>
    simp only [loop, Except.ok.injEq] at ht
    subst ht
    simp
  | cons p ps ih =>
    have ih' := fun a t => @ih a t (fun q hq => h q (List.mem_cons_of_mem _ hq))
    simp only [loop] at ht
    split at ht
    · exact ih' _ _ ht
    next hs =>
      split at ht
      · exact ih' _ _ ht
      next hl =>
        have hl' : likes v c p.kind = true := by simpa using hl
        split at ht
        · cases ht
        next r hr =>
          have hr' := h p (List.mem_cons_self ..) hs hl' r hr
          split at ht
          · cases ht; exact hr'
          · split at ht
            · cases ht
            · split at ht
              · cases ht
              next t2 ht2 =>
                cases ht
                intro e he
                rcases List.mem_append.mp he with he | he
                · exact hr' e he
                · exact ih' _ _ ht2 e he

theorem finish_ok {c : Ctx} {x : Except Fault Enq} {r : Act × List Eff} (h : finish c x = .ok r) :
    ∃ t, x = .ok t ∧ (r.2 = t.effs ∨ r.2 = t.effs ++ [.drop c.inS c.pkt]) := by
  cases x with
  | error e => cases h
  | ok t =>
    refine ⟨t, rfl, ?_⟩
    simp only [finish] at h
    split at h
    · split at h
      · cases h; exact Or.inr rfl
      · cases h
    · cases h; exact Or.inl rfl

end Verif.Plane
