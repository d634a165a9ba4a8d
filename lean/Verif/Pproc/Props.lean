import Verif.Pproc.Model

/-!
# C31: processors run in order, packets are accounted for once
-/

namespace Verif.Pproc

variable {P : Type}

/-! ## Specification -/

/-- The registrations in force, in the order of registration. -/
def inForce (l : List (Proc P)) : List (Op P) → List (Proc P)
  | [] => l
  | .reg p :: ops => inForce (l ++ [p]) ops
  | .unreg k :: ops => inForce (l.filter fun p => p.key ≠ k) ops

/-- Every key is registered once at a time, and only registered keys are unregistered. -/
def Proper (l : List (Proc P)) : List (Op P) → Prop
  | [] => True
  | .reg p :: ops => (∀ q ∈ l, q.key ≠ p.key) ∧ Proper (l ++ [p]) ops
  | .unreg k :: ops => (∃ q ∈ l, q.key = k) ∧ Proper (l.filter fun p => p.key ≠ k) ops

/-- The processors of one stage. -/
def stage (o : Nat) (l : List (Proc P)) : List (Proc P) := l.filter fun p => p.order = o

/-- `p` wants the packet. -/
def wants (startat : Nat) (pkt : P) (p : Proc P) : Bool :=
  (startat = 0 ∨ startat ≤ p.order) && ((p.taste.map fun f => f pkt).getD true)

/-- `p` ends the processing. -/
def ends (pkt : P) (p : Proc P) : Bool := (p.enqueue pkt).1.take || (p.enqueue pkt).1.drop

/-- Up to and including the first one that ends the processing. -/
def upto (pkt : P) : List (Proc P) → List (Proc P)
  | [] => []
  | p :: ps => if ends pkt p then [p] else p :: upto pkt ps

/-! ## Lemmas -/

theorem register_mem (t : List (Proc P)) (p q : Proc P) : q ∈ register t p ↔ q = p ∨ q ∈ t := by
  unfold register
  simp only [List.mem_append, List.mem_cons]
  conv => rhs; rw [← List.take_append_drop (place p.order t) t, List.mem_append]
  constructor
  · rintro (h | h | h)
    · exact .inr (.inl h)
    · exact .inl h
    · exact .inr (.inr h)
  · rintro (h | h | h)
    · exact .inr (.inl h)
    · exact .inl h
    · exact .inr (.inr h)

theorem register_cons_lt (q : Proc P) (t : List (Proc P)) (p : Proc P) (h : q.order > p.order) : register (q :: t) p = p :: q :: t := by
  simp only [register, place, if_pos h, List.take_zero, List.drop_zero, List.nil_append]

theorem register_cons_le (q : Proc P) (t : List (Proc P)) (p : Proc P) (h : ¬ q.order > p.order) : register (q :: t) p = q :: register t p := by
  simp only [register, place, if_neg h, List.take_succ_cons, List.drop_succ_cons, List.cons_append]

theorem register_sorted : ∀ (t : List (Proc P)) (p : Proc P), t.Pairwise (fun a b => a.order ≤ b.order) →
    (register t p).Pairwise (fun a b => a.order ≤ b.order)
  | [], p, _ => by simp [register, place]
  | q :: t, p, h => by
    obtain ⟨h1, h2⟩ := List.pairwise_cons.1 h
    by_cases c : q.order > p.order
    · rw [register_cons_lt q t p c]
      refine List.pairwise_cons.2 ⟨?_, h⟩
      intro x hx
      rcases List.mem_cons.1 hx with rfl | hx
      · exact Nat.le_of_lt c
      · exact Nat.le_trans (Nat.le_of_lt c) (h1 x hx)
    · rw [register_cons_le q t p c]
      refine List.pairwise_cons.2 ⟨?_, register_sorted t p h2⟩
      intro x hx
      rcases (register_mem t p x).1 hx with rfl | hx
      · exact Nat.le_of_not_gt c
      · exact h1 x hx

theorem register_stage : ∀ (t : List (Proc P)) (p : Proc P) (o : Nat), t.Pairwise (fun a b => a.order ≤ b.order) →
    stage o (register t p) = stage o t ++ stage o [p]
  | [], p, o, _ => by simp [register, place, stage]
  | q :: t, p, o, h => by
    obtain ⟨h1, h2⟩ := List.pairwise_cons.1 h
    by_cases c : q.order > p.order
    · rw [register_cons_lt q t p c]
      by_cases e : p.order = o
      · -- nothing of this stage comes later
        have hnil : stage o (q :: t) = [] := by
          refine List.filter_eq_nil_iff.2 ?_
          intro x hx
          rcases List.mem_cons.1 hx with rfl | hx
          · simp; omega
          · have := h1 x hx; simp; omega
        rw [hnil, List.nil_append]
        have : stage o (p :: q :: t) = stage o [p] ++ stage o (q :: t) := by
          unfold stage; rw [← List.filter_append]; rfl
        rw [this, hnil, List.append_nil]
      · have h0 : stage o [p] = [] := by simp [stage, e]
        have : stage o (p :: q :: t) = stage o [p] ++ stage o (q :: t) := by
          unfold stage; rw [← List.filter_append]; rfl
        rw [this, h0, List.append_nil, List.nil_append]
    · rw [register_cons_le q t p c]
      have a : ∀ l, stage o (q :: l) = stage o [q] ++ stage o l := by
        intro l; unfold stage; rw [← List.filter_append]; rfl
      rw [a, a t, register_stage t p o h2, List.append_assoc]

theorem position_none : ∀ (t : List (Proc P)) (k : Nat), position k t = none ↔ ∀ p ∈ t, p.key ≠ k
  | [], k => by simp [position]
  | p :: t, k => by
    simp only [position]
    by_cases h : p.key = k
    · simp [h]
    · rw [if_neg h, Option.map_eq_none_iff, position_none t k]
      simp [h]

theorem unregister_cons_eq (p : Proc P) (t : List (Proc P)) (k : Nat) (h : p.key = k) : unregister (p :: t) k = .ok t := by
  simp [unregister, position, h]

theorem unregister_cons_ne (p : Proc P) (t : List (Proc P)) (k : Nat) (h : p.key ≠ k) :
    unregister (p :: t) k = (unregister t k).map (p :: ·) := by
  simp only [unregister, position, if_neg h]
  cases position k t with
  | none => rfl
  | some i => simp [Except.map]

/-- One entry goes, the others stay as they are. -/
theorem unregister_spec : ∀ (t : List (Proc P)) (k : Nat),
    (∃ a p b, t = a ++ p :: b ∧ p.key = k ∧ (∀ q ∈ a, q.key ≠ k) ∧ unregister t k = .ok (a ++ b)) ∨
    ((∀ p ∈ t, p.key ≠ k) ∧ unregister t k = .error .abort)
  | [], k => .inr ⟨by simp, rfl⟩
  | p :: t, k => by
    by_cases h : p.key = k
    · exact .inl ⟨[], p, t, rfl, h, by simp, unregister_cons_eq p t k h⟩
    · rw [unregister_cons_ne p t k h]
      rcases unregister_spec t k with ⟨a, q, b, e1, e2, e3, e4⟩ | ⟨e1, e2⟩
      · refine .inl ⟨p :: a, q, b, by rw [e1]; rfl, e2, ?_, by rw [e4]; rfl⟩
        intro x hx
        rcases List.mem_cons.1 hx with rfl | hx
        · exact h
        · exact e3 x hx
      · refine .inr ⟨?_, by rw [e2]; rfl⟩
        intro x hx
        rcases List.mem_cons.1 hx with rfl | hx
        · exact h
        · exact e1 x hx

/-- What ties the table to the registrations in force. -/
structure Tied (t l : List (Proc P)) : Prop where
  sorted : t.Pairwise (fun a b => a.order ≤ b.order)
  stages : ∀ o, stage o t = stage o l
  keys : (l.map (·.key)).Nodup

theorem Tied.mem {t l : List (Proc P)} (h : Tied t l) (p : Proc P) : p ∈ t ↔ p ∈ l := by
  have := h.stages p.order
  constructor
  · intro hp
    have : p ∈ stage p.order l := by rw [← this]; exact List.mem_filter.2 ⟨hp, by simp⟩
    exact (List.mem_filter.1 this).1
  · intro hp
    have : p ∈ stage p.order t := by rw [this]; exact List.mem_filter.2 ⟨hp, by simp⟩
    exact (List.mem_filter.1 this).1

theorem filter_none {l : List (Proc P)} {k : Nat} (h : ∀ q ∈ l, q.key ≠ k) : l.filter (fun p => p.key ≠ k) = l :=
  List.filter_eq_self.2 fun q hq => by simpa using h q hq

theorem Tied.reg {t l : List (Proc P)} (h : Tied t l) (p : Proc P) (hk : ∀ q ∈ l, q.key ≠ p.key) :
    Tied (register t p) (l ++ [p]) := by
  refine ⟨register_sorted t p h.sorted, ?_, ?_⟩
  · intro o
    rw [register_stage t p o h.sorted, h.stages o]
    unfold stage; rw [List.filter_append]
  · rw [List.map_append, List.nodup_append]
    refine ⟨h.keys, by simp, ?_⟩
    intro a ha b hb
    obtain ⟨q, hq, rfl⟩ := List.mem_map.1 ha
    simp at hb; subst hb
    exact hk q hq

/-- With distinct keys in the stage, erasing one entry is filtering by key. -/
theorem stage_keys_nodup {l : List (Proc P)} (h : (l.map (·.key)).Nodup) (o : Nat) : ((stage o l).map (·.key)).Nodup :=
  h.sublist (List.Sublist.map _ (List.filter_sublist))

theorem erase_eq_filter {a b : List (Proc P)} {p : Proc P} (h : ((a ++ p :: b).map (·.key)).Nodup) :
    a ++ b = (a ++ p :: b).filter (fun q => q.key ≠ p.key) := by
  rw [List.map_append, List.map_cons, List.nodup_append] at h
  obtain ⟨-, h2, h3⟩ := h
  rw [List.nodup_cons] at h2
  rw [List.filter_append, List.filter_cons_of_neg (by simp)]
  rw [filter_none, filter_none]
  · intro q hq e
    exact h2.1 (by rw [← e]; exact List.mem_map_of_mem hq)
  · intro q hq e
    exact h3 q.key (List.mem_map_of_mem hq) p.key List.mem_cons_self e

theorem key_inj : ∀ {l : List (Proc P)}, (l.map (·.key)).Nodup → ∀ {p q : Proc P}, p ∈ l → q ∈ l → p.key = q.key → p = q
  | [], _, p, q, hp, _, _ => by simp at hp
  | x :: l, h, p, q, hp, hq, e => by
    rw [List.map_cons, List.nodup_cons] at h
    rcases List.mem_cons.1 hp with rfl | hp' <;> rcases List.mem_cons.1 hq with rfl | hq'
    · rfl
    · exact absurd (e ▸ List.mem_map_of_mem hq') h.1
    · exact absurd (e ▸ List.mem_map_of_mem hp') h.1
    · exact key_inj h.2 hp' hq' e

theorem Tied.unreg {t l : List (Proc P)} (h : Tied t l) (k : Nat) (hk : ∃ q ∈ l, q.key = k) :
    ∃ t', unregister t k = .ok t' ∧ Tied t' (l.filter fun p => p.key ≠ k) := by
  rcases unregister_spec t k with ⟨a, p, b, e1, e2, e3, e4⟩ | ⟨e1, -⟩
  · refine ⟨a ++ b, e4, ?_, ?_, ?_⟩
    · have hs := h.sorted
      rw [e1] at hs
      exact hs.sublist ((List.Sublist.refl a).append (List.sublist_cons_self p b))
    · intro o
      have hst := h.stages o
      -- within the stage of `p` its key occurs once
      have hcomm : stage o (l.filter fun q => q.key ≠ k) = (stage o l).filter fun q => q.key ≠ k := by
        unfold stage; rw [List.filter_filter, List.filter_filter]; congr 1; funext q; exact Bool.and_comm _ _
      rw [hcomm, ← hst, e1]
      by_cases ho : p.order = o
      · have hsplit : stage o (a ++ p :: b) = stage o a ++ p :: stage o b := by
          unfold stage
          rw [List.filter_append, List.filter_cons_of_pos (by simpa using ho)]
        have hnd : ((stage o (a ++ p :: b)).map (·.key)).Nodup := by
          rw [← e1, hst]; exact stage_keys_nodup h.keys o
        rw [hsplit] at hnd ⊢
        rw [← e2, ← erase_eq_filter hnd]
        unfold stage; rw [List.filter_append]
      · have hsplit : stage o (a ++ p :: b) = stage o (a ++ b) := by
          unfold stage
          rw [List.filter_append, List.filter_append, List.filter_cons_of_neg (by simpa using ho)]
        rw [hsplit]
        refine (filter_none ?_).symm
        -- another entry with the key would be in force as well
        intro q hq e
        have hqm : q ∈ a ++ b := (List.mem_filter.1 hq).1
        have hqo : q.order = o := by simpa using (List.mem_filter.1 hq).2
        have hqt : q ∈ t := by
          rw [e1]
          rcases List.mem_append.1 hqm with h' | h'
          · exact List.mem_append_left _ h'
          · exact List.mem_append_right _ (List.mem_cons_of_mem _ h')
        have hpt : p ∈ t := by rw [e1]; exact List.mem_append_right _ List.mem_cons_self
        have hql := (h.mem q).1 hqt
        have hpl := (h.mem p).1 hpt
        have : q = p := by
          exact key_inj h.keys hql hpl (by rw [e, e2])
        exact ho (this ▸ hqo)
    · exact h.keys.sublist (List.Sublist.map _ List.filter_sublist)
  · obtain ⟨q, hq, hqk⟩ := hk
    exact absurd hqk (e1 q ((h.mem q).2 hq))

theorem apply_tied : ∀ (ops : List (Op P)) {t l : List (Proc P)}, Tied t l → Proper l ops →
    ∃ t', apply t ops = .ok t' ∧ Tied t' (inForce l ops)
  | [], t, l, h, _ => ⟨t, rfl, h⟩
  | .reg p :: ops, t, l, h, hp => by
    simp only [apply, inForce]
    exact apply_tied ops (h.reg p hp.1) hp.2
  | .unreg k :: ops, t, l, h, hp => by
    obtain ⟨t', e, h'⟩ := h.unreg k hp.1
    simp only [apply, inForce, e]
    exact apply_tied ops h' hp.2

/-- **C31.**  The table consists of the registrations in force, by stage, and within a stage in the order of
registration. -/
theorem C31_order (ops : List (Op P)) (h : Proper [] ops) : ∃ t, apply [] ops = .ok t ∧
    t.Pairwise (fun a b => a.order ≤ b.order) ∧ ∀ o, stage o t = stage o (inForce [] ops) := by
  obtain ⟨t, e, h⟩ := apply_tied ops (t := []) (l := []) ⟨List.Pairwise.nil, fun _ => rfl, by simp⟩ h
  exact ⟨t, e, h.sorted, h.stages⟩

/-- Unregistering what is not registered terminates the process. -/
theorem C31_unregister_unknown_aborts (t : List (Proc P)) (k : Nat) (h : ∀ p ∈ t, p.key ≠ k) :
    unregister t k = .error .abort := by
  rcases unregister_spec t k with ⟨a, p, b, e1, e2, -, -⟩ | ⟨-, e⟩
  · exact absurd e2 (h p (by rw [e1]; simp))
  · exact e

/-- Lookup finds a registered key and nothing else. -/
theorem C31_lookup : ∀ (t : List (Proc P)) (k : Nat),
    (∀ p, lookup t k = some p → p ∈ t ∧ p.key = k) ∧ (lookup t k = none ↔ ∀ p ∈ t, p.key ≠ k)
  | [], k => by simp [lookup, position]
  | q :: t, k => by
    by_cases h : q.key = k
    · simp [lookup, position, h]
    · have ih := C31_lookup t k
      have e : lookup (q :: t) k = lookup t k := by
        simp only [lookup, position, if_neg h]
        cases position k t <;> simp
      rw [e]
      refine ⟨fun p hp => ⟨List.mem_cons_of_mem _ (ih.1 p hp).1, (ih.1 p hp).2⟩, ?_⟩
      rw [ih.2]
      simp [h]

/-! ## Handling a packet -/

theorem likes_eq (p : Proc P) (pkt : P) : p.likes pkt = ((p.taste.map fun f => f pkt).getD true) := by
  unfold Proc.likes
  cases p.taste <;> rfl

theorem loop_spec (startat : Nat) (pkt : P) : ∀ (t : List (Proc P)) (res : Act) (loc : Nat) (ran : List (Proc P)),
    res.take = false → res.drop = false →
    ∃ act, loop startat pkt t res loc ran = (act, (((upto pkt (t.filter (wants startat pkt))).getLast?.map fun p => (p.enqueue pkt).2).getD loc),
      ran ++ upto pkt (t.filter (wants startat pkt))) ∧
      act.take = (upto pkt (t.filter (wants startat pkt))).any (fun p => (p.enqueue pkt).1.take) ∧
      act.drop = (upto pkt (t.filter (wants startat pkt))).any (fun p => (p.enqueue pkt).1.drop) ∧
      act.tee = (res.tee || (upto pkt (t.filter (wants startat pkt))).any (fun p => (p.enqueue pkt).1.tee))
  | [], res, loc, ran, h1, h2 => ⟨res, by simp [loop, upto], by simp [upto, h1], by simp [upto, h2], by simp [upto]⟩
  | p :: t, res, loc, ran, h1, h2 => by
    simp only [loop]
    by_cases c1 : startat > 0 ∧ p.order < startat
    · have hw : wants startat pkt p = false := by
        have : ¬ (startat = 0 ∨ startat ≤ p.order) := by omega
        simp [wants, this]
      rw [if_pos c1, List.filter_cons_of_neg (by simp [hw])]
      exact loop_spec startat pkt t res loc ran h1 h2
    · rw [if_neg c1]
      by_cases c2 : p.likes pkt = false
      · have hw : wants startat pkt p = false := by
          simp only [wants, Bool.and_eq_false_iff]; exact .inr (by rw [← likes_eq]; exact c2)
        rw [if_pos c2, List.filter_cons_of_neg (by simp [hw])]
        exact loop_spec startat pkt t res loc ran h1 h2
      · have hw : wants startat pkt p = true := by
          have a : (startat = 0 ∨ startat ≤ p.order) := by omega
          simp only [wants, Bool.and_eq_true, decide_eq_true_eq]
          exact ⟨a, by rw [← likes_eq]; simpa using c2⟩
        rw [if_neg c2, List.filter_cons_of_pos hw]
        generalize he : p.enqueue pkt = al
        obtain ⟨a, l⟩ := al
        simp only [Act.or, h1, h2, Bool.false_or]
        by_cases c3 : (a.take || a.drop) = true
        · rw [if_pos c3]
          have hu : upto pkt (p :: t.filter (wants startat pkt)) = [p] := by
            simp only [upto, ends, he, c3, if_true]
          rw [hu]
          exact ⟨_, by simp [he]; rfl, by simp [he], by simp [he], by simp [he]⟩
        · rw [if_neg c3]
          have hu : upto pkt (p :: t.filter (wants startat pkt)) = p :: upto pkt (t.filter (wants startat pkt)) := by
            simp only [upto, ends, he, if_neg c3]
          have ht : a.take = false := by
            cases h : a.take <;> simp_all
          have hd : a.drop = false := by
            cases h : a.drop <;> simp_all
          obtain ⟨act, e1, e2, e3, e4⟩ := loop_spec startat pkt t ⟨res.tee || a.tee, a.take, a.drop⟩ l (ran ++ [p]) ht hd
          refine ⟨act, ?_, ?_, ?_, ?_⟩
          · rw [e1, hu]
            congr 2
            · cases hz : upto pkt (t.filter (wants startat pkt)) with
              | nil => simp [he]
              | cons x xs =>
                rw [List.getLast?_cons_cons, List.getLast?_eq_some_getLast (by simp)]
                rfl
            · simp
          · rw [hu, e2]; simp [he, ht]
          · rw [hu, e3]; simp [he, hd]
          · rw [hu, e4]; simp [he, Bool.or_assoc]

theorem upto_last (pkt : P) : ∀ (l a : List (Proc P)) (p : Proc P) (b : List (Proc P)), upto pkt l = a ++ p :: b → b ≠ [] →
    ends pkt p = false
  | [], a, p, b, h, _ => by simp [upto] at h
  | q :: l, a, p, b, h, hb => by
    simp only [upto] at h
    by_cases c : ends pkt q = true
    · rw [if_pos c] at h
      cases a with
      | nil => simp at h; exact absurd h.2.symm (fun e => hb (by simpa using e.symm))
      | cons x a => simp at h
    · rw [if_neg c] at h
      cases a with
      | nil =>
        simp at h
        rw [← h.1]; simpa using c
      | cons x a =>
        simp at h
        exact upto_last pkt l a p b h.2 hb

/-- **C31.**  The processors run are those that want the packet, in table order, up to and including the first that takes
or drops it. -/
theorem C31_runs (t : List (Proc P)) (here : Nat) (lgen : Bool) (startat : Nat) (pkt : P) :
    (handleat t here lgen startat pkt).ran = upto pkt (t.filter (wants startat pkt)) := by
  obtain ⟨act, e, -, -, -⟩ := loop_spec startat pkt t Act.nop here [] rfl rfl
  simp only [handleat, e, List.nil_append]

/-- **C31.**  A packet is kept exactly when the last processor run takes it (and does not ask for it to be dropped);
no other processor takes it.  Otherwise it is released once, and counted once as dropped at the location of the last
processor run (or of the manager), unless it was generated locally. -/
theorem C31_accounted (t : List (Proc P)) (here : Nat) (lgen : Bool) (startat : Nat) (pkt : P) :
    let o := handleat t here lgen startat pkt
    (o.released = false ↔ ∃ a p, o.ran = a ++ [p] ∧ (p.enqueue pkt).1.take = true ∧ (p.enqueue pkt).1.drop = false) ∧
    (∀ a p b, o.ran = a ++ p :: b → b ≠ [] → (p.enqueue pkt).1.take = false ∧ (p.enqueue pkt).1.drop = false) ∧
    (o.counted = if o.released && !lgen then some ((o.ran.getLast?.map fun p => (p.enqueue pkt).2).getD here) else none) := by
  obtain ⟨act, e, h1, h2, -⟩ := loop_spec startat pkt t Act.nop here [] rfl rfl
  have hnl : ∀ a p b, upto pkt (t.filter (wants startat pkt)) = a ++ p :: b → b ≠ [] →
      (p.enqueue pkt).1.take = false ∧ (p.enqueue pkt).1.drop = false := by
    intro a p b h hb
    have := upto_last pkt _ a p b h hb
    simpa [ends] using this
  simp only [handleat, e, List.nil_append]
  generalize upto pkt (t.filter (wants startat pkt)) = u at *
  refine ⟨?_, hnl, trivial⟩
  simp only [Bool.or_eq_false_iff, Bool.not_eq_false', h1, h2]
  constructor
  · rintro ⟨ht, hd⟩
    obtain ⟨p, hp, hpt⟩ := List.any_eq_true.1 ht
    obtain ⟨a, b, rfl⟩ := List.append_of_mem hp
    cases b with
    | cons x b =>
      have := (hnl a p (x :: b) rfl (by simp)).1
      rw [hpt] at this; cases this
    | nil =>
      refine ⟨a, p, rfl, hpt, ?_⟩
      have := List.any_eq_false.1 hd p (by simp)
      simpa using this
  · rintro ⟨a, p, rfl, ht, hd⟩
    refine ⟨by simp [ht], ?_⟩
    rw [List.any_append]
    simp only [List.any_cons, List.any_nil, hd, Bool.or_false]
    refine List.any_eq_false.2 ?_
    intro x hx
    obtain ⟨a1, a2, rfl⟩ := List.append_of_mem hx
    have := (hnl a1 x (a2 ++ [p]) (by simp) (by simp)).2
    simp [this]

/-- The action reported is what the processors run asked for, together. -/
theorem C31_action (t : List (Proc P)) (here : Nat) (lgen : Bool) (startat : Nat) (pkt : P) :
    let o := handleat t here lgen startat pkt
    o.act.take = o.ran.any (fun p => (p.enqueue pkt).1.take) ∧ o.act.drop = o.ran.any (fun p => (p.enqueue pkt).1.drop) ∧
    o.act.tee = o.ran.any (fun p => (p.enqueue pkt).1.tee) := by
  obtain ⟨act, e, h1, h2, h3⟩ := loop_spec startat pkt t Act.nop here [] rfl rfl
  simp only [handleat, e, List.nil_append]
  exact ⟨h1, h2, by simpa [Act.nop] using h3⟩

/-- Over any sequence of packets from the network: as many are counted as dropped as were not kept. -/
theorem C31_totals (t : List (Proc P)) (here startat : Nat) (pkts : List P) :
    pkts.length = (pkts.filter fun p => (handleat t here false startat p).released = false).length +
      (pkts.filterMap fun p => (handleat t here false startat p).counted).length := by
  induction pkts with
  | nil => rfl
  | cons p ps ih =>
    have h := (C31_accounted t here false startat p).2.2
    cases hr : (handleat t here false startat p).released with
    | false =>
      rw [hr] at h
      rw [List.filter_cons_of_pos (by simp [hr]), List.filterMap_cons_none (by simpa using h)]
      simp only [List.length_cons]; omega
    | true =>
      rw [hr] at h
      rw [List.filter_cons_of_neg (by simp [hr]), List.filterMap_cons_some (by simpa using h)]
      simp only [List.length_cons]; omega

/-! ## A case -/

def witness : Proc Nat := ⟨8, 1, none, fun _ => (⟨true, false, false⟩, 101)⟩
def relay : Proc Nat := ⟨12, 2, none, fun n => (if n < 10 then ⟨false, true, false⟩ else ⟨false, false, true⟩, 102)⟩
def rtcp : Proc Nat := ⟨8, 3, some fun n => n % 2 == 1, fun _ => (⟨true, false, false⟩, 103)⟩
def late : Proc Nat := ⟨12, 4, none, fun _ => (⟨false, true, false⟩, 104)⟩

example : Proper [] [.reg relay, .reg witness, .reg late, .reg rtcp, .unreg 1, .reg witness] := by
  simp [Proper, relay, witness, late, rtcp]

example : ((apply [] [.reg relay, .reg witness, .reg late, .reg rtcp, .unreg 1, .reg witness]).toOption.map (·.map (·.key))) =
    some [3, 1, 2, 4] := by decide

def table : List (Proc Nat) := [rtcp, witness, relay, late]

example : ((handleat table 100 false 0 5).ran.map (·.key), (handleat table 100 false 0 5).released,
    (handleat table 100 false 0 12).ran.map (·.key), (handleat table 100 false 0 12).counted) =
    ([3, 1, 2], false, [1, 2], some 102) := by decide

end Verif.Pproc
