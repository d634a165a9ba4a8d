import Verif.Sess.Steps

/-!
# C22, C23, C26: look-up, deletion and expiry of sessions

For every history of commands, packets and ticks from start-up, every hash function and every setting.
-/

namespace Verif.Sess

/-! ### Lemmas connecting the specification vocabulary -/

theorem prefix_iff (st t : Bytes) : (t ++ [semi]) <+: st ↔ ∃ m, st = t ++ semi :: m := by
  constructor
  · rintro ⟨m, rfl⟩; exact ⟨m, by simp⟩
  · rintro ⟨m, rfl⟩; exact ⟨m, by simp⟩

theorem compareTags_ne (st t : Bytes) : compareTags st t ≠ 0 ↔ Under st t := by
  rw [compareTags_eq, Under, ← prefix_iff]
  split
  · simp [*]
  · split <;> simp [*]

theorem compareTags_one (st t : Bytes) : Under st t → (compareTags st t ≠ 2 ↔ st = t) := by
  intro h
  rw [compareTags_eq]
  rcases h with rfl | h
  · simp
  · rw [← prefix_iff] at h
    by_cases h1 : st = t
    · simp [h1]
    · simp [h1, h]

theorem leg_iff (ft : Bytes) (tt : Option Bytes) (st : Bytes) (k : Nat) : leg ft tt st = some k ↔ Answers ft tt st k := by
  unfold leg Answers
  by_cases h0 : st = ft
  · simp [h0]; tauto
  · rw [if_neg h0]
    cases tt with
    | none => simp [h0]
    | some t =>
      simp only [h0, and_false, false_or, ne_eq, not_false_eq_true, true_and, Option.some.injEq, exists_eq_left']
      by_cases h1 : st = t
      · simp [h1]; tauto
      · rw [if_neg h1]
        by_cases h2 : (t ++ [semi]) <+: st
        · have hs : ∃ c, strrchr semi st = some c := by
            cases hc : strrchr semi st with
            | some c => exact ⟨c, rfl⟩
            | none =>
              obtain ⟨r, rfl⟩ := h2
              exact absurd hc (by rw [strrchr_none]; simp)
          obtain ⟨c1, hc1⟩ := hs
          obtain ⟨a, m, e1, e2, e3⟩ := strrchr_some hc1
          simp only [h2, true_and, h1, false_or]
          rw [hc1]
          constructor
          · intro h
            split at h
            · next hf =>
              refine ⟨by simpa using h.symm, ?_⟩
              obtain ⟨b, m', g1, g2, g3⟩ := strrchr_some hf
              rw [e3] at g3
              simp only [List.cons.injEq, true_and] at g3
              subst g3
              exact ⟨a, b, m, e2, e1, g1⟩
            · cases h
          · rintro ⟨rfl, a', b, m', h3, h4, h5⟩
            rw [if_pos]
            rw [h5, strrchr_append h3, e3]
            have : strrchr semi st = some (semi :: m') := by rw [h4]; exact strrchr_append h3
            rw [hc1, e3] at this
            exact this.symm
        · simp [h1, h2]

theorem delMatch_isSome (ft : Bytes) (tt : Option Bytes) (st : Bytes) :
    (delMatch ft tt st).isSome = true ↔ Addressed ft tt st := by
  unfold delMatch Addressed
  rw [← compareTags_ne st ft]
  by_cases h : compareTags st ft ≠ 0
  · rw [if_pos h]; simp [h]
  · rw [if_neg h]
    cases tt with
    | none => simp [h]
    | some t =>
      simp only [h, false_or, Option.some.injEq, exists_eq_left']
      rw [← compareTags_ne]
      split <;> simp_all

theorem delMatch_idx {ft : Bytes} {tt : Option Bytes} {st : Bytes} {idx : Bool} {cmpr : Nat}
    (h : delMatch ft tt st = some (idx, cmpr)) :
    (idx = true ↔ Under st ft) ∧ (cmpr ≠ 2 ↔ Exactly ft tt st) := by
  unfold delMatch at h
  by_cases h1 : compareTags st ft ≠ 0
  · rw [if_pos h1] at h
    simp only [Option.some.injEq, Prod.mk.injEq] at h
    obtain ⟨rfl, rfl⟩ := h
    have hu := (compareTags_ne _ _).1 h1
    exact ⟨by simp [hu], by rw [compareTags_one _ _ hu]; unfold Exactly; tauto⟩
  · rw [if_neg h1] at h
    have hu := mt (compareTags_ne st ft).2 h1
    cases tt with
    | none => cases h
    | some t =>
      simp only [] at h
      split at h
      · next h2 =>
        simp only [Option.some.injEq, Prod.mk.injEq] at h
        obtain ⟨rfl, rfl⟩ := h
        have hu2 := (compareTags_ne _ _).1 h2
        refine ⟨by simp [hu], ?_⟩
        rw [compareTags_one _ _ hu2]
        unfold Exactly
        have : st ≠ ft := fun h => hu (.inl h)
        simp only [this, false_or, hu, not_false_eq_true, true_and, Option.some.injEq]
        exact eq_comm
      · cases h

theorem free_iff (s : Sess) : holds s = false ↔ Free s := by
  unfold holds Free
  cases s.strong <;> cases s.weak false <;> cases s.weak true <;> simp

theorem givenUp_clrS {ft : Bytes} {tt : Option Bytes} {weak : Bool} {s : Sess} (h : matched ft tt s = true) :
    GivenUp weak ft s (clrS ft tt weak s) := by
  unfold matched at h
  obtain ⟨⟨idx, cmpr⟩, e⟩ := Option.isSome_iff_exists.1 h
  obtain ⟨h1, -⟩ := delMatch_idx e
  rw [clrS_some e]
  unfold clearHold
  cases weak with
  | false => exact ⟨rfl, by simp, by simp, by simp⟩
  | true =>
    refine ⟨by simp, ?_, ?_, by simp⟩
    · simp only [if_true, upd, true_and, ← h1]
      cases idx <;> simp
    · simp only [if_true, upd, true_and, ← h1]
      cases idx <;> simp

/-! ### C22 -/

/-- Every look-up returns the first session of the call, in the order of creation, that answers to the tags, with
its leg; it returns none iff no session of the call answers.  No history makes the server fault. -/
theorem C22_lookup (c : Conf) (es : List Ev) : ∃ w os, run c world0 es = .ok (w, os) ∧
    ∀ (cid ft : Bytes) (tt : Option Bytes),
      (∃ pre r post k, live os = pre ++ r :: post ∧ r.cid = cid ∧ Answers ft tt r.ft k ∧
        (∀ q ∈ pre, q.cid = cid → ∀ k, ¬ Answers ft tt q.ft k) ∧
        step c w (.look cid ft tt) = .ok (w, .found r.p k)) ∨
      ((∀ r ∈ live os, r.cid = cid → ∀ k, ¬ Answers ft tt r.ft k) ∧
        step c w (.look cid ft tt) = .ok (w, .notFound)) := by
  obtain ⟨w, os, e, h, -⟩ := run_inv es (Inv.init c)
  refine ⟨w, os, e, fun cid ft tt => ?_⟩
  change Inv c w (live os) at h
  have hs : ∀ l : List Rec,
      (∃ pre r post k, l = pre ++ r :: post ∧ r.cid = cid ∧ Answers ft tt r.ft k ∧
        (∀ q ∈ pre, q.cid = cid → ∀ k, ¬ Answers ft tt q.ft k) ∧ firstLeg l cid ft tt = some (r.p, k)) ∨
      ((∀ r ∈ l, r.cid = cid → ∀ k, ¬ Answers ft tt r.ft k) ∧ firstLeg l cid ft tt = none) := by
    intro l
    induction l with
    | nil => exact .inr ⟨by simp, rfl⟩
    | cons x l ih =>
      by_cases hx : x.cid = cid
      · have e1 : firstLeg (x :: l) cid ft tt = match leg ft tt x.ft with
            | some k => some (x.p, k)
            | none => firstLeg l cid ft tt := by
          unfold firstLeg
          rw [List.filter_cons, if_pos (by simpa using hx), List.findSome?_cons]
          cases leg ft tt x.ft <;> rfl
        cases hl : leg ft tt x.ft with
        | some k =>
          refine .inl ⟨[], x, l, k, rfl, hx, (leg_iff _ _ _ _).1 hl, by simp, ?_⟩
          rw [e1, hl]
        | none =>
          have hno : ∀ k, ¬ Answers ft tt x.ft k := fun k hk => by
            rw [← leg_iff, hl] at hk; cases hk
          rcases ih with ⟨pre, r, post, k, g1, g2, g3, g4, g5⟩ | ⟨g1, g2⟩
          · refine .inl ⟨x :: pre, r, post, k, by rw [g1]; rfl, g2, g3, ?_, ?_⟩
            · intro q hq
              rcases List.mem_cons.1 hq with rfl | hq
              · intro _; exact hno
              · exact g4 q hq
            · rw [e1, hl]; exact g5
          · refine .inr ⟨?_, by rw [e1, hl]; exact g2⟩
            intro q hq
            rcases List.mem_cons.1 hq with rfl | hq
            · intro _; exact hno
            · exact g1 q hq
      · have e1 : firstLeg (x :: l) cid ft tt = firstLeg l cid ft tt := by
          unfold firstLeg
          rw [List.filter_cons, if_neg (by simpa using hx)]
        rcases ih with ⟨pre, r, post, k, g1, g2, g3, g4, g5⟩ | ⟨g1, g2⟩
        · refine .inl ⟨x :: pre, r, post, k, by rw [g1]; rfl, g2, g3, ?_, by rw [e1]; exact g5⟩
          intro q hq
          rcases List.mem_cons.1 hq with rfl | hq
          · intro h; exact absurd h hx
          · exact g4 q hq
        · refine .inr ⟨?_, by rw [e1]; exact g2⟩
          intro q hq
          rcases List.mem_cons.1 hq with rfl | hq
          · intro h; exact absurd h hx
          · exact g1 q hq
  simp only [step, findStream_eq h]
  rcases hs (live os) with ⟨pre, r, post, k, g1, g2, g3, g4, g5⟩ | ⟨g1, g2⟩
  · exact .inl ⟨pre, r, post, k, g1, g2, g3, g4, by rw [g5]⟩
  · exact .inr ⟨g1, by rw [g2]⟩

/-- An UPDATE or LOOKUP acts on the session its look-up finds and no other; an UPDATE that finds none creates
one, a LOOKUP that finds none does nothing. -/
theorem C22_update (c : Conf) (es : List Ev) (w : World) (os : List Out) (hrun : run c world0 es = .ok (w, os))
    (update : Bool) (cid ft : Bytes) (tt : Option Bytes) (weak : Bool) (li : Listen) (mem : Bool) :
    ∃ w' o, step c w (.ul update cid ft tt weak li mem) = .ok (w', o) ∧
      ((∃ p k, step c w (.look cid ft tt) = .ok (w, .found p k) ∧ (o = .found p k ∨ (o = .failed ∧ li = .failed)) ∧
          ∀ q, q ≠ p → w'.heap q = w.heap q) ∨
       (step c w (.look cid ft tt) = .ok (w, .notFound) ∧ (∀ r ∈ live os, w'.heap r.p = w.heap r.p) ∧
          (o = .notFound ∧ update = false ∨ o = .failed ∧ update = true ∧ li = .failed ∨
           ∃ p, o = .created p cid ft ∧ update = true ∧ p ∉ (live os).map (·.p)))) := by
  obtain ⟨w0, os0, e, h, -⟩ := run_inv es (Inv.init c)
  rw [hrun] at e
  simp only [Except.ok.injEq, Prod.mk.injEq] at e
  obtain ⟨rfl, rfl⟩ := e
  change Inv c w (live os) at h
  obtain ⟨w', o, e1, h1⟩ := step_inv h (.ul update cid ft tt weak li mem)
  refine ⟨w', o, e1, ?_⟩
  simp only [step, findStream_eq h] at e1 ⊢
  cases hf : firstLeg (live os) cid ft tt with
  | some x =>
    obtain ⟨p, k⟩ := x
    rw [hf] at e1
    refine .inl ⟨p, k, rfl, ?_⟩
    simp only [] at e1
    cases hu : ulExisting (w.heap p) (if update = true then decide (k = 1) else !decide (k = 1)) update weak li with
    | none =>
      rw [hu] at e1
      simp only [Except.ok.injEq, Prod.mk.injEq] at e1
      obtain ⟨rfl, rfl⟩ := e1
      refine ⟨.inr ⟨rfl, ?_⟩, fun _ _ => rfl⟩
      cases li with
      | failed => rfl
      | _ => simp [ulExisting] at hu
    | some s =>
      rw [hu] at e1
      simp only [Except.ok.injEq, Prod.mk.injEq] at e1
      obtain ⟨rfl, rfl⟩ := e1
      exact ⟨.inl rfl, fun q hq => setS_other hq⟩
  | none =>
    rw [hf] at e1
    refine .inr ⟨rfl, ?_⟩
    simp only [] at e1
    cases update with
    | false =>
      simp only [Bool.false_eq_true, if_false, Except.ok.injEq, Prod.mk.injEq] at e1
      obtain ⟨rfl, rfl⟩ := e1
      exact ⟨fun _ _ => rfl, .inl ⟨rfl, rfl⟩⟩
    | true =>
      simp only [if_true] at e1
      by_cases hli : li = .failed
      · rw [if_pos hli] at e1
        simp only [Except.ok.injEq, Prod.mk.injEq] at e1
        obtain ⟨rfl, rfl⟩ := e1
        exact ⟨fun _ _ => rfl, .inr (.inl ⟨rfl, rfl, hli⟩)⟩
      · rw [if_neg hli] at e1
        obtain ⟨m, hr, hl⟩ := h.tbl
        have ha := Hash.append_refines hr cid w.next mem
        simp only [Hash.Spec.step, htCfg, Bool.false_and, Bool.false_eq_true, if_false] at ha
        obtain ⟨t', hd, first, a1, a2, a3⟩ := ha
        injection a2 with a2 a2'
        subst a2
        rw [htCfg, a1] at e1
        simp only [Except.ok.injEq, Prod.mk.injEq] at e1
        obtain ⟨rfl, rfl⟩ := e1
        have hne : ∀ r ∈ live os, r.p ≠ w.next := fun r hr => by have := h.lt r hr; omega
        refine ⟨fun r hr => setS_other (hne r hr), .inr (.inr ⟨w.next, rfl, rfl, ?_⟩)⟩
        intro hm
        obtain ⟨r, hr, e⟩ := List.mem_map.1 hm
        exact hne r hr e

/-- If tags contain at most one separator, the callee's leg is found only under the requested to-tag itself or
that tag followed by exactly the media number of the from-tag of the request. -/
theorem C22_media_partial (ft t st : Bytes) (h1 : ∀ a b, st = a ++ semi :: b → semi ∉ b)
    (h : Answers ft (some t) st 1) : st = t ∨ ∃ m b, st = t ++ semi :: m ∧ ft = b ++ semi :: m := by
  rcases h with ⟨h, _⟩ | ⟨_, _, t', e, h⟩
  · cases h
  · simp only [Option.some.injEq] at e
    subst e
    rcases h with rfl | ⟨⟨m', hm'⟩, a, b, m, hm, hst, hft⟩
    · exact .inl rfl
    · right
      have e1 : st = t ++ semi :: m' := by rw [← hm']; simp
      have hm2 := h1 _ _ e1
      have s1 : strrchr semi st = some (semi :: m') := by rw [e1]; exact strrchr_append hm2
      have s2 : strrchr semi st = some (semi :: m) := by rw [hst]; exact strrchr_append hm
      rw [s1] at s2
      simp only [Option.some.injEq, List.cons.injEq, true_and] at s2
      subst s2
      exact ⟨m', b, e1, hft⟩

def cfg0 : Conf := ⟨fun _ => 0, true, 60, 60⟩

/-- The first outcome after a history of creations. -/
def lookAfter (es : List Ev) (cid ft : Bytes) (tt : Option Bytes) : Option Out :=
  match run cfg0 world0 es with
  | .error _ => none
  | .ok (w, _) => match step cfg0 w (.look cid ft tt) with
    | .error _ => none
    | .ok (_, o) => some o

/-- In general the to-tag is only compared up to the first separator and the media number after the last one:
a session whose tag is `a;b;1` answers for the to-tag `a`. -/
theorem C22_media_counterexample :
    lookAfter [.ul true [99] [97, 59, 98, 59, 49] none false .fresh true] [99] [120, 59, 49] (some [97]) =
      some (.found 0 1) ∧
    ∀ m b : Bytes, ¬ ([97, 59, 98, 59, 49] = [97] ++ semi :: m ∧ [120, 59, 49] = b ++ semi :: m) := by
  refine ⟨by decide +kernel, ?_⟩
  rintro m b ⟨h1, h2⟩
  simp [semi] at h1
  subst h1
  have := congrArg List.length h2
  simp at this

/-- A command other than UPDATE and LOOKUP that gives no to-tag is matched against the empty to-tag: a session whose
tag is `;1` answers on the callee's leg to a request that names only the from-tag `x;1`. -/
theorem C22_omitted_tag_counterexample :
    lookAfter [.ul true [99] [59, 49] none false .fresh true] [99] [120, 59, 49] (toTagArg false none) =
      some (.found 0 1) := by decide +kernel

/-- Non-trivial history: two sessions of one call and one of another; the later one is found by its own tag, the
first of two equal ones wins, another call is not found. -/
example : lookAfter [.ul true [99] [97] none false .fresh true, .ul true [99] [98] none true .fresh true,
    .ul true [100] [98] none false .fresh true] [99] [98] none = some (.found 1 0) ∧
  lookAfter [.ul true [99] [97, 59, 49] none false .fresh true] [99] [98, 59, 49] (some [97]) = some (.found 0 1) ∧
  lookAfter [.ul true [99] [97] none false .fresh true] [100] [97] none = some .notFound := by decide +kernel

/-! ### C23 -/

/-- The effect of a DELETE.  `done ++ rest` are the addressed sessions, oldest first.  Success is reported iff there
are any.  Each session in `done` gives up exactly the addressed hold and is torn down iff nothing holds it any
more; every other session is untouched.  The command stops after tearing down a session with exactly the given tag;
only then are younger addressed ones (`rest`) left alone. -/
theorem C23_delete (c : Conf) (es : List Ev) (w : World) (os : List Out) (hrun : run c world0 es = .ok (w, os))
    (cid ft : Bytes) (tt : Option Bytes) (weak : Bool) :
    ∃ w' ok gone done rest, step c w (.delete cid ft tt weak) = .ok (w', .deleted ok gone) ∧
      List.Sublist (done ++ rest) (live os) ∧
      (∀ r ∈ live os, r ∈ done ++ rest ↔ r.cid = cid ∧ Addressed ft tt r.ft) ∧
      (ok = true ↔ done ++ rest ≠ []) ∧
      (∀ p, p ∉ done.map (·.p) → w'.heap p = w.heap p) ∧
      (∀ r ∈ done, GivenUp weak ft (w.heap r.p) (w'.heap r.p)) ∧
      (∀ p, p ∈ gone ↔ p ∈ done.map (·.p) ∧ Free (w'.heap p)) ∧
      (∀ r ∈ done, r.p ∈ gone → Exactly ft tt r.ft → ∃ d, done = d ++ [r]) ∧
      (rest ≠ [] → ∃ d r, done = d ++ [r] ∧ r.p ∈ gone ∧ Exactly ft tt r.ft) := by
  obtain ⟨w0, os0, e, h, -⟩ := run_inv es (Inv.init c)
  rw [hrun] at e
  simp only [Except.ok.injEq, Prod.mk.injEq] at e
  obtain ⟨rfl, rfl⟩ := e
  change Inv c w (live os) at h
  obtain ⟨w', e1, e2, -, -⟩ := handleDelete_eq h cid ft tt weak
  generalize hL : (live os).filter (fun r => decide (r.cid = cid)) = L at *
  have hLsub : L.Sublist (live os) := by rw [← hL]; exact List.filter_sublist
  have hLnd : (L.map (·.p)).Nodup := h.nodup.sublist (hLsub.map _)
  have hmem : ∀ r ∈ live os, (w.heap r.p).fromTag = r.ft := by
    intro r hr
    obtain ⟨m, -, hl⟩ := h.tbl
    rw [← hl] at hr
    obtain ⟨x, -, rfl⟩ := List.mem_map.1 hr
    rfl
  obtain ⟨dn, rs, g1, g2, g3, g4, g5, g6⟩ := full_spec ft tt weak (L.map (·.p)) w.heap hLnd
  -- split the records like the addresses
  obtain ⟨D, Rr, rfl, hD, hR⟩ : ∃ D R, L = D ++ R ∧ D.map (·.p) = dn ∧ R.map (·.p) = rs := by
    obtain ⟨a, b, h1, h2, h3⟩ := List.map_eq_append_iff.1 g1
    exact ⟨a, b, h1, h2, h3⟩
  have hmt : ∀ r ∈ D ++ Rr, matched ft tt (w.heap r.p) = true ↔ Addressed ft tt r.ft := by
    intro r hr
    unfold matched
    rw [hmem r (hLsub.subset hr), delMatch_isSome]
  have hdel : ∀ r ∈ D ++ Rr, deletable ft tt weak (w.heap r.p) = true → matched ft tt (w.heap r.p) = true := by
    intro r _ hd
    unfold deletable at hd
    rw [Bool.and_eq_true] at hd
    exact hd.1
  let am : Rec → Bool := fun r => matched ft tt (w.heap r.p)
  have hndD : (D.map (·.p)).Nodup := by
    rw [List.map_append, List.nodup_append] at hLnd; exact hLnd.1
  refine ⟨w', (full ft tt weak w.heap ((D ++ Rr).map (·.p))).2.2, (full ft tt weak w.heap ((D ++ Rr).map (·.p))).2.1,
    D.filter am, Rr.filter am, by simp only [step, e1], ?_, ?_, ?_, ?_, ?_, ?_, ?_, ?_⟩
  · rw [← List.filter_append]
    exact List.filter_sublist.trans hLsub
  · intro r hr
    rw [← List.filter_append, List.mem_filter]
    constructor
    · rintro ⟨h1, h2⟩
      have h3 : r ∈ (live os).filter (fun r => decide (r.cid = cid)) := by rw [hL]; exact h1
      rw [List.mem_filter] at h3
      exact ⟨by simpa using h3.2, (hmt r h1).1 h2⟩
    · rintro ⟨h1, h2⟩
      have h3 : r ∈ D ++ Rr := by rw [← hL, List.mem_filter]; exact ⟨hr, by simpa using h1⟩
      exact ⟨h3, (hmt r h3).2 h2⟩
  · rw [g4, ← List.filter_append]
    rw [List.any_eq_true, ne_eq, List.filter_eq_nil_iff]
    constructor
    · rintro ⟨p, hp, hm⟩ hall
      obtain ⟨r, hr, rfl⟩ := List.mem_map.1 hp
      exact hall r hr hm
    · intro hne
      by_contra hno
      apply hne
      intro r hr hm
      exact hno ⟨r.p, List.mem_map_of_mem hr, hm⟩
  · intro p hp
    rw [e2, g2]
    unfold clearAll
    split
    · next hin =>
      rw [← hD] at hin
      obtain ⟨r, hr, rfl⟩ := List.mem_map.1 hin
      have : am r ≠ true := fun ha => hp (List.mem_map_of_mem (List.mem_filter.2 ⟨hr, ha⟩))
      have hn : delMatch ft tt (w.heap r.p).fromTag = none := by
        have h2 : matched ft tt (w.heap r.p) ≠ true := this
        unfold matched at h2
        cases hq : delMatch ft tt (w.heap r.p).fromTag with
        | none => rfl
        | some x => rw [hq] at h2; simp at h2
      exact clrS_eq_none hn
    · rfl
  · intro r hr
    obtain ⟨h1, h2⟩ := List.mem_filter.1 hr
    rw [e2, g2]
    unfold clearAll
    rw [if_pos (by rw [← hD]; exact List.mem_map_of_mem h1)]
    exact givenUp_clrS h2
  · intro p
    rw [g3, List.mem_filter, ← hD]
    constructor
    · rintro ⟨h1, h2⟩
      obtain ⟨r, hr, rfl⟩ := List.mem_map.1 h1
      have hm := hdel r (by simp [hr]) h2
      refine ⟨List.mem_map_of_mem (List.mem_filter.2 ⟨hr, hm⟩), ?_⟩
      rw [e2, g2]
      unfold clearAll
      rw [if_pos (by rw [← hD]; exact List.mem_map_of_mem hr), ← free_iff]
      unfold deletable at h2
      rw [Bool.and_eq_true, Bool.not_eq_true'] at h2
      exact h2.2
    · rintro ⟨h1, h2⟩
      obtain ⟨r, hr, rfl⟩ := List.mem_map.1 h1
      obtain ⟨hr1, hr2⟩ := List.mem_filter.1 hr
      refine ⟨List.mem_map_of_mem hr1, ?_⟩
      rw [e2, g2] at h2
      unfold clearAll at h2
      rw [if_pos (by rw [← hD]; exact List.mem_map_of_mem hr1), ← free_iff] at h2
      unfold deletable
      rw [h2]
      simpa using hr2
  · intro r hr hg he
    obtain ⟨hr1, hr2⟩ := List.mem_filter.1 hr
    rw [g3, List.mem_filter] at hg
    rcases g5 r.p hg.1 hg.2 with ⟨idx, hx⟩ | ⟨d, hd⟩
    · exfalso
      have := (delMatch_idx hx).2.2 (by rw [hmem r (hLsub.subset (by simp [hr1]))]; exact he)
      exact this rfl
    · rw [← hD] at hd
      obtain ⟨D1, D2, rfl, hD1, hD2⟩ := List.map_eq_append_iff.1 hd
      obtain ⟨r', rfl, hrp⟩ : ∃ r', D2 = [r'] ∧ r'.p = r.p := by
        cases D2 with
        | nil => cases hD2
        | cons a t => cases t with
          | nil => exact ⟨a, rfl, by simpa using hD2⟩
          | cons _ _ => simp at hD2
      have : r' = r := List.inj_on_of_nodup_map hndD (by simp) hr1 hrp
      subst this
      exact ⟨D1.filter am, by rw [List.filter_append, List.filter_cons, if_pos hr2]; rfl⟩
  · intro hrest
    have hrs : rs ≠ [] := by
      intro h0
      rw [← hR] at h0
      rw [List.map_eq_nil_iff] at h0
      rw [h0] at hrest
      exact hrest rfl
    obtain ⟨d, p, idx, cmpr, k1, k2, k3, k4⟩ := g6 hrs
    rw [← hD] at k1
    obtain ⟨D1, D2, rfl, hD1, hD2⟩ := List.map_eq_append_iff.1 k1
    obtain ⟨r, rfl, hrp⟩ : ∃ r, D2 = [r] ∧ r.p = p := by
      cases D2 with
      | nil => cases hD2
      | cons a t => cases t with
        | nil => exact ⟨a, rfl, by simpa using hD2⟩
        | cons _ _ => simp at hD2
    subst hrp
    have hm : am r = true := hdel r (by simp) k2
    refine ⟨D1.filter am, r, ?_, ?_, ?_⟩
    · rw [List.filter_append, List.filter_cons, if_pos hm]; rfl
    · rw [g3, List.mem_filter]
      exact ⟨by rw [← hD]; simp, k2⟩
    · have := (delMatch_idx k3).2.1 k4
      rw [hmem r (hLsub.subset (by simp))] at this
      exact this

/-- Every existing session is held by someone and is registered; nothing else is registered. -/
theorem C23_held (c : Conf) (es : List Ev) (w : World) (os : List Out) (hrun : run c world0 es = .ok (w, os)) :
    (∀ r ∈ live os, ¬ Free (w.heap r.p) ∧ (w.heap r.p).fromTag = r.ft) ∧ ∀ p, p ∈ w.wrt ↔ ∃ r ∈ live os, r.p = p := by
  obtain ⟨w0, os0, e, h, -⟩ := run_inv es (Inv.init c)
  rw [hrun] at e
  simp only [Except.ok.injEq, Prod.mk.injEq] at e
  obtain ⟨rfl, rfl⟩ := e
  change Inv c w (live os) at h
  refine ⟨fun r hr => ⟨?_, ?_⟩, fun p => ?_⟩
  · rw [← free_iff, h.held r hr]; simp
  · obtain ⟨m, -, hl⟩ := h.tbl
    rw [← hl] at hr
    obtain ⟨x, -, rfl⟩ := List.mem_map.1 hr
    rfl
  · rw [h.reg, List.mem_map]

/-- Outcomes of a history under the settings of the examples. -/
def outs (es : List Ev) : Option (List Out) :=
  match run cfg0 world0 es with
  | .error _ => none
  | .ok (_, os) => some os

/-- If no addressed session carries exactly a given tag, every addressed session is dealt with. -/
theorem C23_media_partial (c : Conf) (es : List Ev) (w : World) (os : List Out) (hrun : run c world0 es = .ok (w, os))
    (cid ft : Bytes) (tt : Option Bytes) (weak : Bool)
    (hno : ∀ r ∈ live os, r.cid = cid → r.ft ≠ ft ∧ tt ≠ some r.ft) :
    ∃ w' ok gone, step c w (.delete cid ft tt weak) = .ok (w', .deleted ok gone) ∧
      ∀ r ∈ live os, r.cid = cid → Addressed ft tt r.ft →
        GivenUp weak ft (w.heap r.p) (w'.heap r.p) ∧ (r.p ∈ gone ↔ Free (w'.heap r.p)) := by
  obtain ⟨w', ok, gone, done, rest, h1, h2, h3, h4, h5, h6, h7, -, h8⟩ := C23_delete c es w os hrun cid ft tt weak
  refine ⟨w', ok, gone, h1, fun r hr hc ha => ?_⟩
  have hrest : rest = [] := by
    by_contra hne
    obtain ⟨d, r', hd, -, hx⟩ := h8 hne
    have hr' : r' ∈ live os := h2.subset (by rw [hd]; simp)
    have hc' := ((h3 r' hr').1 (by rw [hd]; simp)).1
    have := hno r' hr' hc'
    rcases hx with hx | hx
    · exact this.1 hx
    · exact this.2 hx.2
  have hd : r ∈ done := by
    have := (h3 r hr).2 ⟨hc, ha⟩
    rw [hrest, List.append_nil] at this
    exact this
  refine ⟨h6 r hd, ?_⟩
  rw [h7]
  exact ⟨fun h => h.2, fun h => ⟨List.mem_map_of_mem hd, h⟩⟩

/-- In general it is not: which of the addressed sessions are dealt with depends on the order of creation.  With
sessions `a` and `a;1` a DELETE for `a` tears down both if `a;1` is older and only `a` if `a` is older. -/
theorem C23_order_counterexample :
    outs [.ul true [99] [97] none false .fresh true, .ul true [99] [97, 59, 49] none false .fresh true,
      .delete [99] [97] none false] =
      some [.created 0 [99] [97], .created 1 [99] [97, 59, 49], .deleted true [0]] ∧
    outs [.ul true [99] [97, 59, 49] none false .fresh true, .ul true [99] [97] none false .fresh true,
      .delete [99] [97] none false] =
      some [.created 0 [99] [97, 59, 49], .created 1 [99] [97], .deleted true [0, 1]] := by decide +kernel

/-- Non-trivial: a session held weakly from one side and strongly survives the first DELETE and is torn down by the
second; a DELETE for another tag is refused. -/
example : outs [.ul true [99] [97] none false .fresh true, .ul true [99] [97] none true .keep true,
      .delete [99] [98] none false, .delete [99] [97] none false, .delete [99] [98] (some [97]) true] =
    some [.created 0 [99] [97], .found 0 0, .deleted false [], .deleted true [], .deleted true [0]] := by decide +kernel

end Verif.Sess
