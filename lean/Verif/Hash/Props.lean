import Verif.Hash.Lemmas

/-!
# C01, C02: the keyed table is a multimap

Specification vocabulary: `Spec.run` (Verif/Hash/Spec.lean) — a plain list of items.
-/

namespace Verif.Hash

variable {K V : Type} [DecidableEq K]

/-- The caller never removes with a stale handle or a wrong key. -/
def NoMisuse (cfg : Cfg K) (ops : List (Op K V)) : Prop :=
  Spec.run cfg.nodups cfg.dupAbrt Spec.empty ops ≠ .error .ub

/-- **C01** For every hash function, key type class and flags, and for every history of
calls that is not a misuse of handles, the observable results of the table are exactly
those of the plain multimap — including the point at which it aborts, if it was created
to abort on duplicates. Growth of the bucket array (and failure of its allocation) is
invisible. -/
theorem C01_table_refines_multimap (cfg : Cfg K) (ops : List (Op K V))
    (hm : NoMisuse cfg ops) :
    (run cfg init ops).map Prod.snd =
      (Spec.run cfg.nodups cfg.dupAbrt Spec.empty ops).map Prod.snd := by
  have h := run_refines ops init Spec.empty (R.init cfg)
  cases hs : Spec.run cfg.nodups cfg.dupAbrt Spec.empty ops with
  | error e =>
    rw [hs] at h
    cases e with
    | ub => exact absurd hs hm
    | abort => simp only at h; rw [h]; rfl
  | ok r =>
    rw [hs] at h
    obtain ⟨t', h1, _⟩ := h
    rw [h1]; rfl

/-- **C01** The choice of hash function (hence every collision pattern) is unobservable. -/
theorem C01_hash_unobservable (cfg : Cfg K) (hash' : K → Nat) (str' : Bool) (ops : List (Op K V))
    (hm : NoMisuse cfg ops) :
    (run cfg init ops).map Prod.snd =
      (run { cfg with hash := hash', strKeys := str' } init ops).map Prod.snd := by
  rw [C01_table_refines_multimap cfg ops hm,
    C01_table_refines_multimap { cfg with hash := hash', strKeys := str' } ops hm]

/-- Abstract contents after a history of the running table. -/
theorem reach (cfg : Cfg K) (ops : List (Op K V)) (hm : NoMisuse cfg ops)
    {t : Table K V} {os : List (Out V)} (hr : run cfg init ops = .ok (t, os)) :
    ∃ m, Spec.run cfg.nodups cfg.dupAbrt Spec.empty ops = .ok (m, os) ∧ R cfg t m := by
  have h := run_refines ops init Spec.empty (R.init cfg)
  cases hs : Spec.run cfg.nodups cfg.dupAbrt Spec.empty ops with
  | error e =>
    rw [hs] at h
    cases e with
    | ub => exact absurd hs hm
    | abort => simp only at h; rw [h] at hr; cases hr
  | ok r =>
    obtain ⟨m, os'⟩ := r
    rw [hs] at h
    obtain ⟨t', h1, h2⟩ := h
    rw [h1] at hr
    cases hr
    exact ⟨m, rfl, h2⟩

/-- **C01** Walking the whole table visits every live item exactly once: with a callback
that only collects, the collected values are a permutation of the live values and the
number of them is the reported length. -/
theorem C01_foreach_visits_every_item_once (cfg : Cfg K) (ops : List (Op K V))
    (hm : NoMisuse cfg ops) {t : Table K V} {os : List (Out V)}
    (hr : run cfg init ops = .ok (t, os)) :
    ∃ m t' last seen, Spec.run cfg.nodups cfg.dupAbrt Spec.empty ops = .ok (m, os) ∧
      foreach t (fun v s => (s ++ [v], ⟨false, false⟩)) [] = .ok (t', last, seen) ∧
      seen.Perm (m.items.map (·.val)) ∧ getLength t' = getLength t ∧
      seen.length = getLength t := by
  obtain ⟨m, hs, hR⟩ := reach cfg ops hm hr
  obtain ⟨t', last, order, hp, h1, h2⟩ :=
    foreach_refines hR (fun v (s : List V) => (s ++ [v], (⟨false, false⟩ : MVal))) []
  have hv : ∀ (xs : List (Spec.Item K V)) (s : List V),
      Spec.visit (fun v (s : List V) => (s ++ [v], (⟨false, false⟩ : MVal))) m s xs =
        (m, s ++ xs.map (·.val)) := by
    intro xs
    induction xs with
    | nil => intro s; simp [Spec.visit]
    | cons x xs ih => intro s; simp [Spec.visit, ih]
  rw [hv] at h1 h2
  refine ⟨m, t', last, _, hs, h1, ?_, ?_, ?_⟩
  · simpa using hp.map (·.val)
  · simp only [getLength]; rw [h2.num, hR.num]
  · simp only [getLength]; rw [hR.num]; simpa using hp.length_eq

/-- **C01** Walking the table with an arbitrary deleting/stopping callback behaves as
the same walk over *some* ordering of the live items: deletions during the walk neither
skip nor repeat items. -/
theorem C01_foreach_refines {S : Type} (cfg : Cfg K) (ops : List (Op K V))
    (hm : NoMisuse cfg ops) {t : Table K V} {os : List (Out V)}
    (hr : run cfg init ops = .ok (t, os)) (f : V → S → S × MVal) (s : S) :
    ∃ m order t' last, Spec.run cfg.nodups cfg.dupAbrt Spec.empty ops = .ok (m, os) ∧
      order.Perm m.items ∧ foreach t f s = .ok (t', last, (Spec.visit f m s order).2) ∧
      getLength t' = (Spec.visit f m s order).1.items.length ∧
      ∀ k, find cfg t' k = (Spec.vals (Spec.visit f m s order).1 k).head? := by
  obtain ⟨m, hs, hR⟩ := reach cfg ops hm hr
  obtain ⟨t', last, order, hp, h1, h2⟩ := foreach_refines hR f s
  refine ⟨m, order, t', last, hs, hp, h1, h2.num, ?_⟩
  intro k
  have := step_refines h2 (.find k)
  simp only [Spec.step, step] at this
  obtain ⟨t'', e, _⟩ := this
  have e' := Except.ok.inj e
  rw [Prod.mk.injEq] at e'
  exact Out.value.inj e'.2

/-- **C02** In a no-duplicates table at most one value is ever stored under a key,
observed by walking the entries of that key with a collecting callback. -/
theorem C02_at_most_one_per_key (cfg : Cfg K) (hn : cfg.nodups = true) (ops : List (Op K V))
    (hm : NoMisuse cfg ops) {t : Table K V} {os : List (Out V)}
    (hr : run cfg init ops = .ok (t, os)) (k : K) :
    ∃ t' seen, foreachKey cfg t k (fun v s => (s ++ [v], ⟨false, false⟩)) [] = .ok (t', seen) ∧
      seen.length ≤ 1 := by
  obtain ⟨m, hs, hR⟩ := reach cfg ops hm hr
  obtain ⟨t', h1, h2⟩ :=
    foreachKey_refines hR k (fun v (s : List V) => (s ++ [v], (⟨false, false⟩ : MVal))) []
  have hv : ∀ (xs : List (Spec.Item K V)) (s : List V),
      Spec.visit (fun v (s : List V) => (s ++ [v], (⟨false, false⟩ : MVal))) m s xs =
        (m, s ++ xs.map (·.val)) := by
    intro xs
    induction xs with
    | nil => intro s; simp [Spec.visit]
    | cons x xs ih => intro s; simp [Spec.visit, ih]
  rw [hv] at h1
  refine ⟨t', _, h1, ?_⟩
  have := nodup_view_le hR hn k
  have h3 := congrArg List.length (hR.views k)
  rw [List.length_map] at h3
  simp only [List.nil_append, List.length_map]
  omega

/-- **C02** An insertion is refused (or aborts) exactly when duplicates are forbidden and
the key is present; a refused insertion leaves the table untouched. -/
theorem C02_refused_iff_present (cfg : Cfg K) (ops : List (Op K V)) (hm : NoMisuse cfg ops)
    {t : Table K V} {os : List (Out V)} (hr : run cfg init ops = .ok (t, os))
    (k : K) (v : V) (memOk : Bool) :
    (cfg.nodups = true ∧ find cfg t k ≠ none → cfg.dupAbrt = false →
        append cfg t k v memOk = .ok (t, none, false)) ∧
    (cfg.nodups = true ∧ find cfg t k ≠ none → cfg.dupAbrt = true →
        append cfg t k v memOk = .error .abort) ∧
    (¬ (cfg.nodups = true ∧ find cfg t k ≠ none) →
        ∃ t' h first, append cfg t k v memOk = .ok (t', some h, first) ∧
          getLength t' = getLength t + 1 ∧
          find cfg t' k = if find cfg t k = none then some v else find cfg t k) := by
  obtain ⟨m, hs, hR⟩ := reach cfg ops hm hr
  have hf : find cfg t k ≠ none ↔ view cfg t.l1 k ≠ [] := by
    unfold find
    rw [find_cmpkey hR.wf]
    cases view cfg t.l1 k <;> simp
  have hins := insertLocked_eq hR.wf (sp := (⟨t.nextId, k, v, cfg.hash k⟩ : Entry K V)) rfl
  refine ⟨?_, ?_, ?_⟩
  · rintro ⟨h1, h2⟩ h3
    unfold append insert
    simp only [hins]
    rw [if_pos ⟨h1, hf.1 h2⟩]
    simp [h3]
  · rintro ⟨h1, h2⟩ h3
    unfold append insert
    simp only [hins]
    rw [if_pos ⟨h1, hf.1 h2⟩]
    simp [h3]
  · intro hno
    rw [hf] at hno
    have hany := any_key_iff hR k
    have h2 : (cfg.nodups && m.items.any (fun x => decide (x.key = k))) = false := by
      cases hn : cfg.nodups with
      | false => rfl
      | true =>
        cases ha : m.items.any (fun x => decide (x.key = k)) with
        | false => rfl
        | true => exact absurd ⟨hn, hany.1 ha⟩ hno
    have hst := step_refines hR (.append k v memOk)
    have href := append_refines hR k v memOk
    simp only [Spec.step, h2, Bool.false_eq_true, if_false] at href
    obtain ⟨t', hd, first, h4, h5, h6⟩ := href
    cases h5
    refine ⟨t', _, _, h4, ?_, ?_⟩
    · simp only [getLength]; rw [h6.num, hR.num]; simp
    · have h7 := h6.views k
      have h8 := hR.views k
      unfold find
      rw [find_cmpkey h6.wf, find_cmpkey hR.wf]
      have h9 : (view cfg t'.l1 k).map toItem = (view cfg t.l1 k).map toItem ++ [⟨m.next, k, v⟩] := by
        rw [h7, h8]; simp
      cases hv : view cfg t.l1 k with
      | nil =>
        rw [hv] at h9
        cases hv' : view cfg t'.l1 k with
        | nil => rw [hv'] at h9; simp at h9
        | cons a b =>
          rw [hv'] at h9
          simp only [List.map_cons, List.map_nil, List.nil_append, List.cons.injEq] at h9
          have : a.val = v := by
            have := congrArg (·.val) h9.1
            simpa [toItem] using this
          simp [this]
      | cons a b =>
        rw [hv] at h9
        cases hv' : view cfg t'.l1 k with
        | nil => rw [hv'] at h9; simp at h9
        | cons a' b' =>
          rw [hv'] at h9
          simp only [List.map_cons, List.cons_append, List.cons.injEq] at h9
          have : a'.val = a.val := by
            have := congrArg (·.val) h9.1
            simpa [toItem] using this
          simp [this]

/-- **C02** The `first` indication is raised by an insertion exactly when the table was
empty before it, and the `last` indication by a removal exactly when something was
removed and the table is empty after it. -/
theorem C02_first_last (cfg : Cfg K) (ops : List (Op K V)) (hm : NoMisuse cfg ops)
    {t : Table K V} {os : List (Out V)} (hr : run cfg init ops = .ok (t, os)) :
    (∀ k v memOk t' h first, append cfg t k v memOk = .ok (t', some h, first) →
        (first = true ↔ getLength t = 0)) ∧
    (∀ k t' v last, removeByKey cfg t k = .ok (t', v, last) →
        (last = true ↔ v ≠ none ∧ getLength t' = 0)) := by
  obtain ⟨m, hs, hR⟩ := reach cfg ops hm hr
  constructor
  · intro k v memOk t' h first ha
    have href := append_refines hR k v memOk
    split at href
    · rw [href.2] at ha; cases ha
    · next m' o heq =>
      obtain ⟨t'', hd, first', h4, h5, h6⟩ := href
      rw [h4] at ha
      cases ha
      rw [h5] at heq
      simp only [Spec.step] at heq
      split at heq
      · split at heq <;> cases heq
      · have h7 := Except.ok.inj heq
        rw [Prod.mk.injEq, Out.handle.injEq] at h7
        rw [← h7.2.2]
        simp only [getLength]
        rw [hR.num]
        simp
  · intro k t' v last ha
    obtain ⟨t'', v', last', m', h1, h2, h3⟩ := removeByKey_refines hR k
    rw [h1] at ha
    cases ha
    simp only [getLength]
    rw [h3.num]
    simp only [Spec.step] at h2
    split at h2
    · cases h2; simp
    · cases h2; simp [Spec.erase]

/-- Non-vacuity: two keys that collide under a constant hash, a refused duplicate, removal
by handle, walk with deletion. -/
example : NoMisuse (V := Nat) (K := Nat) ⟨fun _ => 7, true, true, false⟩
    [.append 1 10 true, .append 2 20 true, .append 1 11 true, .remove 1 0, .append 1 12 true,
     .foreachKey 1 (fun v s => (s ++ [v], ⟨true, false⟩)), .removeByKey 2] ∧
  (run (V := Nat) (K := Nat) ⟨fun _ => 7, true, true, false⟩ init
    [.append 1 10 true, .append 2 20 true, .append 1 11 true, .remove 1 0, .append 1 12 true,
     .foreachKey 1 (fun v s => (s ++ [v], ⟨true, false⟩)), .removeByKey 2]).toOption.map Prod.snd =
   some [.handle (some 0) true, .handle (some 1) false, .handle none false, .unit,
      .handle (some 2) false, .seen [12], .removed (some 20) true] := by
  constructor
  · intro h
    exact absurd (congrArg (fun r => r.toOption.isSome) h) (by decide)
  · decide

/-- Non-vacuity: the history really crosses a resize (180 entries exceed 70% of 256). -/
example : ((run (V := Nat) (K := Nat) ⟨fun k => k * 37, false, true, true⟩ init
      ((List.range 180).map (fun k => .append k k true))).toOption.map (fun r => r.1.l1.len))
    = some 512 := by decide +kernel

end Verif.Hash
