import Verif.Sess.Lemmas
import Mathlib.Data.List.Nodup
import Mathlib.Tactic.Tauto

/-! Helper lemmas: DELETE, ticks and the other events keep the table in step with the records. -/

namespace Verif.Sess

/-! ### DELETE -/

section
variable (ft : Bytes) (tt : Option Bytes) (weak : Bool)

/-- The session after giving up the hold the DELETE addresses, if it matches. -/
def clrS (s : Sess) : Sess :=
  match delMatch ft tt s.fromTag with
  | none => s
  | some (idx, _) => clearHold weak idx s

def matched (s : Sess) : Bool := (delMatch ft tt s.fromTag).isSome

def deletable (s : Sess) : Bool := matched ft tt s && !holds (clrS ft tt weak s)

def clearAll (h : Nat → Sess) (ps : List Nat) : Nat → Sess :=
  fun q => if q ∈ ps then clrS ft tt weak (h q) else h q

/-- The whole DELETE in one pass over the sessions of the call. -/
def full (h : Nat → Sess) : List Nat → (Nat → Sess) × List Nat × Bool
  | [] => (h, [], false)
  | p :: ps =>
    match delMatch ft tt (h p).fromTag with
    | none => full h ps
    | some (idx, cmpr) =>
      let h' := setS h p (clearHold weak idx (h p))
      if holds (clearHold weak idx (h p)) then ((full h' ps).1, (full h' ps).2.1, true)
      else if cmpr = 2 then ((full h' ps).1, p :: (full h' ps).2.1, true)
      else (h', [p], true)

variable {ft tt weak}

theorem clearHold_tag (idx : Bool) (s : Sess) : (clearHold weak idx s).fromTag = s.fromTag := by
  unfold clearHold; split <;> rfl

theorem clearHold_idem (idx : Bool) (s : Sess) : clearHold weak idx (clearHold weak idx s) = clearHold weak idx s := by
  unfold clearHold
  cases weak with
  | false => rfl
  | true =>
    simp only [if_true]
    congr 1
    funext j
    simp only [upd]
    split <;> rfl

theorem clrS_tag (s : Sess) : (clrS ft tt weak s).fromTag = s.fromTag := by
  unfold clrS
  split
  · rfl
  · exact clearHold_tag _ _

theorem clrS_idem (s : Sess) : clrS ft tt weak (clrS ft tt weak s) = clrS ft tt weak s := by
  unfold clrS
  cases h : delMatch ft tt s.fromTag with
  | none => simp only [h]
  | some x =>
    obtain ⟨idx, cmpr⟩ := x
    simp only [clearHold_tag, h, clearHold_idem]

theorem matched_clrS (s : Sess) : matched ft tt (clrS ft tt weak s) = matched ft tt s := by
  unfold matched; rw [clrS_tag]

theorem deletable_clrS (s : Sess) : deletable ft tt weak (clrS ft tt weak s) = deletable ft tt weak s := by
  unfold deletable; rw [matched_clrS, clrS_idem]

theorem clearAll_tag (h : Nat → Sess) (ps : List Nat) (q : Nat) : (clearAll ft tt weak h ps q).fromTag = (h q).fromTag := by
  unfold clearAll; split
  · exact clrS_tag _
  · rfl

theorem deletable_clearAll (h : Nat → Sess) (ps : List Nat) (q : Nat) :
    deletable ft tt weak (clearAll ft tt weak h ps q) = deletable ft tt weak (h q) := by
  unfold clearAll; split
  · exact deletable_clrS _
  · rfl

theorem clearAll_nil (h : Nat → Sess) : clearAll ft tt weak h [] = h := by funext q; simp [clearAll]

theorem clearAll_clearAll (h : Nat → Sess) (ps qs : List Nat) :
    clearAll ft tt weak (clearAll ft tt weak h ps) qs = clearAll ft tt weak h (ps ++ qs) := by
  funext q
  simp only [clearAll, List.mem_append]
  by_cases h1 : q ∈ ps <;> by_cases h2 : q ∈ qs <;> simp [h1, h2, clrS_idem]

theorem clearAll_congr (h : Nat → Sess) {ps qs : List Nat} (e : ∀ q, q ∈ ps ↔ q ∈ qs) :
    clearAll ft tt weak h ps = clearAll ft tt weak h qs := by
  funext q; simp only [clearAll, e]

theorem setS_clear {h : Nat → Sess} {p : Nat} {idx : Bool} {cmpr : Nat}
    (e : delMatch ft tt (h p).fromTag = some (idx, cmpr)) :
    setS h p (clearHold weak idx (h p)) = clearAll ft tt weak h [p] := by
  funext q
  simp only [setS, clearAll, List.mem_singleton]
  split
  · next hq => subst hq; simp only [clrS, e]
  · rfl

theorem clear_none {h : Nat → Sess} {p : Nat} (e : delMatch ft tt (h p).fromTag = none) :
    clearAll ft tt weak h [p] = h := by
  funext q
  simp only [clearAll, List.mem_singleton]
  split
  · next hq => subst hq; simp only [clrS, e]
  · rfl

theorem clrS_some {s : Sess} {idx : Bool} {cmpr : Nat} (e : delMatch ft tt s.fromTag = some (idx, cmpr)) :
    clrS ft tt weak s = clearHold weak idx s := by simp only [clrS, e]

/-- `full` skips what is not deletable. -/
theorem full_append : ∀ (ys zs : List Nat) (h : Nat → Sess), (∀ y ∈ ys, deletable ft tt weak (h y) = false) →
    full ft tt weak h (ys ++ zs) =
      ((full ft tt weak (clearAll ft tt weak h ys) zs).1, (full ft tt weak (clearAll ft tt weak h ys) zs).2.1,
       (full ft tt weak (clearAll ft tt weak h ys) zs).2.2 || ys.any (fun y => matched ft tt (h y)))
  | [], zs, h, _ => by simp [clearAll_nil]
  | y :: ys, zs, h, hd => by
    have hy := hd y (by simp)
    have hrest : ∀ z ∈ ys, deletable ft tt weak (clearAll ft tt weak h [y] z) = false := fun z hz => by
      rw [deletable_clearAll]; exact hd z (by simp [hz])
    have ih := full_append ys zs (clearAll ft tt weak h [y]) hrest
    rw [clearAll_clearAll] at ih
    have hm : ∀ z, matched ft tt (clearAll ft tt weak h [y] z) = matched ft tt (h z) := fun z => by
      unfold matched; rw [clearAll_tag]
    simp only [hm] at ih
    simp only [List.singleton_append] at ih
    rw [List.cons_append]
    conv => lhs; unfold full
    cases e : delMatch ft tt (h y).fromTag with
    | none =>
      simp only []
      rw [clear_none e] at ih
      rw [ih]
      simp [matched, e]
    | some x =>
      obtain ⟨idx, cmpr⟩ := x
      simp only []
      have hh : holds (clearHold weak idx (h y)) = true := by
        have : matched ft tt (h y) = true := by simp [matched, e]
        unfold deletable at hy
        rw [this, clrS_some e] at hy
        simpa using hy
      rw [if_pos hh, setS_clear e, ih]
      simp [matched, e]

theorem full_hit {h : Nat → Sess} {p : Nat} {ps : List Nat} {idx : Bool} {cmpr : Nat}
    (e : delMatch ft tt (h p).fromTag = some (idx, cmpr)) (hd : deletable ft tt weak (h p) = true) :
    full ft tt weak h (p :: ps) =
      if cmpr = 2 then ((full ft tt weak (clearAll ft tt weak h [p]) ps).1,
        p :: (full ft tt weak (clearAll ft tt weak h [p]) ps).2.1, true)
      else (clearAll ft tt weak h [p], [p], true) := by
  have hh : holds (clearHold weak idx (h p)) = false := by
    unfold deletable at hd
    rw [clrS_some e] at hd
    rw [Bool.and_eq_true, Bool.not_eq_true'] at hd
    exact hd.2
  simp only [full, e, hh, Bool.false_eq_true, if_false, setS_clear e]

/-- One pass of the traversal. -/
theorem visit_delete : ∀ (xs : List (Hash.Spec.Item Bytes Nat)) (m : Hash.Spec.MM Bytes Nat) (st : DelSt),
    ((∀ x ∈ xs, deletable ft tt weak (st.heap x.val) = false) ∧ ∃ n,
      Hash.Spec.visit (deleteEmatch ft tt weak) m st xs =
        (m, { st with heap := clearAll ft tt weak st.heap (xs.map (·.val)), ndeleted := n }) ∧
      (n ≠ 0 ↔ st.ndeleted ≠ 0 ∨ ∃ x ∈ xs, matched ft tt (st.heap x.val) = true)) ∨
    (∃ ys x zs n idx cmpr, xs = ys ++ x :: zs ∧ (∀ y ∈ ys, deletable ft tt weak (st.heap y.val) = false) ∧
      deletable ft tt weak (st.heap x.val) = true ∧
      delMatch ft tt (st.heap x.val).fromTag = some (idx, cmpr) ∧
      Hash.Spec.visit (deleteEmatch ft tt weak) m st xs =
        (Hash.Spec.erase m x.id, ⟨clearAll ft tt weak st.heap ((ys ++ [x]).map (·.val)), n, some x.val, cmpr⟩))
  | [], m, st => by
    refine .inl ⟨by simp, st.ndeleted, ?_, by simp⟩
    simp [Hash.Spec.visit, clearAll_nil]
  | x :: xs, m, st => by
    cases e : delMatch ft tt (st.heap x.val).fromTag with
    | none =>
      have hmx : matched ft tt (st.heap x.val) = false := by simp [matched, e]
      have hdx : deletable ft tt weak (st.heap x.val) = false := by simp [deletable, hmx]
      have hv : Hash.Spec.visit (deleteEmatch ft tt weak) m st (x :: xs) =
          Hash.Spec.visit (deleteEmatch ft tt weak) m st xs := by
        rw [visit_cons (s' := st) (d := false) (b := false) (by simp only [deleteEmatch, e])]
        rfl
      have hc : ∀ ps, clearAll ft tt weak st.heap (x.val :: ps) = clearAll ft tt weak st.heap ps := by
        intro ps
        have := clearAll_clearAll (ft := ft) (tt := tt) (weak := weak) st.heap [x.val] ps
        rw [clear_none e] at this
        exact this.symm
      rcases visit_delete xs m st with ⟨h1, n, h2, h3⟩ | ⟨ys, y, zs, n, idx, cmpr, h1, h2, h3, h4, h5⟩
      · refine .inl ⟨?_, n, ?_, ?_⟩
        · intro y hy
          rcases List.mem_cons.1 hy with rfl | hy
          · exact hdx
          · exact h1 y hy
        · rw [hv, h2, List.map_cons, hc]
        · rw [h3]; simp [hmx]
      · refine .inr ⟨x :: ys, y, zs, n, idx, cmpr, by rw [h1]; rfl, ?_, h3, h4, ?_⟩
        · intro z hz
          rcases List.mem_cons.1 hz with rfl | hz
          · exact hdx
          · exact h2 z hz
        · rw [hv, h5, List.cons_append, List.map_cons, hc]
    | some q =>
      obtain ⟨idx, cmpr⟩ := q
      have hmx : matched ft tt (st.heap x.val) = true := by simp [matched, e]
      by_cases hh : holds (clearHold weak idx (st.heap x.val)) = true
      · have hdx : deletable ft tt weak (st.heap x.val) = false := by simp [deletable, hmx, clrS_some e, hh]
        have hv : Hash.Spec.visit (deleteEmatch ft tt weak) m st (x :: xs) =
            Hash.Spec.visit (deleteEmatch ft tt weak) m
              { st with heap := clearAll ft tt weak st.heap [x.val], ndeleted := st.ndeleted + 1 } xs := by
          rw [visit_cons (s' := { st with heap := clearAll ft tt weak st.heap [x.val], ndeleted := st.ndeleted + 1 })
            (d := false) (b := false) (by simp only [deleteEmatch, e, hh, if_true, setS_clear e])]
          rfl
        have hm : ∀ z, matched ft tt (clearAll ft tt weak st.heap [x.val] z) = matched ft tt (st.heap z) := fun z => by
          unfold matched; rw [clearAll_tag]
        rcases visit_delete xs m { st with heap := clearAll ft tt weak st.heap [x.val], ndeleted := st.ndeleted + 1 } with
          ⟨h1, n, h2, h3⟩ | ⟨ys, y, zs, n, idx', cmpr', h1, h2, h3, h4, h5⟩
        · simp only [deletable_clearAll, hm, clearAll_clearAll] at h1 h2 h3
          refine .inl ⟨?_, n, ?_, ?_⟩
          · intro y hy
            rcases List.mem_cons.1 hy with rfl | hy
            · exact hdx
            · exact h1 y hy
          · rw [hv, h2]; rfl
          · rw [h3]; simp [hmx]
        · simp only [deletable_clearAll, clearAll_clearAll, clearAll_tag] at h2 h3 h4 h5
          refine .inr ⟨x :: ys, y, zs, n, idx', cmpr', by rw [h1]; rfl, ?_, h3, h4, ?_⟩
          · intro z hz
            rcases List.mem_cons.1 hz with rfl | hz
            · exact hdx
            · exact h2 z hz
          · rw [hv, h5]; rfl
      · have hh : holds (clearHold weak idx (st.heap x.val)) = false := by simpa using hh
        have hdx : deletable ft tt weak (st.heap x.val) = true := by simp [deletable, hmx, clrS_some e, hh]
        refine .inr ⟨[], x, xs, st.ndeleted, idx, cmpr, rfl, by simp, hdx, e, ?_⟩
        rw [visit_cons (s' := ⟨clearAll ft tt weak st.heap [x.val], st.ndeleted, some x.val, cmpr⟩)
            (d := true) (b := true) (by simp only [deleteEmatch, e, hh, Bool.false_eq_true, if_false, setS_clear e])]
        rfl

/-- The loop of `do_delete` does what `full` does. -/
theorem deleteLoop_eq (c : Conf) (cid : Bytes) : ∀ (fuel : Nat) (ht : Hash.Table Bytes Nat)
    (m : Hash.Spec.MM Bytes Nat) (wrt : List Nat) (st : DelSt) (gone : List Nat), Hash.R (htCfg c) ht m →
    (m.items.map (·.val)).Nodup → (∀ x ∈ m.items, x.val ∈ wrt) → st.spa = none →
    (m.items.filter (fun x => decide (x.key = cid))).length < fuel →
    ∃ ht' m' st', deleteLoop c cid ft tt weak fuel ht wrt st gone =
        .ok (ht', wrt.filter (fun p => !(full ft tt weak st.heap ((m.items.filter (fun x => decide (x.key = cid))).map (·.val))).2.1.contains p), st',
          gone ++ (full ft tt weak st.heap ((m.items.filter (fun x => decide (x.key = cid))).map (·.val))).2.1) ∧
      st'.heap = (full ft tt weak st.heap ((m.items.filter (fun x => decide (x.key = cid))).map (·.val))).1 ∧
      (st'.ndeleted ≠ 0 ↔ st.ndeleted ≠ 0 ∨
        (full ft tt weak st.heap ((m.items.filter (fun x => decide (x.key = cid))).map (·.val))).2.2 = true) ∧
      Hash.R (htCfg c) ht' m' ∧ m'.items = m.items.filter
        (fun x => !(full ft tt weak st.heap ((m.items.filter (fun x => decide (x.key = cid))).map (·.val))).2.1.contains x.val) := by
  intro fuel
  induction fuel with
  | zero => intro ht m wrt st gone _ _ _ _ hf; omega
  | succ fuel ih =>
    intro ht m wrt st gone hr hnd hreg hspa hf
    unfold deleteLoop
    obtain ⟨ht', e1, hr'⟩ := Hash.foreachKey_refines hr cid (deleteEmatch ft tt weak) st
    rw [e1]
    generalize hL : m.items.filter (fun x => decide (x.key = cid)) = L at *
    rcases visit_delete (ft := ft) (tt := tt) (weak := weak) L m st with
      ⟨h1, n, h2, h3⟩ | ⟨ys, x, zs, n, idx, cmpr, h1, h2, h3, h4, h5⟩
    · rw [h2] at hr' ⊢
      simp only [hspa]
      have hfull := full_append (ft := ft) (tt := tt) (weak := weak) (L.map (·.val)) [] st.heap (by
        intro y hy
        obtain ⟨x, hx, rfl⟩ := List.mem_map.1 hy
        exact h1 x hx)
      rw [List.append_nil] at hfull
      simp only [full, Bool.false_or] at hfull
      rw [hfull]
      refine ⟨ht', m, { st with heap := clearAll ft tt weak st.heap (L.map (·.val)), ndeleted := n }, ?_, rfl, ?_, hr', ?_⟩
      · simp only [List.append_nil, Except.ok.injEq, Prod.mk.injEq, true_and]
        refine ⟨?_, by simp [hspa]⟩
        rw [List.filter_eq_self.2]
        intro p _; simp
      · simp only [ne_eq] at h3
        change n ≠ 0 ↔ _
        rw [show (n ≠ 0) = ¬ n = 0 from rfl, h3]
        simp [List.any_eq_true]
      · rw [List.filter_eq_self.2]
        intro p _; simp
    · rw [h5] at hr' ⊢
      have hxm : x ∈ m.items := by
        have : x ∈ L := by rw [h1]; simp
        rw [← hL] at this
        exact (List.mem_filter.1 this).1
      have hxw : x.val ∈ wrt := hreg x hxm
      have hndL : (L.map (·.val)).Nodup := by
        rw [← hL]
        exact hnd.sublist (List.Sublist.map _ List.filter_sublist)
      simp only [List.contains_iff_mem, hxw, if_true]
      -- what `full` does
      have hfull := full_append (ft := ft) (tt := tt) (weak := weak) (ys.map (·.val)) (x.val :: zs.map (·.val)) st.heap (by
        intro y hy
        obtain ⟨x, hx, rfl⟩ := List.mem_map.1 hy
        exact h2 x hx)
      have e4 : delMatch ft tt (clearAll ft tt weak st.heap (ys.map (·.val)) x.val).fromTag = some (idx, cmpr) := by
        rw [clearAll_tag]; exact h4
      have e3 : deletable ft tt weak (clearAll ft tt weak st.heap (ys.map (·.val)) x.val) = true := by
        rw [deletable_clearAll]; exact h3
      rw [full_hit e4 e3, clearAll_clearAll] at hfull
      have hLv : L.map (·.val) = ys.map (·.val) ++ x.val :: zs.map (·.val) := by rw [h1]; simp
      rw [← hLv] at hfull
      have hmap : (ys ++ [x]).map (·.val) = ys.map (·.val) ++ [x.val] := by simp
      -- items after the erasure
      have herase : (Hash.Spec.erase m x.id).items = m.items.filter (fun y => y.val != x.val) := by
        simp only [Hash.Spec.erase]
        apply List.filter_congr
        intro y hy
        have h1 : y.id = x.id ↔ y = x := ⟨fun h => hr.id_inj hy hxm h, fun h => by rw [h]⟩
        have h2 : y.val = x.val ↔ y = x := ⟨fun h => List.inj_on_of_nodup_map hnd hy hxm h, fun h => by rw [h]⟩
        by_cases h : y = x
        · subst h; simp
        · have h3 : (y.id != x.id) = true := by simpa using mt h1.1 h
          have h4 : (y.val != x.val) = true := by simpa using mt h2.1 h
          rw [h3, h4]
      by_cases hc : cmpr = 2
      · subst hc
        rw [if_pos rfl] at hfull
        simp only [if_true]
        have hL' : (Hash.Spec.erase m x.id).items.filter (fun y => decide (y.key = cid)) = ys ++ zs := by
          rw [herase, List.filter_filter]
          have : m.items.filter (fun a => decide (a.key = cid) && (a.val != x.val)) = L.filter (fun y => y.val != x.val) := by
            rw [← hL, List.filter_filter]
            apply List.filter_congr
            intro a _
            rw [Bool.and_comm]
          rw [this, h1, List.filter_append, List.filter_cons]
          rw [hLv] at hndL
          rw [List.nodup_append] at hndL
          obtain ⟨n1, n2, n3⟩ := hndL
          rw [List.nodup_cons] at n2
          rw [if_neg (by simp), List.filter_eq_self.2, List.filter_eq_self.2]
          · intro a ha
            have : a.val ≠ x.val := by
              intro h
              exact n2.1 (h ▸ List.mem_map_of_mem ha)
            simpa using this
          · intro a ha
            have : a.val ≠ x.val := fun h => n3 _ (List.mem_map_of_mem ha) _ (by simp) h
            simpa using this
        have hih := ih ht' (Hash.Spec.erase m x.id) (wrt.filter (· != x.val))
          { heap := clearAll ft tt weak st.heap ((ys ++ [x]).map (·.val)), ndeleted := n + 1, spa := none, cmpr := 2 }
          (gone ++ [x.val]) hr'
          (by rw [herase]; exact hnd.sublist (List.Sublist.map _ List.filter_sublist))
          (by
            intro y hy
            rw [herase, List.mem_filter] at hy
            exact List.mem_filter.2 ⟨hreg y hy.1, hy.2⟩)
          rfl
          (by rw [hL']; rw [h1] at hf; simp at hf ⊢; omega)
        rw [hL'] at hih
        obtain ⟨ht2, m2, st2, g1, g2, g3, g4, g5⟩ := hih
        have hset := full_append (ft := ft) (tt := tt) (weak := weak) (ys.map (·.val)) (zs.map (·.val))
          (clearAll ft tt weak st.heap ((ys ++ [x]).map (·.val))) (by
            intro y hy
            obtain ⟨x, hx, rfl⟩ := List.mem_map.1 hy
            rw [deletable_clearAll]
            exact h2 x hx)
        rw [hmap, clearAll_clearAll, clearAll_congr (ps := ys.map (·.val) ++ [x.val] ++ ys.map (·.val))
          (qs := ys.map (·.val) ++ [x.val]) st.heap (by intro q; simp only [List.mem_append]; tauto)] at hset
        rw [hmap] at g1
        simp only [hmap, List.map_append] at g2 g3 g5
        rw [List.map_append, hset] at g1
        rw [hset] at g2 g3 g5
        rw [hmap]
        rw [hfull]
        refine ⟨ht2, m2, st2, ?_, g2, ?_, g4, ?_⟩
        · refine g1.trans ?_
          simp only [List.append_assoc, List.singleton_append, Except.ok.injEq, Prod.mk.injEq, true_and, and_true]
          rw [List.filter_filter]
          apply List.filter_congr
          intro p _
          by_cases h : p = x.val
          · subst h; simp
          · simp [h]
        · simp only [Bool.true_or, or_true, iff_true]
          have := g3
          simp only [] at this
          rw [this]
          simp
        · rw [g5, herase, List.filter_filter]
          apply List.filter_congr
          intro p _
          by_cases h : p.val = x.val
          · simp [h]
          · simp [h]
      · rw [if_neg hc] at hfull
        simp only [hc, if_false]
        rw [hfull]
        have hw : wrt.filter (fun y => y != x.val) = wrt.filter (fun p => ![x.val].contains p) := by
          apply List.filter_congr
          intro p _
          by_cases h : p = x.val
          · simp [h]
          · simp [h]
        refine ⟨ht', _, ⟨clearAll ft tt weak st.heap ((ys ++ [x]).map (·.val)), n + 1, none, cmpr⟩, ?_, ?_, ?_, hr', ?_⟩
        · rw [hw]
        · simp only []
          rw [hmap]
        · simp
        · rw [herase]
          apply List.filter_congr
          intro p _
          by_cases h : p.val = x.val
          · simp [h]
          · simp [h]

end

/-! ### The events -/

theorem pipeDecr_tag (s : Sess) : (pipeDecr s).fromTag = s.fromTag := by unfold pipeDecr ttlDecr; split <;> rfl

theorem pipeDecr_holds (s : Sess) : holds (pipeDecr s) = holds s := by unfold pipeDecr ttlDecr holds; split <;> rfl

theorem tickHeap_tag (h : Nat → Sess) (ps : List Nat) (q : Nat) : (tickHeap h ps q).fromTag = (h q).fromTag := by
  unfold tickHeap; split
  · exact pipeDecr_tag _
  · rfl

theorem tickHeap_holds (h : Nat → Sess) (ps : List Nat) (q : Nat) : holds (tickHeap h ps q) = holds (h q) := by
  unfold tickHeap; split
  · exact pipeDecr_holds _
  · rfl

/-- Removing records, and changing the memory without changing tags or releasing the remaining sessions. -/
theorem Inv.shrink {c : Conf} {w w' : World} {l : List Rec} (h : Inv c w l) (gone : List Nat)
    {m m' : Hash.Spec.MM Bytes Nat} (hm : m.items.map (fun x => (⟨x.val, x.key, (w.heap x.val).fromTag⟩ : Rec)) = l)
    (hr : Hash.R (htCfg c) w'.ht m') (hi : m'.items = m.items.filter (fun x => !gone.contains x.val))
    (htag : ∀ p, (w'.heap p).fromTag = (w.heap p).fromTag)
    (hw : ∀ p, p ∈ w'.wrt ↔ p ∈ w.wrt ∧ p ∉ gone) (hn : w.next ≤ w'.next)
    (hh : ∀ p ∈ l.map (·.p), p ∉ gone → holds (w'.heap p) = true) :
    Inv c w' (l.filter (fun r => !gone.contains r.p)) where
  tbl := by
    refine ⟨m', hr, ?_⟩
    rw [hi, ← hm, List.filter_map]
    simp only [htag]
    rfl
  nodup := h.nodup.sublist (List.Sublist.map _ List.filter_sublist)
  reg := by
    intro p
    rw [hw, h.reg]
    simp only [List.mem_map, List.mem_filter]
    constructor
    · rintro ⟨⟨r, hr, rfl⟩, hg⟩
      exact ⟨r, ⟨hr, by simpa using hg⟩, rfl⟩
    · rintro ⟨r, ⟨hr, hg⟩, rfl⟩
      exact ⟨⟨r, hr, rfl⟩, by simpa using hg⟩
  lt := fun r hr => Nat.lt_of_lt_of_le (h.lt r (List.mem_filter.1 hr).1) hn
  held := by
    intro r hr
    obtain ⟨h1, h2⟩ := List.mem_filter.1 hr
    exact hh r.p (List.mem_map_of_mem h1) (by simpa using h2)

/-- Changing only one live or dead session, keeping its tag and holds. -/
theorem Inv.touch {c : Conf} {w : World} {l : List Rec} (h : Inv c w l) (h' : Nat → Sess)
    (ht : ∀ q, (h' q).fromTag = (w.heap q).fromTag) (hh : ∀ q, holds (w.heap q) = true → holds (h' q) = true) :
    Inv c { w with heap := h' } l where
  tbl := by
    obtain ⟨m, hr, hl⟩ := h.tbl
    exact ⟨m, hr, by simp only [ht]; exact hl⟩
  nodup := h.nodup
  reg := h.reg
  lt := h.lt
  held := fun r hr => hh _ (h.held r hr)

theorem vals_eq {m : Hash.Spec.MM Bytes Nat} {h : Nat → Sess} {l : List Rec}
    (hl : m.items.map (fun x => (⟨x.val, x.key, (h x.val).fromTag⟩ : Rec)) = l) :
    m.items.map (·.val) = l.map (·.p) := by rw [← hl, List.map_map]; rfl

theorem tick_eq {c : Conf} {w : World} {l : List Rec} (h : Inv c w l) :
    ∃ w' gone, tick w = .ok (w', gone) ∧
      (∀ p, p ∈ gone ↔ p ∈ l.map (·.p) ∧ pipeTtl (w.heap p) = 0) ∧
      w'.heap = tickHeap w.heap (l.map (·.p)) ∧ w'.next = w.next ∧
      Inv c w' (l.filter (fun r => !gone.contains r.p)) := by
  obtain ⟨m, hr, hl⟩ := h.tbl
  obtain ⟨ht', last, order, hp, e1, e2⟩ := Hash.foreach_refines hr ttlForeach (w.heap, w.wrt, [])
  have hv := vals_eq hl
  have hndo : (order.map (·.val)).Nodup := (hp.map (·.val)).nodup_iff.2 (hv ▸ h.nodup)
  rw [visit_tick order m _ _ _ hndo] at e1 e2
  have hmem : ∀ p, p ∈ order.map (·.val) ↔ p ∈ l.map (·.p) := fun p => by
    rw [← hv]; exact (hp.map (·.val)).mem_iff
  have hgone : ∀ p, p ∈ [] ++ (order.map (·.val)).filter (fun p => decide (pipeTtl (w.heap p) = 0)) ↔
      p ∈ l.map (·.p) ∧ pipeTtl (w.heap p) = 0 := by
    intro p
    rw [List.nil_append, List.mem_filter, hmem]
    simp
  have hth : tickHeap w.heap (order.map (·.val)) = tickHeap w.heap (l.map (·.p)) := by
    funext q; simp only [tickHeap, hmem]
  refine ⟨{ w with ht := ht', heap := tickHeap w.heap (order.map (·.val)),
                    wrt := w.wrt.filter (fun p => !(decide (p ∈ order.map (·.val)) && decide (pipeTtl (w.heap p) = 0))) },
    [] ++ (order.map (·.val)).filter (fun p => decide (pipeTtl (w.heap p) = 0)), ?_, hgone, hth, rfl, ?_⟩
  · unfold tick
    rw [e1]
  · refine h.shrink _ hl e2 ?_ (fun p => tickHeap_tag _ _ _) ?_ (Nat.le_refl _) ?_
    · simp only [Hash.eraseAll]
      apply List.filter_congr
      intro x hx
      congr 1
      rw [Bool.eq_iff_iff]
      simp only [List.contains_iff_mem, List.nil_append]
      constructor
      · intro hi
        obtain ⟨y, hy, hid⟩ := List.mem_map.1 hi
        obtain ⟨hy1, hy2⟩ := List.mem_filter.1 hy
        have : y = x := hr.id_inj (hp.mem_iff.1 hy1) hx hid
        subst this
        exact List.mem_filter.2 ⟨List.mem_map_of_mem hy1, hy2⟩
      · intro hi
        obtain ⟨h1, h2⟩ := List.mem_filter.1 hi
        exact List.mem_map_of_mem (List.mem_filter.2 ⟨hp.mem_iff.2 hx, h2⟩)
    · intro p
      simp only [List.mem_filter, hgone, hmem]
      constructor
      · rintro ⟨h1, h2⟩
        refine ⟨h1, ?_⟩
        rintro ⟨h3, h4⟩
        simp [h3, h4] at h2
      · rintro ⟨h1, h2⟩
        refine ⟨h1, ?_⟩
        by_cases h3 : p ∈ l.map (·.p)
        · have : pipeTtl (w.heap p) ≠ 0 := fun h4 => h2 ⟨h3, h4⟩
          simp [this]
        · simp [h3]
    · intro p hp' _
      change holds (tickHeap _ _ p) = true
      rw [tickHeap_holds]
      obtain ⟨r, hr, rfl⟩ := List.mem_map.1 hp'
      exact h.held r hr

theorem full_tag (ft : Bytes) (tt : Option Bytes) (weak : Bool) : ∀ (ps : List Nat) (h : Nat → Sess) (q : Nat),
    ((full ft tt weak h ps).1 q).fromTag = (h q).fromTag
  | [], h, q => rfl
  | p :: ps, h, q => by
    unfold full
    cases e : delMatch ft tt (h p).fromTag with
    | none => exact full_tag ft tt weak ps h q
    | some x =>
      obtain ⟨idx, cmpr⟩ := x
      have ht : (setS h p (clearHold weak idx (h p)) q).fromTag = (h q).fromTag := by
        unfold setS; split
        · next hq => rw [hq, clearHold_tag]
        · rfl
      simp only []
      split
      · rw [full_tag ft tt weak ps]; exact ht
      · split
        · rw [full_tag ft tt weak ps]; exact ht
        · exact ht

theorem clrS_eq_none {ft : Bytes} {tt : Option Bytes} {weak : Bool} {s : Sess} (e : delMatch ft tt s.fromTag = none) :
    clrS ft tt weak s = s := by simp only [clrS, e]

/-- The sessions dealt with by a DELETE: the matching ones up to and including the first one that matches exactly
and is torn down. -/
theorem full_spec (ft : Bytes) (tt : Option Bytes) (weak : Bool) : ∀ (ps : List Nat) (h : Nat → Sess), ps.Nodup →
    ∃ done rest, ps = done ++ rest ∧
      (full ft tt weak h ps).1 = clearAll ft tt weak h done ∧
      (full ft tt weak h ps).2.1 = done.filter (fun p => deletable ft tt weak (h p)) ∧
      ((full ft tt weak h ps).2.2 = ps.any (fun p => matched ft tt (h p))) ∧
      (∀ p ∈ done, deletable ft tt weak (h p) = true → (∃ idx, delMatch ft tt (h p).fromTag = some (idx, 2)) ∨
        ∃ d, done = d ++ [p]) ∧
      (rest ≠ [] → ∃ d p idx cmpr, done = d ++ [p] ∧ deletable ft tt weak (h p) = true ∧
        delMatch ft tt (h p).fromTag = some (idx, cmpr) ∧ cmpr ≠ 2)
  | [], h, _ => ⟨[], [], rfl, by simp [full, clearAll_nil], by simp [full], by simp [full], by simp, by simp⟩
  | p :: ps, h, hnd => by
    rw [List.nodup_cons] at hnd
    cases e : delMatch ft tt (h p).fromTag with
    | none =>
      have hmp : matched ft tt (h p) = false := by simp [matched, e]
      have hdp : deletable ft tt weak (h p) = false := by simp [deletable, hmp]
      obtain ⟨done, rest, h1, h2, h3, h4, h5, h6⟩ := full_spec ft tt weak ps h hnd.2
      have hf : full ft tt weak h (p :: ps) = full ft tt weak h ps := by
        conv => lhs; unfold full
        simp only [e]
      refine ⟨p :: done, rest, by rw [h1]; rfl, ?_, ?_, ?_, ?_, ?_⟩
      · rw [hf, h2]
        have := clearAll_clearAll (ft := ft) (tt := tt) (weak := weak) h [p] done
        rw [clear_none e] at this
        exact this
      · rw [hf, h3, List.filter_cons, hdp]; rfl
      · rw [hf, h4]; simp [hmp]
      · intro q hq hd
        rcases List.mem_cons.1 hq with rfl | hq
        · rw [hdp] at hd; cases hd
        · rcases h5 q hq hd with h | ⟨d, hd⟩
          · exact .inl h
          · exact .inr ⟨p :: d, by rw [hd]; rfl⟩
      · intro hr
        obtain ⟨d, q, idx, cmpr, g1, g2, g3, g4⟩ := h6 hr
        exact ⟨p :: d, q, idx, cmpr, by rw [g1]; rfl, g2, g3, g4⟩
    | some x =>
      obtain ⟨idx, cmpr⟩ := x
      have hmp : matched ft tt (h p) = true := by simp [matched, e]
      obtain ⟨done, rest, h1, h2, h3, h4, h5, h6⟩ := full_spec ft tt weak ps (clearAll ft tt weak h [p]) hnd.2
      have hoth : ∀ q ∈ ps, clearAll ft tt weak h [p] q = h q := fun q hq => by
        unfold clearAll
        rw [if_neg]
        simp only [List.mem_singleton]
        rintro rfl
        exact hnd.1 hq
      have hdone : ∀ q ∈ done, q ∈ ps := fun q hq => by rw [h1]; simp [hq]
      rw [clearAll_clearAll] at h2
      simp only [deletable_clearAll, clearAll_tag] at h3 h5 h6
      have h4' : (full ft tt weak (clearAll ft tt weak h [p]) ps).2.2 = ps.any (fun p => matched ft tt (h p)) := by
        rw [h4]
        rw [Bool.eq_iff_iff]
        simp only [List.any_eq_true]
        constructor
        · rintro ⟨q, hq, hm⟩; exact ⟨q, hq, by rw [hoth q hq] at hm; exact hm⟩
        · rintro ⟨q, hq, hm⟩; exact ⟨q, hq, by rw [hoth q hq]; exact hm⟩
      by_cases hd : deletable ft tt weak (h p) = true
      · rw [full_hit e hd]
        by_cases hc : cmpr = 2
        · rw [if_pos hc]
          refine ⟨p :: done, rest, by rw [h1]; rfl, h2, ?_, ?_, ?_, ?_⟩
          · rw [h3, List.filter_cons, hd]; rfl
          · simp [hmp]
          · intro q hq hdq
            rcases List.mem_cons.1 hq with rfl | hq
            · exact .inl ⟨idx, hc ▸ e⟩
            · rcases h5 q hq hdq with h | ⟨d, hd⟩
              · exact .inl h
              · exact .inr ⟨p :: d, by rw [hd]; rfl⟩
          · intro hr
            obtain ⟨d, q, idx, cmpr, g1, g2, g3, g4⟩ := h6 hr
            exact ⟨p :: d, q, idx, cmpr, by rw [g1]; rfl, g2, g3, g4⟩
        · rw [if_neg hc]
          refine ⟨[p], ps, rfl, rfl, ?_, ?_, ?_, ?_⟩
          · rw [List.filter_cons, hd]; rfl
          · simp [hmp]
          · intro q hq _
            rw [List.mem_singleton] at hq
            exact .inr ⟨[], by rw [hq]; rfl⟩
          · intro _
            exact ⟨[], p, idx, cmpr, rfl, hd, e, hc⟩
      · have hd' : deletable ft tt weak (h p) = false := by simpa using hd
        have hh : holds (clearHold weak idx (h p)) = true := by
          unfold deletable at hd'
          rw [hmp, clrS_some e] at hd'
          simpa using hd'
        have hf : full ft tt weak h (p :: ps) = ((full ft tt weak (clearAll ft tt weak h [p]) ps).1,
            (full ft tt weak (clearAll ft tt weak h [p]) ps).2.1, true) := by
          conv => lhs; unfold full
          simp only [e, hh, if_true, setS_clear e]
        rw [hf]
        refine ⟨p :: done, rest, by rw [h1]; rfl, h2, ?_, ?_, ?_, ?_⟩
        · rw [h3, List.filter_cons, hd']; rfl
        · simp [hmp]
        · intro q hq hdq
          rcases List.mem_cons.1 hq with rfl | hq
          · rw [hd'] at hdq; cases hdq
          · rcases h5 q hq hdq with h | ⟨d, hd⟩
            · exact .inl h
            · exact .inr ⟨p :: d, by rw [hd]; rfl⟩
        · intro hr
          obtain ⟨d, q, idx, cmpr, g1, g2, g3, g4⟩ := h6 hr
          exact ⟨p :: d, q, idx, cmpr, by rw [g1]; rfl, g2, g3, g4⟩

theorem handleDelete_eq {c : Conf} {w : World} {l : List Rec} (h : Inv c w l) (cid ft : Bytes) (tt : Option Bytes)
    (weak : Bool) :
    ∃ w', handleDelete c w cid ft tt weak =
        .ok (w', (full ft tt weak w.heap ((l.filter (fun r => decide (r.cid = cid))).map (·.p))).2.2,
          (full ft tt weak w.heap ((l.filter (fun r => decide (r.cid = cid))).map (·.p))).2.1) ∧
      w'.heap = (full ft tt weak w.heap ((l.filter (fun r => decide (r.cid = cid))).map (·.p))).1 ∧
      w'.next = w.next ∧
      Inv c w' (l.filter (fun r => !(full ft tt weak w.heap
        ((l.filter (fun r => decide (r.cid = cid))).map (·.p))).2.1.contains r.p)) := by
  obtain ⟨m, hr, hl⟩ := h.tbl
  have hv := vals_eq hl
  have hvf : (m.items.filter (fun x => decide (x.key = cid))).map (·.val) =
      (l.filter (fun r => decide (r.cid = cid))).map (·.p) := by
    rw [← hl, ← filter_map_rec, List.map_map]; rfl
  have hnd : (m.items.map (·.val)).Nodup := hv ▸ h.nodup
  have hlen : (m.items.filter (fun x => decide (x.key = cid))).length < w.ht.l1.num + 1 := by
    rw [hr.num]
    have := List.length_filter_le (fun x : Hash.Spec.Item Bytes Nat => decide (x.key = cid)) m.items
    omega
  obtain ⟨ht', m', st', e1, e2, e3, e4, e5⟩ := deleteLoop_eq (ft := ft) (tt := tt) (weak := weak) c cid
    (w.ht.l1.num + 1) w.ht m w.wrt ⟨w.heap, 0, none, 0⟩ [] hr hnd
    (by intro x hx; rw [h.reg, ← hv]; exact List.mem_map_of_mem hx) rfl hlen
  rw [hvf] at e1 e2 e3 e5
  simp only [] at e1 e2 e3 e5
  have hok : (st'.ndeleted != 0) =
      (full ft tt weak w.heap ((l.filter (fun r => decide (r.cid = cid))).map (·.p))).2.2 := by
    rw [Bool.eq_iff_iff]
    simp only [bne_iff_ne, ne_eq]
    simpa using e3
  refine ⟨{ w with ht := ht', heap := st'.heap,
                    wrt := w.wrt.filter (fun p => !(full ft tt weak w.heap
                      ((l.filter (fun r => decide (r.cid = cid))).map (·.p))).2.1.contains p) }, ?_, e2, rfl, ?_⟩
  · unfold handleDelete
    rw [e1]
    simp only [hok, List.nil_append]
  · refine h.shrink _ hl e4 e5 ?_ ?_ (Nat.le_refl _) ?_
    · intro p
      change (st'.heap p).fromTag = _
      rw [e2, full_tag]
    · intro p
      simp only [List.mem_filter, List.contains_iff_mem, Bool.not_eq_true', ← Bool.not_eq_true]
    · intro p hp hg
      change holds (st'.heap p) = true
      rw [e2]
      obtain ⟨r, hr', rfl⟩ := List.mem_map.1 hp
      have hh := h.held r hr'
      obtain ⟨done, rest, g1, g2, g3, -⟩ := full_spec ft tt weak _ w.heap
        (h.nodup.sublist (List.Sublist.map (fun r : Rec => r.p) (List.filter_sublist (p := fun r : Rec => decide (r.cid = cid)))))
      rw [g2]
      unfold clearAll
      split
      · next hd =>
        rw [g3, List.mem_filter] at hg
        have hnd : deletable ft tt weak (w.heap r.p) = false := by
          rw [← Bool.not_eq_true]; exact fun h => hg ⟨hd, h⟩
        unfold deletable at hnd
        cases hm : delMatch ft tt (w.heap r.p).fromTag with
        | none => rw [clrS_eq_none hm]; exact hh
        | some x =>
          have : matched ft tt (w.heap r.p) = true := by simp [matched, hm]
          rw [this] at hnd
          simpa using hnd
      · exact hh

theorem ttlReset_tag (s : Sess) (d : Bool) : (ttlReset s d).fromTag = s.fromTag := rfl

theorem ulExisting_props {s s' : Sess} {d update weak : Bool} {l : Listen} (h : ulExisting s d update weak l = some s') :
    s'.fromTag = s.fromTag ∧ (holds s = true → holds s' = true) ∧ s'.shared = s.shared := by
  unfold ulExisting at h
  cases l <;> cases weak <;> cases update <;> cases hc : s.complete <;> cases d <;>
    simp [hc] at h <;> subst h <;>
    simp [ttlReset, ttlResetWith, holds, upd]

theorem step_inv {c : Conf} {w : World} {l : List Rec} (h : Inv c w l) (e : Ev) :
    ∃ w' o, step c w e = .ok (w', o) ∧ Inv c w' (recs l o) := by
  cases e with
  | look cid ft tt =>
    simp only [step, findStream_eq h]
    cases firstLeg l cid ft tt with
    | none => exact ⟨w, _, rfl, h⟩
    | some x => exact ⟨w, _, rfl, h⟩
  | ul update cid ft tt weak li mem =>
    simp only [step, findStream_eq h]
    cases hf : firstLeg l cid ft tt with
    | some x =>
      obtain ⟨p, r⟩ := x
      simp only []
      cases hs : ulExisting (w.heap p) (if update = true then decide (r = 1) else !decide (r = 1)) update weak li with
      | none => exact ⟨w, _, rfl, h⟩
      | some s' =>
        obtain ⟨p1, p2, -⟩ := ulExisting_props hs
        refine ⟨_, _, rfl, h.touch _ ?_ ?_⟩
        · intro q; unfold setS; split
          · next hq => rw [hq, p1]
          · rfl
        · intro q hq; unfold setS; split
          · next hq' => rw [hq'] at hq; exact p2 hq
          · exact hq
    | none =>
      cases update with
      | false => exact ⟨w, _, rfl, h⟩
      | true =>
        by_cases hli : li = .failed
        · exact ⟨w, .failed, by simp [hli], h⟩
        · obtain ⟨m, hr, hl⟩ := h.tbl
          have ha := Hash.append_refines hr cid w.next mem
          simp only [Hash.Spec.step, htCfg, Bool.false_and, Bool.false_eq_true, if_false] at ha
          obtain ⟨t', hd, first, a1, a2, a3⟩ := ha
          injection a2 with a2 a2'
          subst a2
          refine ⟨⟨t', setS w.heap w.next (newSess c ft weak), w.wrt ++ [w.next], w.next + 1⟩, .created w.next cid ft, ?_, ?_⟩
          · simp only [if_true, hli, if_false]
            rw [htCfg, a1]
          · have hne : ∀ r ∈ l, r.p ≠ w.next := fun r hr => by have := h.lt r hr; omega
            refine ⟨⟨_, a3, ?_⟩, ?_, ?_, ?_, ?_⟩
            · simp only [List.map_append, List.map_cons, List.map_nil, setS_same]
              simp only [recs]
              congr 1
              rw [← hl]
              apply List.map_congr_left
              intro x hx
              have : x.val ≠ w.next := hne _ (hl ▸ List.mem_map_of_mem (f := fun x : Hash.Spec.Item Bytes Nat => (⟨x.val, x.key, (w.heap x.val).fromTag⟩ : Rec)) hx)
              rw [setS_other this]
            · simp only [recs, List.map_append, List.map_cons, List.map_nil]
              rw [List.nodup_append]
              refine ⟨h.nodup, by simp, ?_⟩
              intro a ha b hb
              simp at hb
              subst hb
              obtain ⟨r, hr, rfl⟩ := List.mem_map.1 ha
              exact hne r hr
            · intro p
              simp only [recs, List.map_append, List.map_cons, List.map_nil, List.mem_append, h.reg]
            · intro r hr
              simp only [recs, List.mem_append, List.mem_singleton] at hr
              rcases hr with hr | rfl
              · have := h.lt r hr; exact Nat.lt_succ_of_lt this
              · exact Nat.lt_succ_self _
            · intro r hr
              simp only [recs, List.mem_append, List.mem_singleton] at hr
              rcases hr with hr | rfl
              · change holds (setS _ _ _ _) = true
                rw [setS_other (hne r hr)]; exact h.held r hr
              · change holds (setS _ _ _ _) = true
                rw [setS_same]
                cases weak <;> simp [holds, newSess]
  | delete cid ft tt weak =>
    obtain ⟨w', e1, -, -, e2⟩ := handleDelete_eq h cid ft tt weak
    refine ⟨w', .deleted (full ft tt weak w.heap ((l.filter (fun r => decide (r.cid = cid))).map (·.p))).2.2 _, ?_, e2⟩
    simp only [step, e1]
  | deleteAll =>
    obtain ⟨m, hr, hl⟩ := h.tbl
    obtain ⟨t', vs, e1, e2, -⟩ := Hash.purge_refines (w.ht.l1.num + 1) w.ht m hr (by rw [hr.num]; omega)
    refine ⟨_, _, by simp only [step, e1]; rfl, ⟨⟨_, e2, rfl⟩, by simp [recs], by simp [recs], by simp [recs], by simp [recs]⟩⟩
  | packet p d =>
    refine ⟨_, _, rfl, h.touch _ ?_ ?_⟩
    · intro q; unfold setS; split
      · next hq => rw [hq]; rfl
      · rfl
    · intro q hq; unfold setS; split
      · next hq' => rw [hq'] at hq; exact hq
      · exact hq
  | setTtl p d v =>
    refine ⟨_, _, rfl, h.touch _ ?_ ?_⟩
    · intro q; unfold setS; split
      · next hq => rw [hq]; rfl
      · rfl
    · intro q hq; unfold setS; split
      · next hq' => rw [hq'] at hq; exact hq
      · exact hq
  | tick =>
    obtain ⟨w', gone, e1, -, -, -, e2⟩ := tick_eq h
    exact ⟨w', .expired gone, by simp only [step, e1], e2⟩

theorem run_inv {c : Conf} : ∀ (es : List Ev) {w : World} {l : List Rec}, Inv c w l →
    ∃ w' os, run c w es = .ok (w', os) ∧ Inv c w' (os.foldl recs l) ∧ os.length = es.length
  | [], w, l, h => ⟨w, [], rfl, h, rfl⟩
  | e :: es, w, l, h => by
    obtain ⟨w1, o, e1, h1⟩ := step_inv h e
    obtain ⟨w2, os, e2, h2, h3⟩ := run_inv es h1
    exact ⟨w2, o :: os, by simp only [run, e1, e2], h2, by simp [h3]⟩

end Verif.Sess
