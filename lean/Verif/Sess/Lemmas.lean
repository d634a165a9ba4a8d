import Verif.Sess.Spec
import Verif.Hash.Purge

/-! Helper lemmas: tags, the session table as a list of records, effect of each event. -/

namespace Verif.Sess

/-! ### Tags -/

theorem compareTags_eq (st t : Bytes) :
    compareTags st t = if st = t then 1 else if (t ++ [semi]) <+: st then 2 else 0 := by
  unfold compareTags
  by_cases h1 : st.length < t.length
  · rw [if_pos h1, if_neg (by rintro rfl; omega), if_neg]
    rintro ⟨r, rfl⟩
    simp at h1
    omega
  · rw [if_neg h1]
    by_cases h2 : st.take t.length = t
    · rw [if_pos h2]
      by_cases h3 : st.length = t.length
      · have : st = t := by rw [← h2, ← h3]; simp
        rw [if_pos h3, if_pos this]
      · have hne : st ≠ t := by rintro rfl; exact h3 rfl
        rw [if_neg h3, if_neg hne]
        have hs : st = t ++ st.drop t.length := by conv => lhs; rw [← List.take_append_drop t.length st, h2]
        have hd : st.drop t.length ≠ [] := by
          intro h; rw [h, List.append_nil] at hs; exact hne hs
        cases hx : st.drop t.length with
        | nil => exact absurd hx hd
        | cons b r =>
          rw [hx] at hs
          have : st[t.length]? = some b := by rw [hs]; simp
          rw [this]
          by_cases hb : b = semi
          · subst hb
            rw [if_pos rfl, if_pos ⟨r, by rw [hs]; simp⟩]
          · rw [if_neg (by simpa using hb), if_neg]
            rintro ⟨r', hr'⟩
            rw [hs, List.append_assoc] at hr'
            have := List.append_cancel_left hr'
            simp at this
            exact hb this.1.symm
    · rw [if_neg h2, if_neg (by rintro rfl; simp at h2), if_neg]
      rintro ⟨r, rfl⟩
      apply h2
      simp

theorem strrchr_some {c : UInt8} : ∀ {s r : Bytes}, strrchr c s = some r →
    ∃ a m, s = a ++ c :: m ∧ c ∉ m ∧ r = c :: m
  | [], _, h => by simp [strrchr] at h
  | b :: s, r, h => by
    unfold strrchr at h
    cases hs : strrchr c s with
    | some r' =>
      rw [hs] at h
      simp only [Option.some.injEq] at h
      obtain ⟨a, m, h1, h2, h3⟩ := strrchr_some hs
      exact ⟨b :: a, m, by rw [h1]; rfl, h2, by rw [← h]; exact h3⟩
    | none =>
      rw [hs] at h
      simp only [] at h
      split at h
      · next hb =>
        subst hb
        simp only [Option.some.injEq] at h
        refine ⟨[], s, rfl, ?_, h.symm⟩
        intro hm
        have : ∀ s : Bytes, b ∈ s → strrchr b s ≠ none := by
          intro s
          induction s with
          | nil => simp
          | cons x s ih =>
            intro hx
            unfold strrchr
            rcases List.mem_cons.1 hx with h | h
            · cases strrchr b s with
              | some _ => simp
              | none => simp [h]
            · cases hq : strrchr b s with
              | some _ => simp
              | none => exact absurd hq (ih h)
        exact this s hm hs
      · cases h

theorem strrchr_none {c : UInt8} : ∀ {s : Bytes}, strrchr c s = none ↔ c ∉ s
  | [] => by simp [strrchr]
  | b :: s => by
    unfold strrchr
    cases hs : strrchr c s with
    | some r =>
      obtain ⟨a, m, h1, _, _⟩ := strrchr_some hs
      simp [h1]
    | none =>
      have := strrchr_none.1 hs
      by_cases hb : b = c
      · simp [hb]
      · simp [hb, this, Ne.symm hb]

theorem strrchr_append {c : UInt8} {a m : Bytes} (h : c ∉ m) : strrchr c (a ++ c :: m) = some (c :: m) := by
  induction a with
  | nil =>
    simp only [List.nil_append, strrchr]
    rw [strrchr_none.2 h]
    simp
  | cons b a ih =>
    simp only [List.cons_append, strrchr, ih]

/-- The leg on which a session with tag `st` answers. -/
def leg (ft : Bytes) (tt : Option Bytes) (st : Bytes) : Option Nat :=
  if st = ft then some 0
  else match tt with
    | none => none
    | some t =>
      if st = t then some 1
      else if (t ++ [semi]) <+: st ∧ strrchr semi ft = strrchr semi st then some 1 else none

theorem ematch_eq (ft : Bytes) (tt : Option Bytes) (st : Bytes) : ematch ft tt st = .ok (leg ft tt st) := by
  unfold ematch leg
  have h0 : (st.length = ft.length ∧ st.take st.length = ft.take st.length) ↔ st = ft := by
    constructor
    · rintro ⟨h1, h2⟩
      rw [h1] at h2
      rw [List.take_length] at h2
      rw [← h1, List.take_length] at h2
      exact h2
    · rintro rfl; exact ⟨rfl, rfl⟩
  by_cases h : st = ft
  · rw [if_pos (h0.2 h), if_pos h]
  · rw [if_neg (mt h0.1 h), if_neg h]
    cases tt with
    | none => rfl
    | some t =>
      simp only [compareTags_eq]
      by_cases h1 : st = t
      · simp [h1]
      · by_cases h2 : (t ++ [semi]) <+: st
        · rw [if_neg h1, if_neg h1, if_pos h2]
          simp only [h2, true_and]
          have hs : semi ∈ st := by
            obtain ⟨r, rfl⟩ := h2
            simp
          cases hc : strrchr semi st with
          | none => exact absurd hs (strrchr_none.1 hc)
          | some c1 =>
            cases hf : strrchr semi ft with
            | none => simp
            | some c2 =>
              by_cases h3 : c1 = c2
              · simp [h3]
              · simp [h3, Ne.symm h3]
        · simp [h1, h2]

/-! ### The table as a list of records -/

theorem visit_cons {K V S : Type} {f : V → S → S × Hash.MVal} {m : Hash.Spec.MM K V} {s s' : S}
    {x : Hash.Spec.Item K V} {xs : List (Hash.Spec.Item K V)} {d b : Bool} (hf : f x.val s = (s', ⟨d, b⟩)) :
    Hash.Spec.visit f m s (x :: xs) =
      if b then (if d then Hash.Spec.erase m x.id else m, s')
      else Hash.Spec.visit f (if d then Hash.Spec.erase m x.id else m) s' xs := by
  simp only [Hash.Spec.visit, hf]

structure Inv (c : Conf) (w : World) (l : List Rec) : Prop where
  tbl : ∃ m, Hash.R (htCfg c) w.ht m ∧
    m.items.map (fun x => (⟨x.val, x.key, (w.heap x.val).fromTag⟩ : Rec)) = l
  nodup : (l.map (·.p)).Nodup
  reg : ∀ p, p ∈ w.wrt ↔ p ∈ l.map (·.p)
  lt : ∀ r ∈ l, r.p < w.next
  held : ∀ r ∈ l, holds (w.heap r.p) = true

theorem Inv.init (c : Conf) : Inv c world0 [] where
  tbl := ⟨_, Hash.R.init _, rfl⟩
  nodup := by simp
  reg := by simp [world0]
  lt := by simp
  held := by simp

theorem filter_map_rec {m : Hash.Spec.MM Bytes Nat} {h : Nat → Sess} (cid : Bytes) :
    (m.items.filter (fun x => decide (x.key = cid))).map (fun x => (⟨x.val, x.key, (h x.val).fromTag⟩ : Rec)) =
      (m.items.map (fun x => (⟨x.val, x.key, (h x.val).fromTag⟩ : Rec))).filter (fun r => decide (r.cid = cid)) := by
  rw [List.filter_map]
  rfl

/-- First session of the call with a leg for the tags. -/
def firstLeg (l : List Rec) (cid ft : Bytes) (tt : Option Bytes) : Option (Nat × Nat) :=
  (l.filter (fun r => decide (r.cid = cid))).findSome? (fun r => (leg ft tt r.ft).map (fun k => (r.p, k)))

theorem findStream_eq {c : Conf} {w : World} {l : List Rec} (h : Inv c w l) (cid ft : Bytes) (tt : Option Bytes) :
    findStream c w cid ft tt = .ok (firstLeg l cid ft tt) := by
  obtain ⟨m, hr, hl⟩ := h.tbl
  unfold findStream
  obtain ⟨t', e1, -⟩ := Hash.foreachKey_refines hr cid (findCb w.heap ft tt) (.ok none)
  have key : ∀ (xs : List (Hash.Spec.Item Bytes Nat)) (mm : Hash.Spec.MM Bytes Nat),
      (Hash.Spec.visit (findCb w.heap ft tt) mm (.ok none) xs).2 =
        .ok ((xs.map (fun x => (⟨x.val, x.key, (w.heap x.val).fromTag⟩ : Rec))).findSome?
          (fun r => (leg ft tt r.ft).map (fun k => (r.p, k)))) := by
    intro xs
    induction xs with
    | nil => intro mm; rfl
    | cons x xs ih =>
      intro mm
      cases hx : leg ft tt (w.heap x.val).fromTag with
      | none =>
        rw [visit_cons (s' := .ok none) (d := false) (b := false) (by simp only [findCb, ematch_eq, hx])]
        simp [hx, ih]
      | some r =>
        rw [visit_cons (s' := .ok (some (x.val, r))) (d := false) (b := true) (by simp only [findCb, ematch_eq, hx])]
        simp [hx]
  rw [e1, key, filter_map_rec, hl]
  rfl

/-! ### Ticks -/

theorem setS_same (h : Nat → Sess) (p : Nat) (s : Sess) : setS h p s p = s := by simp [setS]

theorem setS_other {h : Nat → Sess} {p q : Nat} {s : Sess} (hne : q ≠ p) : setS h p s q = h q := by simp [setS, hne]

/-- What a tick does to a session that it does not remove. -/
def tickHeap (h : Nat → Sess) (ps : List Nat) : Nat → Sess :=
  fun q => if q ∈ ps ∧ pipeTtl (h q) ≠ 0 then pipeDecr (h q) else h q

theorem visit_tick : ∀ (xs : List (Hash.Spec.Item Bytes Nat)) (m : Hash.Spec.MM Bytes Nat) (h : Nat → Sess)
    (wrt gone : List Nat), (xs.map (·.val)).Nodup →
    Hash.Spec.visit ttlForeach m (h, wrt, gone) xs =
      (Hash.eraseAll m ((xs.filter (fun x => decide (pipeTtl (h x.val) = 0))).map (·.id)),
       (tickHeap h (xs.map (·.val)),
        wrt.filter (fun p => !(decide (p ∈ xs.map (·.val)) && decide (pipeTtl (h p) = 0))),
        gone ++ (xs.map (·.val)).filter (fun p => decide (pipeTtl (h p) = 0))))
  | [], m, h, wrt, gone, _ => by
    simp only [Hash.Spec.visit, List.filter_nil, List.map_nil, Hash.eraseAll_nil, List.append_nil, Prod.mk.injEq,
      true_and, List.not_mem_nil, decide_false, Bool.false_and, Bool.not_false, and_true]
    refine ⟨?_, ?_⟩
    · funext q; simp [tickHeap]
    · rw [List.filter_eq_self.2]; intros; rfl
  | x :: xs, m, h, wrt, gone, hnd => by
    rw [List.map_cons, List.nodup_cons] at hnd
    by_cases h0 : pipeTtl (h x.val) = 0
    · rw [visit_cons (s' := (h, wrt.filter (· != x.val), gone ++ [x.val])) (d := true) (b := false)
        (by simp only [ttlForeach, h0, if_true])]
      rw [if_neg (by simp), if_pos rfl, visit_tick xs _ _ _ _ hnd.2, Hash.eraseAll_erase]
      simp only [List.filter_cons, List.map_cons, h0, decide_true, if_true, Prod.mk.injEq, true_and, List.append_assoc,
        List.singleton_append, and_true]
      refine ⟨?_, ?_⟩
      · funext q
        simp only [tickHeap, List.mem_cons]
        by_cases hq : q = x.val
        · subst hq; simp [h0]
        · simp [hq]
      · rw [List.filter_filter]
        apply List.filter_congr
        intro p _
        simp only [List.mem_cons]
        by_cases hq : p = x.val
        · subst hq; simp [h0]
        · simp [hq]
    · rw [visit_cons (s' := (setS h x.val (pipeDecr (h x.val)), wrt, gone)) (d := false) (b := false)
        (by simp only [ttlForeach, h0, if_false])]
      rw [if_neg (by simp), if_neg (by simp), visit_tick xs _ _ _ _ hnd.2]
      have hoth : ∀ q ∈ xs.map (·.val), setS h x.val (pipeDecr (h x.val)) q = h q := by
        intro q hq
        exact setS_other (by rintro rfl; exact hnd.1 hq)
      simp only [List.filter_cons, List.map_cons, h0, decide_false, Bool.false_eq_true, if_false, Prod.mk.injEq]
      refine ⟨?_, ?_, ?_, ?_⟩
      · congr 2
        apply List.filter_congr
        intro y hy
        rw [hoth _ (List.mem_map_of_mem hy)]
      · funext q
        simp only [tickHeap, List.mem_cons]
        by_cases hq : q = x.val
        · subst hq
          simp [h0, hnd.1, setS_same]
        · simp [hq, setS_other hq]
      · apply List.filter_congr
        intro p _
        simp only [List.mem_cons]
        by_cases hq : p = x.val
        · subst hq; simp [h0, hnd.1]
        · simp [hq, setS_other hq]
      · congr 1
        apply List.filter_congr
        intro q hq
        rw [hoth q hq]

end Verif.Sess
