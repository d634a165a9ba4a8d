import Verif.Pcount.Model
import Verif.Util.Tot
import Mathlib.Tactic.ByContra
import Mathlib.Data.List.Perm.Subperm

/-!
# C54: drop locations
-/

namespace Verif.Pcount
open Verif.Util

def ptrAt (s : St) (i : Nat) : Option Nat := (s.slots[i]?).bind (·.ptr)
def cntAt (s : St) (i : Nat) : Nat := ((s.slots[i]?).map (·.cnt)).getD 0

/-- The slots before `i` are taken by other locations. -/
def passed (s : St) (loc i : Nat) : Prop := ∀ j, j < i → ∃ p, ptrAt s j = some p ∧ p ≠ loc

/-- What a thread at `pc` may rely on. -/
def okAt (s : St) (loc : Nat) : Pc → Prop
  | .load i => i < size ∧ passed s loc i
  | .cas i => i < size ∧ passed s loc i
  | .count i => i < size ∧ ptrAt s i = some loc
  | .done => True

structure Inv (s : St) : Prop where
  len : s.slots.length = size
  uniq : ∀ i j p, ptrAt s i = some p → ptrAt s j = some p → i = j
  /-- Slots are taken in order. -/
  dense : ∀ i p, ptrAt s i = some p → ∀ j, j < i → ∃ q, ptrAt s j = some q
  thr : ∀ (k : Nat) (t : Thr), s.thrs[k]? = some t → okAt s t.loc t.pc
  attr : ∀ l i, (l, some i) ∈ s.attr → ptrAt s i = some l
  lost : ∀ l, (l, none) ∈ s.attr → passed s l size
  cnt : ∀ i, cntAt s i = s.attr.countP fun a => a.2 = some i
  total : s.ndropped = s.attr.length + s.thrs.countP fun t => t.pc ≠ .done

theorem ptrAt_lt {s : St} (h : s.slots.length = size) {i p : Nat} (hp : ptrAt s i = some p) : i < size := by
  unfold ptrAt at hp
  rw [← h]
  by_contra c
  rw [List.getElem?_eq_none (by omega)] at hp
  cases hp

theorem countP_set {α : Type} (f : α → Bool) : ∀ (l : List α) (i : Nat) (t t' : α), l[i]? = some t →
    (l.set i t').countP f + (if f t then 1 else 0) = l.countP f + (if f t' then 1 else 0)
  | [], i, t, t', h => by simp at h
  | a :: l, 0, t, t', h => by
    simp at h; subst h
    simp only [List.set_cons_zero, List.countP_cons]; omega
  | a :: l, i + 1, t, t', h => by
    have := countP_set f l i t t' (by simpa using h)
    simp only [List.set_cons_succ, List.countP_cons]; omega

theorem init_inv : Inv St.init := by
  have hp : ∀ i, ptrAt St.init i = none := by
    intro i
    unfold ptrAt St.init
    by_cases h : i < size
    · simp [h]
    · simp [h]
  have hc : ∀ i, cntAt St.init i = 0 := by
    intro i
    unfold cntAt St.init
    by_cases h : i < size
    · simp [h]
    · simp [h]
  refine ⟨by simp [St.init], ?_, ?_, by simp [St.init], by simp [St.init], by simp [St.init], ?_, rfl⟩
  · intro i j p h; rw [hp] at h; cases h
  · intro i p h; rw [hp] at h; cases h
  · intro i; rw [hc]; rfl

/-- Only the thread's position changes. -/
theorem move_inv {s : St} (h : Inv s) {th : Nat} {t : Thr} (ht : s.thrs[th]? = some t) {pc : Pc} (h0 : t.pc ≠ .done) (h1 : pc ≠ .done)
    (hok : okAt s t.loc pc) : Inv { s with thrs := s.thrs.set th { t with pc := pc } } := by
  refine ⟨h.len, h.uniq, h.dense, ?_, h.attr, h.lost, h.cnt, ?_⟩
  · intro k u hk
    rcases get_set hk with ⟨-, rfl⟩ | ⟨-, hk⟩
    · cases pc <;> exact hok
    · have := h.thr k u hk
      cases hp : u.pc <;> rw [hp] at this <;> exact this
  · have := h.total
    have hs := countP_set (fun u : Thr => decide (u.pc ≠ .done)) s.thrs th t { t with pc := pc } ht
    simp only [h0, h1, ne_eq, not_false_eq_true, decide_true, if_true] at hs
    simp only [ne_eq] at this ⊢
    omega

theorem enter_inv {s : St} (h : Inv s) {th : Nat} {t : Thr} (ht : s.thrs[th]? = some t) (h0 : t.pc ≠ .done) {i : Nat} (hi : i ≤ size)
    (hp : passed s t.loc i) : Inv (enter s th t i) := by
  unfold enter
  by_cases c : i < size
  · rw [if_pos c]
    exact move_inv h ht h0 (by simp) ⟨c, hp⟩
  · rw [if_neg c]
    have hi : i = size := by omega
    subst hi
    refine ⟨h.len, h.uniq, h.dense, ?_, ?_, ?_, ?_, ?_⟩
    · intro k u hk
      rcases get_set hk with ⟨-, rfl⟩ | ⟨-, hk⟩
      · trivial
      · have := h.thr k u hk
        cases hp : u.pc <;> rw [hp] at this <;> exact this
    · intro l j hm
      rcases List.mem_cons.1 hm with e | hm
      · simp at e
      · exact h.attr l j hm
    · intro l hm
      rcases List.mem_cons.1 hm with e | hm
      · simp at e; subst e; exact hp
      · exact h.lost l hm
    · intro j
      have := h.cnt j
      simp only [List.countP_cons]
      simpa [cntAt] using this
    · have := h.total
      have hs := countP_set (fun u : Thr => decide (u.pc ≠ .done)) s.thrs th t { t with pc := .done } ht
      simp only [h0, ne_eq, not_false_eq_true, decide_true, if_true, not_true, decide_false] at hs
      simp only [ne_eq, List.length_cons] at this ⊢
      simp only [Bool.false_eq_true, if_false, Nat.add_zero] at hs
      omega

theorem passed_mono {s s' : St} (h : ∀ i p, ptrAt s i = some p → ptrAt s' i = some p) {l i : Nat} (hp : passed s l i) : passed s' l i := by
  intro j hj
  obtain ⟨p, h1, h2⟩ := hp j hj
  exact ⟨p, h j p h1, h2⟩

theorem step_inv {s : St} (h : Inv s) (e : Ev) : Inv (step s e) := by
  cases e with
  | drop loc =>
    refine ⟨h.len, h.uniq, h.dense, ?_, h.attr, h.lost, h.cnt, ?_⟩
    · intro k u hk
      simp only [step] at hk
      rw [List.getElem?_append] at hk
      split at hk
      · have := h.thr k u hk
        cases hp : u.pc <;> rw [hp] at this <;> exact this
      · have hu := List.mem_of_getElem? hk
        simp at hu
        subst hu
        exact ⟨by decide, fun j hj => absurd hj (by omega)⟩
    · have := h.total
      simp only [step, List.countP_append]
      simp
      simp at this
      omega
  | load th stale =>
    simp only [step]
    split
    · rename_i t ht
      split
      · rename_i i hpc
        have hth := h.thr th t ht
        rw [hpc] at hth
        split
        · rename_i sl hsl
          have h0 : t.pc ≠ .done := by rw [hpc]; simp
          have hsaw : ∀ x, (x = none ∨ x = sl.ptr) → Inv (saw s th t i x) := by
            intro x hx
            cases x with
            | none => exact move_inv h ht h0 (by simp) hth
            | some p =>
              have hp : ptrAt s i = some p := by
                unfold ptrAt
                rw [hsl]
                rcases hx with hx | hx
                · cases hx
                · simpa using hx.symm
              simp only [saw]
              by_cases c : p ≠ t.loc
              · rw [if_pos c]
                refine enter_inv h ht h0 hth.1 ?_
                intro j hj
                by_cases e : j = i
                · subst e; exact ⟨p, hp, c⟩
                · exact hth.2 j (by omega)
              · rw [if_neg c]
                simp only [ne_eq, Decidable.not_not] at c
                subst c
                exact move_inv h ht h0 (by simp) ⟨hth.1, hp⟩
          exact hsaw _ (by cases stale <;> simp)
        · exact h
      · exact h
    · exact h
  | cas th =>
    simp only [step]
    split
    · rename_i t ht
      split
      · rename_i i hpc
        have hth := h.thr th t ht
        rw [hpc] at hth
        have h0 : t.pc ≠ .done := by rw [hpc]; simp
        split
        · rename_i sl hsl
          split
          · rename_i hnull
            have hli : i < s.slots.length := (List.getElem?_eq_some_iff.1 hsl).1
            -- the slot is filled
            have hnone : ptrAt s i = none := by unfold ptrAt; rw [hsl]; simpa using hnull
            have hptr : ∀ (x : List Thr) j, ptrAt { s with slots := s.slots.set i { sl with ptr := some t.loc }, thrs := x } j =
                if j = i then some t.loc else ptrAt s j := by
              intro x j
              unfold ptrAt
              simp only [List.getElem?_set]
              by_cases e : i = j
              · subst e; simp [hli]
              · rw [if_neg e, if_neg (fun c => e c.symm)]
            have hcnt : ∀ (x : List Thr) j, cntAt { s with slots := s.slots.set i { sl with ptr := some t.loc }, thrs := x } j = cntAt s j := by
              intro x j
              unfold cntAt
              simp only [List.getElem?_set]
              by_cases e : i = j
              · subst e; rw [hsl]; simp [hli]
              · rw [if_neg e]
            have hfresh : ∀ j, ptrAt s j ≠ some t.loc := by
              intro j hj
              rcases Nat.lt_trichotomy j i with hlt | heq | hgt
              · obtain ⟨p, h1, h2⟩ := hth.2 j hlt
                rw [hj] at h1; cases h1; exact h2 rfl
              · subst heq; rw [hnone] at hj; cases hj
              · obtain ⟨q, hq⟩ := h.dense j t.loc hj i hgt
                rw [hnone] at hq; cases hq
            have hmono : ∀ (x : List Thr) j p, ptrAt s j = some p →
                ptrAt { s with slots := s.slots.set i { sl with ptr := some t.loc }, thrs := x } j = some p := by
              intro x j p hj
              rw [hptr]
              by_cases e : j = i
              · subst e; rw [hnone] at hj; cases hj
              · rw [if_neg e]; exact hj
            refine ⟨by simp [h.len], ?_, ?_, ?_, ?_, ?_, ?_, ?_⟩
            · intro a b p ha hb
              rw [hptr] at ha hb
              by_cases ea : a = i
              · rw [if_pos ea] at ha
                cases ha
                by_cases eb : b = i
                · rw [ea, eb]
                · rw [if_neg eb] at hb; exact absurd hb (hfresh b)
              · rw [if_neg ea] at ha
                by_cases eb : b = i
                · rw [if_pos eb] at hb; cases hb; exact absurd ha (hfresh a)
                · rw [if_neg eb] at hb; exact h.uniq a b p ha hb
            · intro a p ha j hj
              rw [hptr] at ha ⊢
              by_cases ej : j = i
              · exact ⟨_, if_pos ej⟩
              · rw [if_neg ej]
                by_cases ea : a = i
                · obtain ⟨q, hq, -⟩ := hth.2 j (by omega)
                  exact ⟨q, hq⟩
                · rw [if_neg ea] at ha
                  exact h.dense a p ha j hj
            · intro k u hk
              rcases get_set hk with ⟨-, rfl⟩ | ⟨-, hk⟩
              · exact ⟨hth.1, by rw [hptr, if_pos rfl]⟩
              · have := h.thr k u hk
                cases hpu : u.pc with
                | load x => rw [hpu] at this; exact ⟨this.1, passed_mono (hmono _) this.2⟩
                | cas x => rw [hpu] at this; exact ⟨this.1, passed_mono (hmono _) this.2⟩
                | count x => rw [hpu] at this; exact ⟨this.1, hmono _ _ _ this.2⟩
                | done => trivial
            · intro l j hm
              exact hmono _ _ _ (h.attr l j hm)
            · intro l hm
              exact passed_mono (hmono _) (h.lost l hm)
            · intro j
              rw [hcnt]; exact h.cnt j
            · have := h.total
              have hs := countP_set (fun u : Thr => decide (u.pc ≠ .done)) s.thrs th t { t with pc := .count i } ht
              simp only [h0, ne_eq, not_false_eq_true, decide_true, if_true, reduceCtorEq] at hs
              simp only [ne_eq] at this ⊢
              omega
          · exact move_inv h ht h0 (by simp) hth
        · exact h
      · exact h
    · exact h
  | count th =>
    simp only [step]
    split
    · rename_i t ht
      split
      · rename_i i hpc
        have hth := h.thr th t ht
        rw [hpc] at hth
        have h0 : t.pc ≠ .done := by rw [hpc]; simp
        split
        · rename_i sl hsl
          have hli : i < s.slots.length := (List.getElem?_eq_some_iff.1 hsl).1
          have hptr : ∀ (x : List Thr) (y : List (Nat × Option Nat)) j,
              ptrAt { s with slots := s.slots.set i { sl with cnt := sl.cnt + 1 }, thrs := x, attr := y } j = ptrAt s j := by
            intro x y j
            unfold ptrAt
            simp only [List.getElem?_set]
            by_cases e : i = j
            · subst e; rw [hsl]; simp [hli]
            · rw [if_neg e]
          have hmono : ∀ (x : List Thr) (y : List (Nat × Option Nat)) j p, ptrAt s j = some p →
              ptrAt { s with slots := s.slots.set i { sl with cnt := sl.cnt + 1 }, thrs := x, attr := y } j = some p := by
            intro x y j p hj; rw [hptr]; exact hj
          refine ⟨by simp [h.len], ?_, ?_, ?_, ?_, ?_, ?_, ?_⟩
          · intro a b p ha hb
            rw [hptr] at ha hb
            exact h.uniq a b p ha hb
          · intro a p ha j hj
            rw [hptr] at ha ⊢
            exact h.dense a p ha j hj
          · intro k u hk
            rcases get_set hk with ⟨-, rfl⟩ | ⟨-, hk⟩
            · trivial
            · have := h.thr k u hk
              cases hpu : u.pc with
              | load x => rw [hpu] at this; exact ⟨this.1, passed_mono (hmono _ _) this.2⟩
              | cas x => rw [hpu] at this; exact ⟨this.1, passed_mono (hmono _ _) this.2⟩
              | count x => rw [hpu] at this; exact ⟨this.1, hmono _ _ _ _ this.2⟩
              | done => trivial
          · intro l j hm
            rw [hptr]
            rcases List.mem_cons.1 hm with e | hm
            · simp only [Prod.mk.injEq, Option.some.injEq] at e
              rw [e.1, e.2]; exact hth.2
            · exact h.attr l j hm
          · intro l hm
            rcases List.mem_cons.1 hm with e | hm
            · simp at e
            · exact passed_mono (hmono _ _) (h.lost l hm)
          · intro j
            have hc := h.cnt j
            unfold cntAt at hc ⊢
            simp only [List.getElem?_set, List.countP_cons]
            by_cases e : i = j
            · subst e
              rw [hsl] at hc
              simp only [Option.map_some, Option.getD_some] at hc
              simp only [if_true, if_pos hli, Option.map_some, Option.getD_some, decide_true]
              omega
            · rw [if_neg e]
              have e' : ¬ (some i = some j) := by simpa using e
              simp only [e', decide_false, Bool.false_eq_true, if_false, Nat.add_zero]
              exact hc
          · have := h.total
            have hs := countP_set (fun u : Thr => decide (u.pc ≠ .done)) s.thrs th t { t with pc := .done } ht
            simp only [h0, ne_eq, not_false_eq_true, decide_true, if_true, not_true, decide_false] at hs
            simp only [ne_eq, List.length_cons] at this ⊢
            simp only [Bool.false_eq_true, if_false, Nat.add_zero] at hs
            omega
        · exact h
      · exact h
    · exact h

theorem run_inv (es : List Ev) : Inv (run St.init es) := by
  have : ∀ (es : List Ev) (s : St), Inv s → Inv (run s es) := by
    intro es
    induction es with
    | nil => intro s h; exact h
    | cons e es ih => intro s h; exact ih _ (step_inv h e)
  exact this es _ init_inv

/-- **C54.**  In every interleaving: a location is registered at most once, in the slots in order, never more than the
table holds; every packet done with is counted in at most one slot, which bears its location, and the count of a slot is the
number of packets attributed to it. -/
theorem C54_locations (es : List Ev) :
    let s := run St.init es
    s.slots.length = 4 ∧
    (∀ i j p, ptrAt s i = some p → ptrAt s j = some p → i = j) ∧
    (∀ l i, (l, some i) ∈ s.attr → ptrAt s i = some l) ∧
    (∀ i, cntAt s i = (s.attr.filter fun a => a.2 = some i).length) := by
  have h := run_inv es
  refine ⟨h.len, h.uniq, h.attr, ?_⟩
  intro i
  rw [h.cnt i, List.countP_eq_length_filter]

/-- **C54.**  Every call is counted as a drop, and is either under way or done with. -/
theorem C54_total (es : List Ev) : (run St.init es).ndropped = (es.filter fun e => match e with | .drop _ => true | _ => false).length ∧
    (run St.init es).ndropped = (run St.init es).attr.length + ((run St.init es).thrs.filter fun t => t.pc ≠ .done).length := by
  constructor
  · have hsame : ∀ s e, (step s e).ndropped = s.ndropped + (match e with | .drop _ => 1 | _ => 0) := by
      intro s e
      cases e with
      | drop l => rfl
      | load th st =>
        simp only [step]
        split
        · split
          · split
            · rename_i t _ _ i _ _ sl _
              generalize (if st = true then none else sl.ptr) = x
              cases x with
              | none => rfl
              | some p => simp only [saw]; split <;> (try unfold enter) <;> (try split) <;> rfl
            · rfl
          · rfl
        · rfl
      | cas th => simp only [step]; repeat' split
                  all_goals rfl
      | count th => simp only [step]; repeat' split
                    all_goals rfl
    have : ∀ (es : List Ev) (s : St), (run s es).ndropped = s.ndropped + (es.filter fun e => match e with | .drop _ => true | _ => false).length := by
      intro es
      induction es with
      | nil => intro s; rfl
      | cons e es ih =>
        intro s
        have h1 := ih (step s e)
        rw [hsame] at h1
        simp only [run, List.foldl_cons] at h1 ⊢
        rw [h1]
        cases e <;> simp <;> omega
    have := this es St.init
    simpa [St.init] using this
  · have := (run_inv es).total
    rw [this, List.countP_eq_length_filter]

/-- **C54.**  A packet that is not attributed to a slot found all four taken by other locations. -/
theorem C54_unattributed (es : List Ev) (l : Nat) (h : (l, none) ∈ (run St.init es).attr) :
    ∀ i, i < 4 → ∃ p, ptrAt (run St.init es) i = some p ∧ p ≠ l :=
  (run_inv es).lost l h

/-! ### With at most four locations every drop is attributed -/

theorem locs (es : List Ev) (L : List Nat) (hL : ∀ l, .drop l ∈ es → l ∈ L) :
    (∀ t ∈ (run St.init es).thrs, t.loc ∈ L) ∧ (∀ i p, ptrAt (run St.init es) i = some p → p ∈ L) ∧
    (∀ a ∈ (run St.init es).attr, a.1 ∈ L) := by
  have key : ∀ (es : List Ev) (s : St), (∀ l, .drop l ∈ es → l ∈ L) →
      ((∀ t ∈ s.thrs, t.loc ∈ L) ∧ (∀ sl ∈ s.slots, ∀ p, sl.ptr = some p → p ∈ L) ∧ (∀ a ∈ s.attr, a.1 ∈ L)) →
      ((∀ t ∈ (run s es).thrs, t.loc ∈ L) ∧ (∀ sl ∈ (run s es).slots, ∀ p, sl.ptr = some p → p ∈ L) ∧ (∀ a ∈ (run s es).attr, a.1 ∈ L)) := by
    intro es
    induction es with
    | nil => intro s _ h; exact h
    | cons e es ih =>
      intro s hl h
      refine ih (step s e) (fun l hm => hl l (List.mem_cons_of_mem _ hm)) ?_
      obtain ⟨h1, h2, h3⟩ := h
      have hset : ∀ (th : Nat) (t : Thr) (pc : Pc), s.thrs[th]? = some t → ∀ u ∈ s.thrs.set th { t with pc := pc }, u.loc ∈ L := by
        intro th t pc ht u hu
        rcases List.mem_or_eq_of_mem_set hu with hu | rfl
        · exact h1 u hu
        · exact h1 t (List.mem_of_getElem? ht)
      cases e with
      | drop l =>
        refine ⟨?_, h2, h3⟩
        intro t ht
        simp only [step, List.mem_append, List.mem_singleton] at ht
        rcases ht with ht | rfl
        · exact h1 t ht
        · exact hl l List.mem_cons_self
      | load th st =>
        simp only [step]
        split
        · rename_i t ht
          split
          · rename_i i _
            split
            · rename_i sl _
              generalize (if st = true then none else sl.ptr) = x
              cases x with
              | none => exact ⟨hset th t _ ht, h2, h3⟩
              | some p =>
                simp only [saw]
                split
                · unfold enter
                  split
                  · exact ⟨hset th t _ ht, h2, h3⟩
                  · refine ⟨hset th t _ ht, h2, ?_⟩
                    intro a ha
                    rcases List.mem_cons.1 ha with rfl | ha
                    · exact h1 t (List.mem_of_getElem? ht)
                    · exact h3 a ha
                · exact ⟨hset th t _ ht, h2, h3⟩
            · exact ⟨h1, h2, h3⟩
          · exact ⟨h1, h2, h3⟩
        · exact ⟨h1, h2, h3⟩
      | cas th =>
        simp only [step]
        split
        · rename_i t ht
          split
          · rename_i i _
            split
            · rename_i sl hsl
              split
              · refine ⟨hset th t _ ht, ?_, h3⟩
                intro x hx p hp
                rcases List.mem_or_eq_of_mem_set hx with hx | rfl
                · exact h2 x hx p hp
                · simp only [Option.some.injEq] at hp
                  rw [← hp]
                  exact h1 t (List.mem_of_getElem? ht)
              · exact ⟨hset th t _ ht, h2, h3⟩
            · exact ⟨h1, h2, h3⟩
          · exact ⟨h1, h2, h3⟩
        · exact ⟨h1, h2, h3⟩
      | count th =>
        simp only [step]
        split
        · rename_i t ht
          split
          · rename_i i _
            split
            · rename_i sl hsl
              refine ⟨hset th t _ ht, ?_, ?_⟩
              · intro x hx p hp
                rcases List.mem_or_eq_of_mem_set hx with hx | rfl
                · exact h2 x hx p hp
                · exact h2 sl (List.mem_of_getElem? hsl) p hp
              · intro a ha
                rcases List.mem_cons.1 ha with rfl | ha
                · exact h1 t (List.mem_of_getElem? ht)
                · exact h3 a ha
            · exact ⟨h1, h2, h3⟩
          · exact ⟨h1, h2, h3⟩
        · exact ⟨h1, h2, h3⟩
  obtain ⟨a, b, c⟩ := key es St.init hL ⟨by simp [St.init], by simp [St.init], by simp [St.init]⟩
  refine ⟨a, ?_, c⟩
  intro i p hp
  unfold ptrAt at hp
  cases hs : (run St.init es).slots[i]? with
  | none => rw [hs] at hp; cases hp
  | some sl =>
    rw [hs] at hp
    exact b sl (List.mem_of_getElem? hs) p (by simpa using hp)

/-- **C54.**  If the drops come from at most four locations, every packet done with is attributed to its own. -/
theorem C54_attributed_partial (es : List Ev) (L : List Nat) (hlen : L.length ≤ 4) (hL : ∀ l, .drop l ∈ es → l ∈ L)
    (a : Nat × Option Nat) (ha : a ∈ (run St.init es).attr) : ∃ i, a.2 = some i ∧ ptrAt (run St.init es) i = some a.1 := by
  obtain ⟨l, o⟩ := a
  cases o with
  | some i => exact ⟨i, rfl, (run_inv es).attr l i ha⟩
  | none =>
    exfalso
    obtain ⟨-, hp, hat⟩ := locs es L hL
    have hl := hat _ ha
    have hun := C54_unattributed es l ha
    have huq := (run_inv es).uniq
    obtain ⟨p0, e0, n0⟩ := hun 0 (by omega)
    obtain ⟨p1, e1, n1⟩ := hun 1 (by omega)
    obtain ⟨p2, e2, n2⟩ := hun 2 (by omega)
    obtain ⟨p3, e3, n3⟩ := hun 3 (by omega)
    have hne : ∀ i j p q, ptrAt (run St.init es) i = some p → ptrAt (run St.init es) j = some q → i ≠ j → p ≠ q := by
      intro i j p q hi hj hij hpq
      subst hpq
      exact hij (huq i j p hi hj)
    have hnd : [l, p0, p1, p2, p3].Nodup := by
      have a1 := hne 0 1 _ _ e0 e1 (by omega)
      have a2 := hne 0 2 _ _ e0 e2 (by omega)
      have a3 := hne 0 3 _ _ e0 e3 (by omega)
      have a4 := hne 1 2 _ _ e1 e2 (by omega)
      have a5 := hne 1 3 _ _ e1 e3 (by omega)
      have a6 := hne 2 3 _ _ e2 e3 (by omega)
      simp only [List.nodup_cons, List.mem_cons, List.not_mem_nil, or_false, not_or, List.nodup_nil, and_true, not_false_eq_true]
      exact ⟨⟨Ne.symm n0, Ne.symm n1, Ne.symm n2, Ne.symm n3⟩, ⟨a1, a2, a3⟩, ⟨a4, a5⟩, a6⟩
    have hsub : [l, p0, p1, p2, p3] ⊆ L := by
      intro x hx
      simp only [List.mem_cons, List.not_mem_nil, or_false] at hx
      rcases hx with rfl | rfl | rfl | rfl | rfl
      · exact hl
      · exact hp 0 _ e0
      · exact hp 1 _ e1
      · exact hp 2 _ e2
      · exact hp 3 _ e3
    have := (hnd.subperm hsub).length_le
    simp at this
    omega

/-- With a fifth location a drop is counted but attributed to none. -/
def go (l th n : Nat) : List Ev := [.drop l] ++ List.replicate n (.load th false) ++ [.cas th, .count th]

theorem C54_fifth_counterexample :
    let s := run St.init (go 10 0 1 ++ go 11 1 2 ++ go 12 2 3 ++ go 13 3 4 ++ go 14 4 4)
    s.ndropped = 5 ∧ s.slots.map (·.cnt) = [1, 1, 1, 1] ∧ (14, none) ∈ s.attr := by decide

/-! ## A race for a slot: both threads find it empty, one registers, the other goes on -/

example : let s := run St.init [.drop 10, .drop 11, .drop 10, .load 0 false, .load 1 false, .load 2 false, .cas 1, .cas 0, .cas 2,
      .load 0 true, .cas 0, .load 0 false, .load 2 false, .load 0 false, .load 2 false, .cas 2, .cas 0, .load 0 false, .count 0, .count 2, .count 1]
    (s.slots.take 2, s.attr.length) = ([⟨some 11, 1⟩, ⟨some 10, 2⟩], 3) := by decide

/-! ## The report -/

/-- What is reported is what the slots hold. -/
theorem C54_report (es : List Ev) (p n : Nat) (h : (p, n) ∈ report (run St.init es).slots) :
    ∃ i, ptrAt (run St.init es) i = some p ∧ cntAt (run St.init es) i = n ∧ n ≠ 0 := by
  have key : ∀ (l : List Slot), (p, n) ∈ report l → ∃ i : Nat, (l[i]?).bind (·.ptr) = some p ∧ ((l[i]?).map (·.cnt)).getD 0 = n ∧ n ≠ 0 := by
    intro l
    induction l with
    | nil => intro h; cases h
    | cons s ss ih =>
      intro h
      simp only [report] at h
      split at h
      · cases h
      · rename_i q hq
        split at h
        · obtain ⟨i, h1⟩ := ih h
          exact ⟨i + 1, by simpa using h1⟩
        · rename_i hz
          rcases List.mem_cons.1 h with e | h
          · simp only [Prod.mk.injEq] at e
            refine ⟨0, ?_, ?_, ?_⟩
            · simp [hq, e.1]
            · simp [e.2]
            · rw [e.2]; exact hz
          · obtain ⟨i, h1⟩ := ih h
            exact ⟨i + 1, by simpa using h1⟩
  exact key _ h

end Verif.Pcount
