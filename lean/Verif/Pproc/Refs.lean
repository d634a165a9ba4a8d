import Verif.Util.Tot
import Verif.Basic
import Mathlib.Logic.Function.Basic
import Mathlib.Tactic.ByContra

/-!
# C57: a processor's object outlives its registration and every packet being handled with it

The tables of `src/advanced/pproc_manager.c` with their reference counts.  Managers, tables, threads handling packets and
the objects behind the processors (`packet_processor_if.rcnt`) are numbered.  A thread handling a packet keeps the table
it found (lines 192-195) while other threads register and unregister (each under the lock of the manager, hence one
event).  Processors without an object (`rcnt == NULL`) play no part and are left out.
-/

namespace Verif.Pproc.Refs
open Verif.Util

/-- Destructors that can be attached to a table: `MAX_DTORS` is 24 (rtpp_refcnt.h:32) and slot 0 frees the table
(rtpp_refcnt_ctor_pa, 163-181). -/
def slots : Nat := 23

/-- `struct pproc_handlers`, pproc_manager.c:55-59. -/
structure Tbl where
  /-- Objects of the processors, in table order. -/
  objs : List Nat
  /-- The table's own reference count. -/
  refs : Nat
  /-- Objects attached: they lose a reference when the table is freed. -/
  held : List Nat
  deriving DecidableEq, Repr

structure St where
  /-- Reference counts of the objects. -/
  cnt : Nat → Nat
  tbls : List Tbl
  /-- The table of each manager; `none`: the manager is gone. -/
  mgrs : List (Option Nat)
  /-- The table used by each thread handling a packet; `none`: done. -/
  thrs : List (Option Nat)
  /-- Ghost: objects created so far, references to objects owned elsewhere, references that nobody will give up. -/
  born : Nat → Bool
  own : Nat → Nat
  leak : Nat → Nat

def St.init : St := ⟨fun _ => 0, [], [], [], fun _ => false, fun _ => 0, fun _ => 0⟩

inductive Ev where
  /-- An object is created; its creator owns the reference. -/
  | new (o : Nat)
  | ref (o : Nat)
  | unref (o : Nat)
  /-- `pproc_manager_ctor`. -/
  | mgr
  /-- `reg` of a processor with object `o` by somebody who owns a reference to it. -/
  | reg (m i o : Nat)
  | unreg (m i : Nat)
  | clone (m : Nat)
  | destroy (m : Nat)
  /-- A packet comes: the table is looked up. -/
  | start (m : Nat)
  /-- The `i`-th processor is run. -/
  | exec (t i : Nat)
  | finish (t : Nat)
  deriving DecidableEq, Repr

/-- `RTPP_OBJ_BORROW_s` (rtpp_types.h:198-203) for each processor of a new table (pproc_manager.c:161-165, 283-287): once
the slots are used up the attachment fails silently, the reference is taken all the same.  Taking a reference to a
freed object is undefined. -/
def borrow (s : St) (objs : List Nat) : Except Fault (St × Tbl) :=
  if objs.all fun o => s.cnt o != 0 then
    .ok ({ s with cnt := fun o => s.cnt o + objs.count o, leak := fun o => s.leak o + (objs.drop slots).count o },
      ⟨objs, 1, objs.take slots⟩)
  else .error .ub

/-- `RTPP_OBJ_DECREF` of a table. -/
def drop (s : St) (k : Nat) : St :=
  match s.tbls[k]? with
  | none => s
  | some t =>
    if t.refs = 1 then { s with cnt := fun o => s.cnt o - t.held.count o, tbls := s.tbls.set k { t with refs := 0 } }
    else { s with tbls := s.tbls.set k { t with refs := t.refs - 1 } }

/-- Replace the table of manager `m`, pproc_manager.c:166-167, 288-293. -/
def swap (s : St) (m k : Nat) (objs : List Nat) : Except Fault St :=
  match borrow s objs with
  | .error e => .error e
  | .ok (s1, t) => .ok (drop { s1 with tbls := s1.tbls ++ [t], mgrs := s1.mgrs.set m (some s1.tbls.length) } k)

/-- `rtpp_pproc_mgr_clone`, pproc_manager.c:300-325: the references of the new table are attached to the old one (line
321), as long as there is room (`RTPP_OBJ_BORROW`, rtpp_types.h:187-197). -/
def cloneOf (s : St) (k : Nat) (t : Tbl) : Except Fault St :=
  let room := t.objs.take (slots - t.held.length)
  if room.all fun o => s.cnt o != 0 then
    .ok { s with
      cnt := fun o => s.cnt o + room.count o
      tbls := s.tbls.set k { t with held := t.held ++ room } ++ [⟨t.objs, 1, []⟩]
      mgrs := s.mgrs ++ [some s.tbls.length] }
  else .error .ub

/-- The table used by a manager or thread. -/
def tableOf (s : St) (l : List (Option Nat)) (i : Nat) : Option (Nat × Tbl) :=
  match l[i]? with
  | some (some k) => match s.tbls[k]? with
    | some t => some (k, t)
    | none => none
  | _ => none

/-- Events that make no sense leave the state as it is. -/
def step (s : St) : Ev → Except Fault St
  | .new o => .ok (if s.born o then s else { s with
      cnt := Function.update s.cnt o 1, own := Function.update s.own o 1, born := Function.update s.born o true })
  | .ref o => .ok (if s.own o = 0 then s else { s with
      cnt := Function.update s.cnt o (s.cnt o + 1), own := Function.update s.own o (s.own o + 1) })
  | .unref o => .ok (if s.own o = 0 then s else { s with
      cnt := Function.update s.cnt o (s.cnt o - 1), own := Function.update s.own o (s.own o - 1) })
  | .mgr => .ok { s with tbls := s.tbls ++ [⟨[], 1, []⟩], mgrs := s.mgrs ++ [some s.tbls.length] }
  | .reg m i o =>
    match tableOf s s.mgrs m with
    | none => .ok s
    | some (k, t) => if s.own o = 0 then .ok s else swap s m k (t.objs.take i ++ o :: t.objs.drop i)
  | .unreg m i =>
    match tableOf s s.mgrs m with
    | none => .ok s
    | some (k, t) => swap s m k (t.objs.take i ++ t.objs.drop (i + 1))
  | .clone m =>
    match tableOf s s.mgrs m with
    | none => .ok s
    | some (k, t) => cloneOf s k t
  | .destroy m =>
    match tableOf s s.mgrs m with
    | none => .ok s
    | some (k, _) => .ok (drop { s with mgrs := s.mgrs.set m none } k)
  | .start m =>
    match tableOf s s.mgrs m with
    | none => .ok s
    | some (k, t) => .ok { s with tbls := s.tbls.set k { t with refs := t.refs + 1 }, thrs := s.thrs ++ [some k] }
  | .exec th i =>
    match tableOf s s.thrs th with
    | none => .ok s
    | some (_, t) => match t.objs[i]? with
      | none => .ok s
      | some o => if s.cnt o = 0 then .error .ub else .ok s
  | .finish th =>
    match tableOf s s.thrs th with
    | none => .ok s
    | some (k, _) => .ok (drop { s with thrs := s.thrs.set th none } k)

def run (s : St) : List Ev → Except Fault St
  | [] => .ok s
  | e :: es => match step s e with
    | .error f => .error f
    | .ok s' => run s' es

/-! ## Invariant -/

def Tbl.holds (o : Nat) (t : Tbl) : Nat := if t.refs = 0 then 0 else t.held.count o
def uses (k : Nat) (x : Option Nat) : Nat := if x = some k then 1 else 0

/-- `p k`: references to table `k` about to be given up. -/
structure Inv' (p : Nat → Nat) (s : St) : Prop where
  cnt : ∀ o, s.cnt o = s.own o + tot (Tbl.holds o) s.tbls + s.leak o
  /-- A live table holds its objects, unless a reference has leaked. -/
  safe : ∀ (k : Nat) (t : Tbl), s.tbls[k]? = some t → t.refs ≠ 0 → ∀ o ∈ t.objs, o ∈ t.held ∨ s.leak o ≠ 0
  refs : ∀ (k : Nat) (t : Tbl), s.tbls[k]? = some t → t.refs = tot (uses k) s.mgrs + tot (uses k) s.thrs + p k
  mgr : ∀ (m k : Nat), s.mgrs[m]? = some (some k) → k < s.tbls.length
  thr : ∀ (m k : Nat), s.thrs[m]? = some (some k) → k < s.tbls.length
  born : ∀ o, s.born o = false → s.cnt o = 0

def Inv (s : St) : Prop := Inv' (fun _ => 0) s

/-- Only tables without counted processors are cloned. -/
def Ev.fine (s : St) : Ev → Prop
  | .clone m => ∀ k t, tableOf s s.mgrs m = some (k, t) → t.objs = []
  | _ => True

def Fine (s : St) : List Ev → Prop
  | [] => True
  | e :: es => e.fine s ∧ ∀ s', step s e = .ok s' → Fine s' es

/-! ## Preservation -/

theorem tot_append {α : Type} (f : α → Nat) (l : List α) (a : α) : tot f (l ++ [a]) = tot f l + f a := by
  simp [tot, List.sum_append]

theorem get_append {α : Type} {l : List α} {a x : α} {j : Nat} (h : (l ++ [a])[j]? = some x) :
    l[j]? = some x ∨ (j = l.length ∧ x = a) := by
  rw [List.getElem?_append] at h
  split at h
  · exact .inl h
  · rename_i hj
    have : j - l.length = 0 := by
      by_contra hne
      rw [List.getElem?_eq_none (by simp; omega)] at h
      cases h
    rw [this] at h
    simp at h
    exact .inr ⟨by omega, h.symm⟩

theorem tableOf_some {s : St} {l : List (Option Nat)} {i k : Nat} {t : Tbl} (h : tableOf s l i = some (k, t)) :
    l[i]? = some (some k) ∧ s.tbls[k]? = some t := by
  unfold tableOf at h
  split at h
  · rename_i k' hk
    split at h
    · rename_i t' ht
      simp only [Option.some.injEq, Prod.mk.injEq] at h
      obtain ⟨rfl, rfl⟩ := h
      exact ⟨hk, ht⟩
    · cases h
  · cases h

theorem lt_of_get {α : Type} {l : List α} {i : Nat} {x : α} (h : l[i]? = some x) : i < l.length :=
  (List.getElem?_eq_some_iff.1 h).1

theorem uses_none {l : List (Option Nat)} {k : Nat} (h : ∀ m : Nat, l[m]? = some (some k) → False) : tot (uses k) l = 0 := by
  refine tot_zero _ _ ?_
  intro x hx
  obtain ⟨i, hi⟩ := List.mem_iff_getElem?.1 hx
  unfold uses
  rw [if_neg]
  rintro rfl
  exact h i hi

theorem drop_inv {s : St} {k : Nat} (h : Inv' (fun j => if j = k then 1 else 0) s) : Inv (drop s k) := by
  unfold drop
  split
  · rename_i hk
    refine ⟨h.cnt, h.safe, ?_, h.mgr, h.thr, h.born⟩
    intro j t hj
    have := h.refs j t hj
    have hne : j ≠ k := by rintro rfl; rw [hk] at hj; cases hj
    rw [if_neg hne] at this
    exact this
  · rename_i t hk
    have hr := h.refs k t hk
    simp only [if_true] at hr
    split
    · rename_i h1
      refine ⟨?_, ?_, ?_, ?_, ?_, ?_⟩
      · intro o
        have hc := h.cnt o
        have hs := tot_set (Tbl.holds o) s.tbls k t { t with refs := 0 } hk
        have hg := tot_ge (Tbl.holds o) s.tbls k t hk
        have a : Tbl.holds o t = t.held.count o := by unfold Tbl.holds; rw [if_neg (by omega)]
        have b : Tbl.holds o { t with refs := 0 } = 0 := by unfold Tbl.holds; rw [if_pos rfl]
        rw [a, b] at hs
        rw [a] at hg
        simp only
        omega
      · intro j u hj hu
        rcases get_set hj with ⟨-, rfl⟩ | ⟨-, hj⟩
        · exact absurd rfl hu
        · exact h.safe j u hj hu
      · intro j u hj
        rcases get_set hj with ⟨rfl, rfl⟩ | ⟨hne, hj⟩
        · simp only; omega
        · have := h.refs j u hj
          rw [if_neg hne] at this
          exact this
      · intro m j hj
        simp only [List.length_set]; exact h.mgr m j hj
      · intro m j hj
        simp only [List.length_set]; exact h.thr m j hj
      · intro o ho
        have := h.born o ho
        simp only; omega
    · rename_i h1
      refine ⟨?_, ?_, ?_, ?_, ?_, ?_⟩
      · intro o
        have hc := h.cnt o
        have hs := tot_set (Tbl.holds o) s.tbls k t { t with refs := t.refs - 1 } hk
        have a : Tbl.holds o t = t.held.count o := by unfold Tbl.holds; rw [if_neg (by omega)]
        have b : Tbl.holds o { t with refs := t.refs - 1 } = t.held.count o := by
          unfold Tbl.holds
          rw [if_neg (show ¬ t.refs - 1 = 0 by omega)]
        rw [a, b] at hs
        simp only
        omega
      · intro j u hj hu
        rcases get_set hj with ⟨-, rfl⟩ | ⟨-, hj⟩
        · exact h.safe k t hk (by omega)
        · exact h.safe j u hj hu
      · intro j u hj
        rcases get_set hj with ⟨rfl, rfl⟩ | ⟨hne, hj⟩
        · simp only; omega
        · have := h.refs j u hj
          rw [if_neg hne] at this
          exact this
      · intro m j hj
        simp only [List.length_set]; exact h.mgr m j hj
      · intro m j hj
        simp only [List.length_set]; exact h.thr m j hj
      · exact h.born

/-- The objects of a live table are alive. -/
theorem Inv.alive {s : St} (h : Inv s) {k : Nat} {t : Tbl} (hk : s.tbls[k]? = some t) (hr : t.refs ≠ 0) {o : Nat} (ho : o ∈ t.objs) :
    s.cnt o ≠ 0 := by
  have hc := h.cnt o
  rcases h.safe k t hk hr o ho with hh | hl
  · have hg := tot_ge (Tbl.holds o) s.tbls k t hk
    have a : Tbl.holds o t = t.held.count o := by unfold Tbl.holds; rw [if_neg hr]
    have := List.count_pos_iff.2 hh
    omega
  · omega

theorem Inv.live_mgr {s : St} (h : Inv s) {m k : Nat} {t : Tbl} (hm : s.mgrs[m]? = some (some k)) (hk : s.tbls[k]? = some t) :
    t.refs ≠ 0 := by
  have := h.refs k t hk
  have hg := tot_ge (uses k) s.mgrs m _ hm
  have : uses k (some k) = 1 := by simp [uses]
  omega

theorem Inv.live_thr {s : St} (h : Inv s) {m k : Nat} {t : Tbl} (hm : s.thrs[m]? = some (some k)) (hk : s.tbls[k]? = some t) :
    t.refs ≠ 0 := by
  have := h.refs k t hk
  have hg := tot_ge (uses k) s.thrs m _ hm
  have : uses k (some k) = 1 := by simp [uses]
  omega

theorem count_split (l : List Nat) (n o : Nat) : l.count o = (l.take n).count o + (l.drop n).count o := by
  rw [← List.count_append, List.take_append_drop]

theorem swap_ok {s : St} (h : Inv s) {m k : Nat} {t : Tbl} (hm : s.mgrs[m]? = some (some k)) (hk : s.tbls[k]? = some t)
    {objs : List Nat} (ha : ∀ o ∈ objs, s.cnt o ≠ 0) : ∃ s', swap s m k objs = .ok s' ∧ Inv s' := by
  have hall : (objs.all fun o => s.cnt o != 0) = true := by
    rw [List.all_eq_true]; intro o ho; simpa using ha o ho
  simp only [swap, borrow, hall, if_true]
  refine ⟨_, rfl, drop_inv ?_⟩
  have hlt := lt_of_get hk
  refine ⟨?_, ?_, ?_, ?_, ?_, ?_⟩
  · intro o
    have hc := h.cnt o
    simp only [tot_append]
    have a : Tbl.holds o ⟨objs, 1, objs.take slots⟩ = (objs.take slots).count o := by simp [Tbl.holds]
    have := count_split objs slots o
    omega
  · intro j u hj hu o ho
    rcases get_append hj with hj | ⟨-, rfl⟩
    · rcases h.safe j u hj hu o ho with x | x
      · exact .inl x
      · refine .inr ?_
        simp only; omega
    · have ho' : o ∈ objs.take slots ++ objs.drop slots := by rw [List.take_append_drop]; exact ho
      rcases List.mem_append.1 ho' with x | x
      · exact .inl x
      · refine .inr ?_
        have := List.count_pos_iff.2 x
        simp only; omega
  · intro j u hj
    have hs := fun f => tot_set f s.mgrs m (some k) (some s.tbls.length) hm
    have hsj := hs (uses j)
    rcases get_append hj with hj | ⟨rfl, rfl⟩
    · have hr := h.refs j u hj
      have hjl := lt_of_get hj
      have a : uses j (some s.tbls.length) = 0 := by
        unfold uses; rw [if_neg]; intro e; simp at e; omega
      have b : uses j (some k) = if j = k then 1 else 0 := by
        unfold uses
        by_cases e : j = k
        · subst e; simp
        · rw [if_neg e, if_neg (fun x => e (by simpa using x.symm))]
      have b' := tot_ge (uses j) s.mgrs m _ hm
      simp only [] at hr ⊢
      omega
    · have a : uses s.tbls.length (some s.tbls.length) = 1 := by simp [uses]
      have b : uses s.tbls.length (some k) = 0 := by
        unfold uses; rw [if_neg]; intro e; simp at e; omega
      have z1 : tot (uses s.tbls.length) s.mgrs = 0 := uses_none fun i hi => absurd (h.mgr i _ hi) (by omega)
      have z2 : tot (uses s.tbls.length) s.thrs = 0 := uses_none fun i hi => absurd (h.thr i _ hi) (by omega)
      have c : (if s.tbls.length = k then 1 else 0) = 0 := by rw [if_neg (by omega)]
      simp only [] at *
      omega
  · intro i j hj
    simp only [List.length_append, List.length_singleton]
    rcases get_set hj with ⟨-, e⟩ | ⟨-, hj⟩
    · simp at e; omega
    · have := h.mgr i j hj; omega
  · intro i j hj
    simp only [List.length_append, List.length_singleton]
    have := h.thr i j hj; omega
  · intro o ho
    have hz := h.born o ho
    have : objs.count o = 0 := List.count_eq_zero.2 fun x => ha o x hz
    simp only; omega

theorem init_inv : Inv St.init :=
  ⟨fun _ => rfl, by simp [St.init], by simp [St.init], by simp [St.init], by simp [St.init], fun _ _ => rfl⟩

theorem new_table {s : St} (h : Inv s) : Inv { s with tbls := s.tbls ++ [⟨[], 1, []⟩], mgrs := s.mgrs ++ [some s.tbls.length] } := by
  refine ⟨?_, ?_, ?_, ?_, ?_, h.born⟩
  · intro o
    have := h.cnt o
    simp only [tot_append]
    have a : Tbl.holds o ⟨[], 1, []⟩ = 0 := by simp [Tbl.holds]
    omega
  · intro j u hj hu o ho
    rcases get_append hj with hj | ⟨-, rfl⟩
    · exact h.safe j u hj hu o ho
    · simp at ho
  · intro j u hj
    simp only [tot_append]
    rcases get_append hj with hj | ⟨rfl, rfl⟩
    · have hr := h.refs j u hj
      have hjl := lt_of_get hj
      have a : uses j (some s.tbls.length) = 0 := by
        unfold uses; rw [if_neg]; intro e; simp at e; omega
      omega
    · have a : uses s.tbls.length (some s.tbls.length) = 1 := by simp [uses]
      have z1 : tot (uses s.tbls.length) s.mgrs = 0 := uses_none fun i hi => absurd (h.mgr i _ hi) (by omega)
      have z2 : tot (uses s.tbls.length) s.thrs = 0 := uses_none fun i hi => absurd (h.thr i _ hi) (by omega)
      simp only [] at *
      omega
  · intro i j hj
    simp only [List.length_append, List.length_singleton]
    rcases get_append hj with hj | ⟨-, e⟩
    · have := h.mgr i j hj; omega
    · simp at e; omega
  · intro i j hj
    simp only [List.length_append, List.length_singleton]
    have := h.thr i j hj; omega

theorem step_inv {s : St} (h : Inv s) {e : Ev} (hf : e.fine s) : ∃ s', step s e = .ok s' ∧ Inv s' := by
  cases e with
  | new o =>
    refine ⟨_, rfl, ?_⟩
    split
    · exact h
    · rename_i hb
      have hz := h.born o (by simpa using hb)
      have hc := h.cnt o
      refine ⟨?_, h.safe, h.refs, h.mgr, h.thr, ?_⟩
      · intro x
        simp only [Function.update_apply]
        by_cases e : x = o
        · subst e; simp only [if_true]; omega
        · simp only [if_neg e]; exact h.cnt x
      · intro x hx
        simp only [Function.update_apply] at hx ⊢
        by_cases e : x = o
        · subst e; simp at hx
        · simp only [if_neg e] at hx ⊢; exact h.born x hx
  | ref o =>
    refine ⟨_, rfl, ?_⟩
    split
    · exact h
    · rename_i hb
      have hc := h.cnt o
      refine ⟨?_, h.safe, h.refs, h.mgr, h.thr, ?_⟩
      · intro x
        simp only [Function.update_apply]
        by_cases e : x = o
        · subst e; simp only [if_true]; omega
        · simp only [if_neg e]; exact h.cnt x
      · intro x hx
        have := h.born x hx
        simp only [Function.update_apply]
        by_cases e : x = o
        · subst e; omega
        · simp only [if_neg e]; exact this
  | unref o =>
    refine ⟨_, rfl, ?_⟩
    split
    · exact h
    · rename_i hb
      have hc := h.cnt o
      refine ⟨?_, h.safe, h.refs, h.mgr, h.thr, ?_⟩
      · intro x
        simp only [Function.update_apply]
        by_cases e : x = o
        · subst e; simp only [if_true]; omega
        · simp only [if_neg e]; exact h.cnt x
      · intro x hx
        have := h.born x hx
        simp only [Function.update_apply]
        by_cases e : x = o
        · subst e; simp only [if_true]; omega
        · simp only [if_neg e]; exact this
  | mgr => exact ⟨_, rfl, new_table h⟩
  | reg m i o =>
    simp only [step]
    split
    · exact ⟨s, rfl, h⟩
    · rename_i k t ht
      obtain ⟨hm, hk⟩ := tableOf_some ht
      split
      · exact ⟨s, rfl, h⟩
      · rename_i hown
        refine swap_ok h hm hk ?_
        have hl := h.live_mgr hm hk
        intro x hx
        rcases List.mem_append.1 hx with hx | hx
        · exact h.alive hk hl (List.mem_of_mem_take hx)
        · rcases List.mem_cons.1 hx with rfl | hx
          · have := h.cnt x; omega
          · exact h.alive hk hl (List.mem_of_mem_drop hx)
  | unreg m i =>
    simp only [step]
    split
    · exact ⟨s, rfl, h⟩
    · rename_i k t ht
      obtain ⟨hm, hk⟩ := tableOf_some ht
      refine swap_ok h hm hk ?_
      have hl := h.live_mgr hm hk
      intro x hx
      rcases List.mem_append.1 hx with hx | hx
      · exact h.alive hk hl (List.mem_of_mem_take hx)
      · exact h.alive hk hl (List.mem_of_mem_drop hx)
  | clone m =>
    simp only [step]
    split
    · exact ⟨s, rfl, h⟩
    · rename_i k t ht
      obtain ⟨hm, hk⟩ := tableOf_some ht
      have h0 : t.objs = [] := hf k t ht
      have hs : s.tbls.set k { t with held := t.held ++ [] } = s.tbls := by
        rw [List.append_nil]
        exact List.ext_getElem? fun j => by
          rw [List.getElem?_set]
          split
          · rename_i e; subst e; rw [if_pos (lt_of_get hk)]; exact hk.symm
          · rfl
      simp only [cloneOf, h0, List.take_nil, List.all_nil, if_true, List.count_nil, Nat.add_zero]
      refine ⟨_, rfl, ?_⟩
      have h0' : ({ objs := [], refs := t.refs, held := t.held ++ [] } : Tbl) = { t with held := t.held ++ [] } := by rw [← h0]
      rw [h0', hs]
      exact new_table h
  | destroy m =>
    simp only [step]
    split
    · exact ⟨s, rfl, h⟩
    · rename_i k t ht
      obtain ⟨hm, hk⟩ := tableOf_some ht
      refine ⟨_, rfl, drop_inv ?_⟩
      refine ⟨h.cnt, h.safe, ?_, ?_, h.thr, h.born⟩
      · intro j u hj
        have hr := h.refs j u hj
        have hsj := tot_set (uses j) s.mgrs m (some k) none hm
        have a : uses j none = 0 := by simp [uses]
        have b : uses j (some k) = if j = k then 1 else 0 := by
          unfold uses
          by_cases e : j = k
          · subst e; simp
          · rw [if_neg e, if_neg (fun x => e (by simpa using x.symm))]
        simp only at hr ⊢
        omega
      · intro i j hj
        rcases get_set hj with ⟨-, e⟩ | ⟨-, hj⟩
        · cases e
        · exact h.mgr i j hj
  | start m =>
    simp only [step]
    split
    · exact ⟨s, rfl, h⟩
    · rename_i k t ht
      obtain ⟨hm, hk⟩ := tableOf_some ht
      have hl := h.live_mgr hm hk
      refine ⟨_, rfl, ?_, ?_, ?_, ?_, ?_, h.born⟩
      · intro o
        have hc := h.cnt o
        have hs := tot_set (Tbl.holds o) s.tbls k t { t with refs := t.refs + 1 } hk
        have a : Tbl.holds o t = t.held.count o := by unfold Tbl.holds; rw [if_neg hl]
        have b : Tbl.holds o { t with refs := t.refs + 1 } = t.held.count o := by
          unfold Tbl.holds
          rw [if_neg (show ¬ t.refs + 1 = 0 by omega)]
        simp only
        omega
      · intro j u hj hu
        rcases get_set hj with ⟨-, rfl⟩ | ⟨-, hj⟩
        · exact h.safe k t hk hl
        · exact h.safe j u hj hu
      · intro j u hj
        simp only [tot_append]
        rcases get_set hj with ⟨rfl, rfl⟩ | ⟨hne, hj⟩
        · have hr := h.refs j t hk
          have a : uses j (some j) = 1 := by simp [uses]
          simp only [] at hr ⊢
          omega
        · have hr := h.refs j u hj
          have a : uses j (some k) = 0 := by
            unfold uses; rw [if_neg]; intro e; simp at e; exact hne e.symm
          omega
      · intro i j hj
        simp only [List.length_set]; exact h.mgr i j hj
      · intro i j hj
        simp only [List.length_set]
        rcases get_append hj with hj | ⟨-, e⟩
        · exact h.thr i j hj
        · simp at e; subst e; exact lt_of_get hk
  | exec th i =>
    simp only [step]
    split
    · exact ⟨s, rfl, h⟩
    · rename_i k t ht
      obtain ⟨hm, hk⟩ := tableOf_some ht
      split
      · exact ⟨s, rfl, h⟩
      · rename_i o ho
        rw [if_neg (h.alive hk (h.live_thr hm hk) (List.mem_of_getElem? ho))]
        exact ⟨s, rfl, h⟩
  | finish th =>
    simp only [step]
    split
    · exact ⟨s, rfl, h⟩
    · rename_i k t ht
      obtain ⟨hm, hk⟩ := tableOf_some ht
      refine ⟨_, rfl, drop_inv ?_⟩
      refine ⟨h.cnt, h.safe, ?_, h.mgr, ?_, h.born⟩
      · intro j u hj
        have hr := h.refs j u hj
        have hsj := tot_set (uses j) s.thrs th (some k) none hm
        have a : uses j none = 0 := by simp [uses]
        have b : uses j (some k) = if j = k then 1 else 0 := by
          unfold uses
          by_cases e : j = k
          · subst e; simp
          · rw [if_neg e, if_neg (fun x => e (by simpa using x.symm))]
        simp only at hr ⊢
        omega
      · intro i j hj
        rcases get_set hj with ⟨-, e⟩ | ⟨-, hj⟩
        · cases e
        · exact h.thr i j hj

theorem run_inv : ∀ (es : List Ev) {s : St}, Inv s → Fine s es → ∃ s', run s es = .ok s' ∧ Inv s'
  | [], s, h, _ => ⟨s, rfl, h⟩
  | e :: es, s, h, hf => by
    obtain ⟨s1, e1, h1⟩ := step_inv h hf.1
    simp only [run, e1]
    exact run_inv es h1 (hf.2 s1 e1)

/-- **C57.**  In every interleaving of registrations, removals, destruction of managers, and packets being handled with
tables already replaced, no processor is run (or re-registered) after its object is gone, as long as only tables
without counted processors are cloned (which is how the program uses `clone`, rtpp_stream.c:292). -/
theorem C57_no_use_after_free_partial (es : List Ev) (h : Fine St.init es) : ∃ s, run St.init es = .ok s := by
  obtain ⟨s, e, -⟩ := run_inv es init_inv h
  exact ⟨s, e⟩

/-- A stronger fact about the states reached: what a thread handling a packet may still run is alive. -/
theorem C57_alive_partial (es : List Ev) (h : Fine St.init es) (s : St) (hr : run St.init es = .ok s) (th k : Nat) (t : Tbl)
    (h1 : s.thrs[th]? = some (some k)) (h2 : s.tbls[k]? = some t) (o : Nat) (ho : o ∈ t.objs) : s.cnt o ≠ 0 := by
  obtain ⟨s', e, hi⟩ := run_inv es init_inv h
  rw [hr] at e; cases e
  exact hi.alive h2 (hi.live_thr h1 h2) ho

/-- No table ever lists more counted processors than there are slots. -/
def Small (s : St) : List Ev → Prop
  | [] => True
  | e :: es => ∀ s', step s e = .ok s' → (∀ t ∈ s'.tbls, t.objs.length ≤ slots) ∧ Small s' es

theorem swap_leak {s s' : St} {m k : Nat} {objs : List Nat} (h : swap s m k objs = .ok s')
    (hs : ∀ t ∈ s'.tbls, t.objs.length ≤ slots) : s'.leak = s.leak := by
  simp only [swap, borrow] at h
  split at h
  · cases h
  · rename_i s1 t hb
    split at hb
    · simp only [Except.ok.injEq, Prod.mk.injEq] at hb h
      obtain ⟨rfl, rfl⟩ := hb
      subst h
      have hlen : objs.length ≤ slots := by
        unfold drop at hs
        split at hs
        · exact hs ⟨objs, 1, objs.take slots⟩ (by simp)
        · rename_i t' ht'
          rcases get_append ht' with ht' | ⟨he, rfl⟩
          · have hkl := lt_of_get ht'
            change k < s.tbls.length at hkl
            split at hs
            · refine hs ⟨objs, 1, objs.take slots⟩ ?_
              refine List.mem_iff_getElem?.2 ⟨s.tbls.length, ?_⟩
              simp only
              rw [List.getElem?_set, if_neg (by omega)]
              simp
            · refine hs ⟨objs, 1, objs.take slots⟩ ?_
              refine List.mem_iff_getElem?.2 ⟨s.tbls.length, ?_⟩
              simp only
              rw [List.getElem?_set, if_neg (by omega)]
              simp
          · split at hs
            · exact hs ⟨objs, 0, objs.take slots⟩ (List.mem_iff_getElem?.2 ⟨k, by simp [he]⟩)
            · rename_i h1; exact absurd rfl h1
      have hd : objs.drop slots = [] := List.drop_eq_nil_of_le hlen
      unfold drop
      simp only [hd]
      split
      · simp
      · split <;> simp
    · cases hb

theorem drop_leak (s : St) (k : Nat) : (drop s k).leak = s.leak := by
  unfold drop; split
  · rfl
  · split <;> rfl

theorem step_leak {s s' : St} {e : Ev} (h : step s e = .ok s') (hs : ∀ t ∈ s'.tbls, t.objs.length ≤ slots) : s'.leak = s.leak := by
  cases e <;> simp only [step] at h
  case new => simp at h; subst h; split <;> rfl
  case ref => simp at h; subst h; split <;> rfl
  case unref => simp at h; subst h; split <;> rfl
  case mgr => simp at h; subst h; rfl
  case reg =>
    split at h
    · simp at h; rw [h]
    · split at h
      · simp at h; rw [h]
      · exact swap_leak h hs
  case unreg =>
    split at h
    · simp at h; rw [h]
    · exact swap_leak h hs
  case clone =>
    split at h
    · simp at h; rw [h]
    · unfold cloneOf at h
      simp only at h
      split at h
      · simp at h; subst h; rfl
      · cases h
  case destroy =>
    split at h
    · simp at h; rw [h]
    · simp at h; subst h; rw [drop_leak]
  case start =>
    split at h
    · simp at h; rw [h]
    · simp at h; subst h; rfl
  case exec =>
    split at h
    · simp at h; rw [h]
    · split at h
      · simp at h; rw [h]
      · split at h
        · cases h
        · simp at h; rw [h]
  case finish =>
    split at h
    · simp at h; rw [h]
    · simp at h; subst h; rw [drop_leak]

theorem run_leak : ∀ (es : List Ev) {s s' : St}, run s es = .ok s' → Small s es → s'.leak = s.leak
  | [], s, s', h, _ => by simp [run] at h; rw [h]
  | e :: es, s, s', h, hs => by
    simp only [run] at h
    split at h
    · cases h
    · rename_i s1 e1
      rw [run_leak es h (hs s1 e1).2, step_leak e1 (hs s1 e1).1]

/-- **C57.**  Nothing leaks either: once the managers are gone and the packets are done, an object has exactly the
references its owners hold, provided no table ever had more than 23 counted processors. -/
theorem C57_no_leak_partial (es : List Ev) (h : Fine St.init es) (hs : Small St.init es) (s : St) (hr : run St.init es = .ok s)
    (hm : ∀ x ∈ s.mgrs, x = none) (ht : ∀ x ∈ s.thrs, x = none) (o : Nat) : s.cnt o = s.own o := by
  obtain ⟨s', e, hi⟩ := run_inv es init_inv h
  rw [hr] at e; cases e
  have hl : s.leak o = 0 := by rw [run_leak es hr hs]; rfl
  have hz : tot (Tbl.holds o) s.tbls = 0 := by
    refine tot_zero _ _ ?_
    intro t htm
    obtain ⟨k, hk⟩ := List.mem_iff_getElem?.1 htm
    have := hi.refs k t hk
    have z1 : tot (uses k) s.mgrs = 0 := uses_none fun i hi => by
      have := hm _ (List.mem_of_getElem? hi); cases this
    have z2 : tot (uses k) s.thrs = 0 := uses_none fun i hi => by
      have := ht _ (List.mem_of_getElem? hi); cases this
    unfold Tbl.holds
    rw [if_pos]
    omega
  have := hi.cnt o
  omega

/-! ## Counterexamples -/

/-- After `clone`, the copy does not keep the objects alive: the original drops its table, the owner lets go, and the copy
runs a processor whose object has been freed. -/
theorem C57_clone_counterexample : run St.init [.new 7, .mgr, .reg 0 0 7, .clone 0, .unref 7, .unreg 0 0, .start 1, .exec 0 0] =
    .error .ub := by rfl

def isOk : Except Fault St → Option (Nat × Nat)
  | .ok s => some (s.cnt 7, s.own 7)
  | .error _ => none

/-- With more than 23 counted processors in a table a reference is leaked. -/
theorem C57_leak_counterexample :
    isOk (run St.init ([.new 7, .mgr] ++ List.replicate 24 (.reg 0 0 7) ++ [.destroy 0, .unref 7])) = some (1, 0) := by
  decide +kernel

/-! ## A case: the object lives on in the table of the packet being handled -/

def life : List Ev := [.new 7, .mgr, .reg 0 0 7, .start 0, .unreg 0 0, .unref 7, .exec 0 0]

example : Fine St.init life := by simp [Fine, life, Ev.fine]
example : isOk (run St.init life) = some (1, 0) := by decide +kernel
example : isOk (run St.init (life ++ [.finish 0, .destroy 0])) = some (0, 0) := by decide +kernel

end Verif.Pproc.Refs
