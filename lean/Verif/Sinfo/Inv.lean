import Verif.Sinfo.Spec
import Verif.Conns.Sweep
import Mathlib.Data.List.Nodup

/-!
# The invariant of a poll table and its log
-/

namespace Verif.Sinfo

open Verif.Conns (moveDown moveDown_mid)

theorem changes_append (t : List (Nat × Nat)) (a b : List Ent) :
    changes t (a ++ b) = (changes t a).bind fun t' => changes t' b := by
  induction a generalizing t with
  | nil => rfl
  | cons e es ih =>
    simp only [List.cons_append, changes]
    cases change t e with
    | none => rfl
    | some t' => simp only [Option.bind_some]; exact ih t'

/-- The sockets of the table and of what is pending. -/
def Pipe.socks (p : Pipe) : List Nat := p.table.map (·.2) ++ (p.taken ++ p.logged).filterMap sockOf

structure PInv (p : Pipe) : Prop where
  two : p.si ≠ p.mi
  ul : p.ulen ≤ p.main.length
  il : 0 < p.ilen
  cl : p.curlen ≤ p.mds.length
  bz : ∀ i n, p.busy = some (i, n) → i < n ∧ n ≤ p.shadow.length ∧ p.curlen + (n - i) ≤ p.mds.length
  uniq : (p.table.map (·.1)).Nodup
  fresh : p.socks.Nodup
  fdu : (p.fds.map (·.1)).Nodup
  out : ∃ t, changes p.table (p.taken ++ p.logged) = some t ∧ (t.map (·.1)).Nodup ∧ ∀ x, x ∈ t ↔ x ∈ p.fds
  ep : p.ep.Nodup ∧ ∀ s, s ∈ p.ep ↔ s ∈ p.table.map (·.2)
  refs : ∀ s, p.refs s = p.held s

theorem fdOf_iff {p : Pipe} (h : (p.fds.map (·.1)).Nodup) (u s : Nat) : fdOf p u = some s ↔ (u, s) ∈ p.fds := by
  unfold fdOf
  generalize p.fds = l at h
  induction l with
  | nil => simp
  | cons x xs ih =>
    obtain ⟨a, b⟩ := x
    simp only [List.map_cons, List.nodup_cons, List.mem_map, not_exists, not_and] at h
    by_cases e : a = u
    · subst e
      rw [List.find?_cons_of_pos (by simp)]
      simp only [Option.map_some, Option.some.injEq, List.mem_cons, Prod.mk.injEq, true_and]
      constructor
      · intro h'; exact Or.inl h'.symm
      · rintro (h' | h')
        · exact h'.symm
        · exact absurd rfl (h.1 _ h')
    · rw [List.find?_cons_of_neg (by simpa using e), ih h.2]
      simp only [List.mem_cons, Prod.mk.injEq]
      constructor
      · exact Or.inr
      · rintro (⟨h', _⟩ | h')
        · exact absurd h'.symm e
        · exact h'

theorem fdOf_none {p : Pipe} (u : Nat) : fdOf p u = none ↔ u ∉ p.fds.map (·.1) := by
  unfold fdOf
  rw [Option.map_eq_none_iff, List.find?_eq_none]
  simp only [List.mem_map, beq_iff_eq, not_exists, not_and]

theorem write_main (p : Pipe) (l : List Ent) : (p.write l).main = l := by
  show (if p.mi = p.mi then l else p.bufs p.mi) = l
  rw [if_pos rfl]

theorem write_shadow {p : Pipe} (h : p.si ≠ p.mi) (l : List Ent) : (p.write l).shadow = p.shadow := by
  show (if p.si = p.mi then l else p.bufs p.si) = p.bufs p.si
  rw [if_neg h]

theorem pinv_new : PInv Pipe.new where
  two := by decide
  ul := by decide
  il := by decide
  cl := by decide
  bz := by intro i n h; cases h
  uniq := by decide
  fresh := by decide
  fdu := by decide
  out := ⟨[], rfl, by decide, by intro x; exact Iff.rfl⟩
  ep := ⟨by decide, by intro s; exact Iff.rfl⟩
  refs := by intro s; rfl

theorem taken_length {p : Pipe} (h : PInv p) {i n : Nat} (b : p.busy = some (i, n)) :
    ∃ e, p.shadow[i]? = some e ∧ p.taken = e :: (p.shadow.take n).drop (i + 1) := by
  obtain ⟨h1, h2, _⟩ := h.bz i n b
  have hi : i < p.shadow.length := by omega
  refine ⟨p.shadow[i], List.getElem?_eq_getElem hi, ?_⟩
  unfold Pipe.taken
  rw [b]
  show (p.shadow.take n).drop i = _
  rw [List.drop_eq_getElem_cons (by rw [List.length_take]; omega)]
  rw [List.getElem_take]

/-- The entry of a stream that is in the table. -/
theorem find_spec {p : Pipe} (hu : (p.table.map (·.1)).Nodup) (hc : p.curlen ≤ p.mds.length) {u : Nat} (m : u ∈ p.table.map (·.1)) :
    ∃ pre mid rest x, p.mds = pre ++ (u, x) :: (mid ++ rest) ∧ p.table = pre ++ (u, x) :: mid ∧ findIdx p u = some pre.length ∧
      p.curlen = pre.length + 1 + mid.length ∧ (∀ y ∈ pre, y.1 ≠ u) ∧ (∀ y ∈ mid, y.1 ≠ u) := by
  rw [List.mem_map] at m
  obtain ⟨⟨a, x⟩, hm, ha⟩ := m
  simp only at ha
  subst ha
  obtain ⟨pre, mid, ht⟩ := List.append_of_mem hm
  have hn := hu
  rw [ht, List.map_append, List.map_cons, List.nodup_append] at hn
  obtain ⟨_, n2, n3⟩ := hn
  rw [List.nodup_cons] at n2
  have hpre : ∀ y ∈ pre, y.1 ≠ a := fun y hy => n3 y.1 (List.mem_map_of_mem hy) a (List.mem_cons_self)
  have hmid : ∀ y ∈ mid, y.1 ≠ a := by
    intro y hy e
    apply n2.1
    rw [List.mem_map]
    exact ⟨y, hy, e⟩
  have hl : p.table.length = p.curlen := by
    unfold Pipe.table
    rw [List.length_take]; omega
  refine ⟨pre, mid, p.mds.drop p.curlen, x, ?_, ht, ?_, ?_, hpre, hmid⟩
  · have : p.mds = p.table ++ p.mds.drop p.curlen := (List.take_append_drop p.curlen p.mds).symm
    rw [ht] at this
    simpa using this
  · show (p.table.findIdx? fun x => x.1 == a) = _
    rw [ht, List.findIdx?_append]
    have : (pre.findIdx? fun x => x.1 == a) = none := by
      rw [List.findIdx?_eq_none_iff]
      intro y hy
      simpa using hpre y hy
    rw [this, List.findIdx?_cons]
    simp
  · rw [← hl, ht]
    simp only [List.length_append, List.length_cons]
    omega

theorem bump_self (r : Nat → Int) (s : Nat) (d : Int) : bump r s d s = r s + d := by simp [bump]

theorem apply_spec {p : Pipe} (hc : p.curlen ≤ p.mds.length) (hu : (p.table.map (·.1)).Nodup) (hf : (p.table.map (·.2)).Nodup)
    (he : p.ep.Nodup ∧ ∀ s, s ∈ p.ep ↔ s ∈ p.table.map (·.2)) (e : Ent) {t : List (Nat × Nat)} (hch : change p.table e = some t)
    (hn : ∀ s, e.s = some s → s ∉ p.table.map (·.2)) (hr : p.curlen < p.mds.length) :
    ∃ p', apply p e = .ok p' ∧ p'.table = t ∧ p'.mds.length = p.mds.length ∧ p'.curlen ≤ p.curlen + 1 ∧ p'.curlen ≤ p'.mds.length ∧
      p' = { p with mds := p'.mds, curlen := p'.curlen, ep := p'.ep, refs := p'.refs } ∧
      (p'.ep.Nodup ∧ ∀ s, s ∈ p'.ep ↔ s ∈ p'.table.map (·.2)) ∧
      (∀ s, p'.refs s = p.refs s + (t.map (·.2)).count s - (p.table.map (·.2)).count s - (e.s.toList).count s) := by
  obtain ⟨op, u, so⟩ := e
  unfold change at hch
  cases op with
  | add =>
    cases so with
    | none => cases hch
    | some s =>
      simp only at hch
      split at hch
      · cases hch
      · rename_i hnm
        cases hch
        have hns := hn s rfl
        have ht : (p.mds.set p.curlen (u, s)).take (p.curlen + 1) = p.table ++ [(u, s)] := by
          rw [List.take_succ_eq_append_getElem (by rw [List.length_set]; exact hr), List.getElem_set_self]
          rw [List.take_set_of_le (Nat.le_refl _)]
          rfl
        refine ⟨{ p with mds := p.mds.set p.curlen (u, s), curlen := p.curlen + 1, ep := epAdd p.ep s }, ?_, ht, List.length_set,
          Nat.le_refl _, ?_, rfl, ?_, ?_⟩
        · simp only [apply]
          rw [if_pos hr]
        · simp only [List.length_set]; exact hr
        · have hne : s ∉ p.ep := fun h => hns ((he.2 s).1 h)
          show (epAdd p.ep s).Nodup ∧ ∀ x, x ∈ epAdd p.ep s ↔ x ∈ List.map (·.2) ((p.mds.set p.curlen (u, s)).take (p.curlen + 1))
          rw [ht]
          unfold epAdd
          rw [if_neg hne]
          refine ⟨List.Nodup.append he.1 (List.nodup_singleton s) (by simpa using hne), ?_⟩
          intro x
          rw [List.mem_append, he.2 x, List.map_append, List.mem_append]
          simp
        · intro x
          show p.refs x = _
          simp only [List.map_append, List.map_cons, List.map_nil, List.count_append, Option.toList]
          omega
  | del =>
    cases so with
    | some s => cases hch
    | none =>
      simp only at hch
      split at hch
      · rename_i hm
        cases hch
        obtain ⟨pre, mid, rest, x, h1, h2, h3, h4, h5, h6⟩ := find_spec hu hc hm
        have hfil : p.table.filter (fun y => y.1 != u) = pre ++ mid := by
          rw [h2, List.filter_append, List.filter_cons]
          have a1 : pre.filter (fun y => y.1 != u) = pre := List.filter_eq_self.2 (fun y hy => by simpa using h5 y hy)
          have a2 : mid.filter (fun y => y.1 != u) = mid := List.filter_eq_self.2 (fun y hy => by simpa using h6 y hy)
          rw [a1, a2]
          simp
        have hget : p.mds[pre.length]? = some (u, x) := by rw [h1]; simp
        have hml : p.curlen - pre.length - 1 = mid.length := by omega
        have hmv : ∃ mds, (if 0 < p.curlen - pre.length - 1 then moveDown p.mds pre.length (p.curlen - pre.length - 1) else .ok p.mds) = .ok mds ∧
            mds.length = p.mds.length ∧ mds.take (p.curlen - 1) = pre ++ mid := by
          rw [hml]
          by_cases hz : 0 < mid.length
          · rw [if_pos hz]
            have := moveDown_mid pre mid rest (u, x)
            rw [← h1] at this
            refine ⟨_, this, ?_, ?_⟩
            · unfold moveDown at this
              split at this
              · rename_i hle
                injection this with this
                rw [← this]
                simp only [List.length_append, List.length_take, List.length_drop]
                omega
              · cases this
            · have : p.curlen - 1 = (pre ++ mid).length := by simp only [List.length_append]; omega
              rw [this, List.take_left]
          · rw [if_neg hz]
            have : mid = [] := List.length_eq_zero_iff.1 (by omega)
            refine ⟨_, rfl, rfl, ?_⟩
            rw [h1, this]
            have : p.curlen - 1 = pre.length := by rw [this] at h4; simp only [List.length_nil] at h4; omega
            rw [this]
            simp
        obtain ⟨mds, m1, m2, m3⟩ := hmv
        have hdis : x ∉ pre.map (·.2) ∧ x ∉ mid.map (·.2) ∧ (pre.map (·.2) ++ mid.map (·.2)).Nodup := by
          rw [h2] at hf
          simp only [List.map_append, List.map_cons, List.nodup_append, List.nodup_cons] at hf
          obtain ⟨f1, ⟨f2, f3⟩, f4⟩ := hf
          refine ⟨fun h => f4 x h x List.mem_cons_self rfl, f2, ?_⟩
          rw [List.nodup_append]
          exact ⟨f1, f3, fun a ha b hb => f4 a ha b (List.mem_cons_of_mem _ hb)⟩
        refine ⟨{ p with mds := mds, curlen := p.curlen - 1, ep := epDel p.ep x, refs := bump p.refs x (-1) }, ?_, ?_, m2, ?_, ?_, rfl, ?_, ?_⟩
        · simp only [apply]
          rw [h3]
          simp only
          rw [hget]
          simp only
          rw [m1]
        · show mds.take (p.curlen - 1) = _
          rw [m3, hfil]
        · show p.curlen - 1 ≤ p.curlen + 1
          omega
        · show p.curlen - 1 ≤ mds.length
          omega
        · show (epDel p.ep x).Nodup ∧ ∀ y, y ∈ epDel p.ep x ↔ y ∈ List.map (·.2) (mds.take (p.curlen - 1))
          rw [m3]
          unfold epDel
          refine ⟨he.1.erase x, ?_⟩
          intro y
          rw [List.Nodup.mem_erase_iff he.1, he.2 y, h2]
          simp only [List.map_append, List.map_cons, List.mem_append, List.mem_cons]
          constructor
          · rintro ⟨n, h | h | h⟩
            · exact Or.inl h
            · exact absurd h n
            · exact Or.inr h
          · rintro (h | h)
            · exact ⟨fun e => hdis.1 (e ▸ h), Or.inl h⟩
            · exact ⟨fun e => hdis.2.1 (e ▸ h), Or.inr (Or.inr h)⟩
        · intro y
          show bump p.refs x (-1) y = _
          rw [hfil, h2]
          simp only [List.map_append, List.map_cons, List.count_append, List.count_cons, Option.toList, List.count_nil, beq_iff_eq]
          unfold bump
          by_cases e : y = x
          · subst e
            simp only [if_true]
            omega
          · rw [if_neg e, if_neg (fun h => e h.symm)]
            omega
      · cases hch
  | upd =>
    cases so with
    | none => cases hch
    | some s =>
      simp only at hch
      split at hch
      · rename_i hm
        cases hch
        obtain ⟨pre, mid, rest, x, h1, h2, h3, h4, h5, h6⟩ := find_spec hu hc hm
        have hns := hn s rfl
        have hmap : p.table.map (fun y => if y.1 = u then (y.1, s) else y) = pre ++ (u, s) :: mid := by
          rw [h2, List.map_append, List.map_cons]
          have a1 : pre.map (fun y => if y.1 = u then (y.1, s) else y) = pre := by
            conv => rhs; rw [← List.map_id pre]
            exact List.map_congr_left (fun y hy => by rw [if_neg (h5 y hy)]; rfl)
          have a2 : mid.map (fun y => if y.1 = u then (y.1, s) else y) = mid := by
            conv => rhs; rw [← List.map_id mid]
            exact List.map_congr_left (fun y hy => by rw [if_neg (h6 y hy)]; rfl)
          rw [a1, a2, if_pos rfl]
        have hget : p.mds[pre.length]? = some (u, x) := by rw [h1]; simp
        have hset : (p.mds.set pre.length (u, s)).take p.curlen = pre ++ (u, s) :: mid := by
          have : p.mds.set pre.length (u, s) = (pre ++ (u, s) :: mid) ++ rest := by
            rw [h1, List.set_append_right _ _ (Nat.le_refl _)]
            simp
          rw [this]
          have hl : p.curlen = (pre ++ (u, s) :: mid).length := by simp only [List.length_append, List.length_cons]; omega
          rw [hl, List.take_left]
        have hdis : x ∉ pre.map (·.2) ∧ x ∉ mid.map (·.2) := by
          rw [h2] at hf
          simp only [List.map_append, List.map_cons, List.nodup_append, List.nodup_cons] at hf
          obtain ⟨f1, ⟨f2, f3⟩, f4⟩ := hf
          exact ⟨fun h => f4 x h x List.mem_cons_self rfl, f2⟩
        have hsx : s ≠ x := by
          intro e; apply hns; rw [e, h2]; simp
        refine ⟨{ p with mds := p.mds.set pre.length (u, s), ep := epAdd (epDel p.ep x) s, refs := bump p.refs x (-1) }, ?_, ?_,
          List.length_set, Nat.le_succ _, ?_, rfl, ?_, ?_⟩
        · simp only [apply]
          rw [h3]
          simp only
          rw [hget]
        · show (p.mds.set pre.length (u, s)).take p.curlen = _
          rw [hset, hmap]
        · simp only [List.length_set]; exact hc
        · show (epAdd (epDel p.ep x) s).Nodup ∧ ∀ y, y ∈ epAdd (epDel p.ep x) s ↔ y ∈ List.map (·.2) ((p.mds.set pre.length (u, s)).take p.curlen)
          rw [hset]
          have hne : s ∉ p.ep.erase x := fun h => hns ((he.2 s).1 (List.mem_of_mem_erase h))
          unfold epAdd epDel
          rw [if_neg hne]
          refine ⟨List.Nodup.append (he.1.erase x) (List.nodup_singleton s) (by simpa using hne), ?_⟩
          intro y
          rw [List.mem_append, List.Nodup.mem_erase_iff he.1, he.2 y, h2]
          simp only [List.map_append, List.map_cons, List.mem_append, List.mem_cons, List.not_mem_nil, or_false]
          constructor
          · rintro (⟨n, h | h | h⟩ | h)
            · exact Or.inl h
            · exact absurd h n
            · exact Or.inr (Or.inr h)
            · exact Or.inr (Or.inl h)
          · rintro (h | h | h)
            · exact Or.inl ⟨fun e => hdis.1 (e ▸ h), Or.inl h⟩
            · exact Or.inr h
            · exact Or.inl ⟨fun e => hdis.2 (e ▸ h), Or.inr (Or.inr h)⟩
        · intro y
          show bump p.refs x (-1) y = _
          rw [hmap, h2]
          simp only [List.map_append, List.map_cons, List.count_append, List.count_cons, Option.toList, List.count_nil, beq_iff_eq]
          unfold bump
          by_cases e : y = x
          · subst e
            rw [if_pos rfl, if_pos rfl, if_neg hsx]
            omega
          · have e' : ¬ x = y := fun h => e h.symm
            rw [if_neg e]
            simp only [if_neg e']
            omega
      · cases hch

end Verif.Sinfo
