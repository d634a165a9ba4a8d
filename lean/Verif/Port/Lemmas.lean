import Verif.Port.Model
import Mathlib.Data.List.Perm.Basic
import Mathlib.Data.List.Nodup

/-!
# Lemmas on the port table
-/

namespace Verif.Port

theorem set_set_perm (l : List Nat) (i j : Nat) (hi : i < l.length) (hj : j < l.length) :
    ((l.set i l[j]).set j l[i]).Perm l := by
  rw [List.perm_iff_count]
  intro a
  rw [List.count_set (by simpa using hj), List.count_set hi]
  have h1 : (l.set i l[j])[j]'(by simpa using hj) = if i = j then l[j] else l[j] := by
    rw [List.getElem_set]
  have h2 : 0 < l.count l[i] := List.count_pos_iff.2 (List.getElem_mem hi)
  have h3 : 0 < l.count l[j] := List.count_pos_iff.2 (List.getElem_mem hj)
  rw [h1]
  simp only [ite_self]
  by_cases ha : l[i] = a
  · by_cases hb : l[j] = a
    · subst ha; simp [hb]
    · subst ha; simp [hb]
  · by_cases hb : l[j] = a
    · subst hb; simp [ha]
    · simp [ha, hb]

theorem exchange_ok {l : List Nat} {i j port : Nat} (hi : l[i]? = some port) (hj : j < l.length) :
    ∃ l', exchange l i j port = .ok l' ∧ l'.Perm l := by
  obtain ⟨h1, h2⟩ := List.getElem?_eq_some_iff.1 hi
  refine ⟨(l.set i l[j]).set j l[i], ?_, set_set_perm l i j h1 hj⟩
  simp only [exchange, rd, List.getElem?_eq_getElem hj, wr, h1, if_true, List.length_set, hj, h2]

theorem linear_length : ∀ n p, (linear n p).length = n
  | 0, _ => rfl
  | n + 1, p => by simp [linear, linear_length n]

theorem linear_eq : ∀ (n p : Nat), p + 2 * n < 65538 → linear n p = (List.range n).map (fun i => p + 2 * i)
  | 0, _, _ => rfl
  | n + 1, p, h => by
    simp only [linear]
    rw [List.range_succ_eq_map, List.map_cons, List.map_map]
    congr 1
    cases n with
    | zero => rfl
    | succ m =>
      rw [Nat.mod_eq_of_lt (by omega), linear_eq (m + 1) (p + 2) (by omega)]
      apply List.map_congr_left
      intro a _
      simp only [Function.comp]
      omega

theorem shuffle_ok (rnd : Nat → Nat) : ∀ (n i : Nat) (l : List Nat) (k : Nat), i + n = l.length →
    ∃ l' k', shuffle rnd l.length n i l k = .ok (l', k') ∧ l'.Perm l
  | 0, i, l, k, _ => ⟨l, k, rfl, .refl _⟩
  | n + 1, i, l, k, h => by
    have hi : i < l.length := by omega
    obtain ⟨l1, e1, p1⟩ := exchange_ok (List.getElem?_eq_getElem hi) (Nat.mod_lt (rnd k) (by omega : l.length > 0))
    obtain ⟨l2, k2, e2, p2⟩ := shuffle_ok rnd n (i + 1) l1 (k + 1) (by rw [p1.length_eq]; omega)
    refine ⟨l2, k2, ?_, p2.trans p1⟩
    simp only [shuffle, rd, List.getElem?_eq_getElem hi, e1]
    rw [← p1.length_eq]
    exact e2

theorem reshuffle_ok (rnd : Nat → Nat) {len : Nat} {t : Ptbl} {idx port k : Nat} (hg : t.ports[idx]? = some port)
    (hl : t.ports.length = len) (hlen : 0 < len) :
    ∃ l' k', reshuffle rnd len t idx port k = .ok (l', k') ∧ l'.Perm t.ports := by
  unfold reshuffle
  cases t.seq with
  | true => exact ⟨t.ports, k, rfl, .refl _⟩
  | false =>
    obtain ⟨l1, e1, p1⟩ := exchange_ok hg (j := rnd k % len) (by rw [hl]; exact Nat.mod_lt _ hlen)
    refine ⟨l1, k + 1, ?_, p1⟩
    simp only [Bool.false_eq_true, if_false, e1]

/-- Facts about one allocation that do not depend on the user. -/
structure Facts {σ : Type} (t : Ptbl) (log : List (Nat × PTU)) (r : Res σ) : Prop where
  perm : r.tbl.ports.Perm t.ports
  ctl : r.tbl.ctl = t.ctl
  seq : r.tbl.seq = t.seq
  idx : r.tbl.idx < t.ports.length
  log : ∃ l, r.log = log ++ l ∧ (∀ x ∈ l, x.1 ∈ t.ports ∧ x.1 ≠ t.ctl ∧ x.1 + 1 ≠ t.ctl) ∧
    (r.ok = true → ∃ l' p, l = l' ++ [(p, .ok)] ∧ ∀ x ∈ l', x.2 = .onemore) ∧
    (r.ok = false → ∀ x ∈ l, x.2 ≠ .ok)

theorem getLoop_facts {σ : Type} (rnd : Nat → Nat) (use : σ → Nat → PTU × σ) (base : Nat) (len : Nat) (hlen : 0 < len) :
    ∀ (n i : Nat) (t : Ptbl) (k : Nat) (s : σ) (log : List (Nat × PTU)), t.ports.length = len → t.idx < len →
    ∃ r, getLoop rnd use base len n i t k s log = .ok r ∧ Facts t log r
  | 0, i, t, k, s, log, hl, hi => ⟨⟨t, k, s, log, false⟩, rfl, .refl _, rfl, rfl, by simpa [hl] using hi,
      [], by simp, by simp, by simp, by simp⟩
  | n + 1, i, t, k, s, log, hl, hi => by
    have hx : (base + i) % len < t.ports.length := by rw [hl]; exact Nat.mod_lt _ hlen
    have hg : t.ports[(base + i) % len]? = some t.ports[(base + i) % len] := List.getElem?_eq_getElem hx
    generalize hport : t.ports[(base + i) % len] = port at hg
    have hmem : port ∈ t.ports := List.mem_of_getElem? hg
    simp only [getLoop, rd, hg]
    by_cases hc : port = t.ctl ∨ (port : Int) = (t.ctl : Int) - 1
    · rw [if_pos hc]
      exact getLoop_facts rnd use base len hlen n (i + 1) t k s log hl hi
    · rw [if_neg hc]
      have hc1 : port ≠ t.ctl ∧ port + 1 ≠ t.ctl := by omega
      obtain ⟨l', k', e, hp⟩ := reshuffle_ok rnd (k := k) hg (len := len) hl hlen
      rw [e]
      cases hu : use s port with
      | mk rval s' =>
        cases rval with
        | ok =>
          refine ⟨_, rfl, hp, rfl, rfl, hx, [(port, .ok)], rfl, ?_, ?_, ?_⟩
          · intro x hx'
            rw [List.mem_singleton] at hx'
            subst hx'
            exact ⟨hmem, hc1⟩
          · intro _; exact ⟨[], port, rfl, by simp⟩
          · intro h; cases h
        | brkerr =>
          refine ⟨_, rfl, hp, rfl, rfl, hx, [(port, .brkerr)], rfl, ?_, ?_, ?_⟩
          · intro x hx'
            rw [List.mem_singleton] at hx'
            subst hx'
            exact ⟨hmem, hc1⟩
          · intro h; cases h
          · intro _ x hx'
            rw [List.mem_singleton] at hx'
            subst hx'
            simp
        | onemore =>
          obtain ⟨r, e1, f⟩ := getLoop_facts rnd use base len hlen n (i + 1) { t with ports := l' } k' s'
            (log ++ [(port, .onemore)]) (by rw [← hl]; exact hp.length_eq) hi
          refine ⟨r, e1, f.perm.trans hp, f.ctl, f.seq, ?_, ?_⟩
          · have := f.idx; rw [← hp.length_eq]; exact this
          · obtain ⟨l2, g1, g2, g3, g4⟩ := f.log
            refine ⟨(port, .onemore) :: l2, by rw [g1]; simp, ?_, ?_, ?_⟩
            · intro x hx'
              rcases List.mem_cons.1 hx' with rfl | hx'
              · exact ⟨hmem, hc1⟩
              · obtain ⟨a, b⟩ := g2 x hx'
                exact ⟨hp.subset a, b⟩
            · intro hok
              obtain ⟨l3, p, a, b⟩ := g3 hok
              refine ⟨(port, .onemore) :: l3, p, by rw [a]; rfl, ?_⟩
              intro x hx'
              rcases List.mem_cons.1 hx' with rfl | hx'
              · rfl
              · exact b x hx'
            · intro hok x hx'
              rcases List.mem_cons.1 hx' with rfl | hx'
              · simp
              · exact g4 hok x hx'

theorem getPort_facts {σ : Type} (rnd : Nat → Nat) (use : σ → Nat → PTU × σ) (t : Ptbl) (k : Nat) (s : σ)
    (hi : t.idx < t.ports.length) : ∃ r, getPort rnd use t k s = .ok r ∧ Facts t [] r :=
  getLoop_facts rnd use t.idx t.ports.length (by omega) _ _ t k s [] rfl hi

end Verif.Port
