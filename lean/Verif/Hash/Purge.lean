import Verif.Hash.Lemmas

/-! Helper lemmas: purge and transfer. -/

set_option linter.unusedSectionVars false
set_option linter.unusedSimpArgs false

namespace Verif.Hash

variable {K V : Type} [DecidableEq K]

def eraseAll (m : Spec.MM K V) (ids : List Nat) : Spec.MM K V :=
  { m with items := m.items.filter (fun x => !ids.contains x.id) }

theorem eraseAll_erase (m : Spec.MM K V) (id : Nat) (ids : List Nat) :
    eraseAll (Spec.erase m id) ids = eraseAll m (id :: ids) := by
  simp only [eraseAll, Spec.erase, List.filter_filter]
  congr 1
  apply List.filter_congr
  intro x _
  rw [List.contains_cons, Bool.not_or, Bool.and_comm]
  rfl

theorem eraseAll_nil (m : Spec.MM K V) : eraseAll m [] = m := by
  cases m
  simp only [eraseAll]
  congr 1
  rw [List.filter_eq_self]
  intro x _
  rfl

theorem visit_purgeF : ∀ (order : List (Spec.Item K V)) (m : Spec.MM K V) (pb : List V),
    pb.length < purgeBatch →
    Spec.visit purgeF m pb order =
      (eraseAll m ((order.take (purgeBatch - pb.length)).map (·.id)),
       pb ++ (order.take (purgeBatch - pb.length)).map (·.val))
  | [], m, pb, h => by
    simp only [Spec.visit, List.take_nil, List.map_nil, List.append_nil, eraseAll_nil]
  | x :: xs, m, pb, h => by
    obtain ⟨n, hn⟩ : ∃ n, purgeBatch - pb.length = n + 1 := ⟨purgeBatch - pb.length - 1, by omega⟩
    rw [hn]
    simp only [Spec.visit, purgeF, if_true, List.take_succ_cons, List.map_cons]
    by_cases hb : (pb ++ [x.val]).length = purgeBatch
    · have hn0 : n = 0 := by simp at hb; omega
      subst hn0
      simp only [hb, beq_self_eq_true, if_true, List.take_zero, List.map_nil]
      rw [← eraseAll_erase, eraseAll_nil]
    · have : ((pb ++ [x.val]).length == purgeBatch) = false := by simpa using hb
      simp only [this, Bool.false_eq_true, if_false]
      rw [visit_purgeF xs (Spec.erase m x.id) (pb ++ [x.val]) (by simp at hb ⊢; omega)]
      have hn2 : purgeBatch - (pb ++ [x.val]).length = n := by simp; omega
      rw [hn2, eraseAll_erase]
      simp

theorem perm_drop_of_order {m : Spec.MM K V} {order : List (Spec.Item K V)}
    (hp : order.Perm m.items) (hnd : (m.items.map (·.id)).Nodup) (n : Nat) :
    (order.drop n).Perm (eraseAll m ((order.take n).map (·.id))).items := by
  simp only [eraseAll]
  have h1 : (order.filter (fun x => !((order.take n).map (·.id)).contains x.id)).Perm
      (m.items.filter (fun x => !((order.take n).map (·.id)).contains x.id)) := hp.filter _
  have hnd2 : (order.map (·.id)).Nodup := (hp.map (·.id)).nodup_iff.2 hnd
  have h2 : order.filter (fun x => !((order.take n).map (·.id)).contains x.id) = order.drop n := by
    conv => lhs; arg 2; rw [← List.take_append_drop n order]
    rw [List.filter_append]
    have e1 : (order.take n).filter (fun x => !((order.take n).map (·.id)).contains x.id) = [] := by
      rw [List.filter_eq_nil_iff]
      intro x hx
      have : x.id ∈ (order.take n).map (·.id) := List.mem_map_of_mem hx
      simp only [Bool.not_eq_true', Bool.not_eq_false]
      rw [List.contains_iff_mem]
      exact this
    have e2 : (order.drop n).filter (fun x => !((order.take n).map (·.id)).contains x.id) =
        order.drop n := by
      rw [List.filter_eq_self]
      intro x hx
      have hd : x.id ∈ (order.drop n).map (·.id) := List.mem_map_of_mem hx
      rw [← List.take_append_drop n order, List.map_append, List.nodup_append] at hnd2
      simp only [Bool.not_eq_true']
      rw [← Bool.not_eq_true, List.contains_iff_mem]
      intro hc
      exact hnd2.2.2 _ hc _ hd rfl
    rw [e1, e2]; rfl
  rw [h2] at h1
  exact h1

theorem purge_refines {cfg : Cfg K} : ∀ (fuel : Nat) (t : Table K V) (m : Spec.MM K V), R cfg t m →
    m.items.length < fuel →
    ∃ t' vs, purge fuel t = .ok (t', (m.items.length + (purgeBatch - 1)) / purgeBatch, vs) ∧
      R cfg t' ⟨[], m.next⟩ ∧ vs.Perm (m.items.map (·.val))
  | 0, _, _, _, h => by omega
  | fuel + 1, t, m, h, hl => by
    obtain ⟨t', last, order, hp, h1, h2⟩ := foreach_refines h purgeF ([] : List V)
    have hb : ([] : List V).length < purgeBatch := by simp [purgeBatch]
    rw [visit_purgeF order m [] hb] at h1 h2
    simp only [List.nil_append, List.length_nil, Nat.sub_zero] at h1 h2
    unfold purge
    simp only [h1]
    have hlen := hp.length_eq
    split
    · next h0 =>
      have : order = [] := by
        rw [List.length_map, List.length_take, purgeBatch] at h0
        apply List.length_eq_zero_iff.1
        omega
      subst this
      have hm : m.items = [] := List.length_eq_zero_iff.1 (by simpa using hlen.symm)
      refine ⟨t', [], ?_, ?_, ?_⟩
      · rw [hm]; simp [purgeBatch]
      · simpa [eraseAll, hm] using h2
      · rw [hm]; exact List.Perm.nil
    · next h0 =>
      have hpd := perm_drop_of_order hp h.nodupIds purgeBatch
      have hle : (eraseAll m ((order.take purgeBatch).map (·.id))).items.length =
          m.items.length - purgeBatch := by
        rw [← hpd.length_eq, List.length_drop, hlen]
      have hpos : 0 < m.items.length := by
        rw [← hlen]
        rcases Nat.eq_zero_or_pos order.length with h3 | h3
        · exfalso; apply h0
          have : order = [] := List.length_eq_zero_iff.1 h3
          simp [this]
        · exact h3
      have hbp : 0 < purgeBatch := by decide
      obtain ⟨t'', vs, e1, e2, e3⟩ := purge_refines fuel t' _ h2 (by rw [hle]; omega)
      rw [e1]
      refine ⟨t'', (order.take purgeBatch).map (·.val) ++ vs, ?_, e2, ?_⟩
      · simp only [hle]
        congr 3
        rcases Nat.lt_or_ge m.items.length purgeBatch with h4 | h4
        · rw [Nat.sub_eq_zero_of_le (Nat.le_of_lt h4)]
          simp only [purgeBatch] at *
          omega
        · simp only [purgeBatch] at *
          omega
      · have h5 : (order.map (·.val)).Perm (m.items.map (·.val)) := hp.map _
        refine List.Perm.trans ?_ h5
        conv => rhs; rw [← List.take_append_drop purgeBatch order]
        rw [List.map_append]
        exact List.Perm.append_left _ (e3.trans (hpd.symm.map _))

theorem transfer_refines {cfg cfg' : Cfg K} {t u : Table K V} {m n : Spec.MM K V}
    (h : R cfg t m) (g : R cfg' u n) (hh : cfg.hash = cfg'.hash) (k : K) (memOk : Bool) :
    match m.items.find? (fun x => decide (x.key = k)) with
    | none => transfer cfg cfg' t u k memOk = .ok (t, u, none, false, false)
    | some x =>
      match Spec.step cfg'.nodups cfg'.dupAbrt n (.append k x.val memOk) with
      | .error e => e = .abort ∧ transfer cfg cfg' t u k memOk = .error .abort
      | .ok (n', o) => ∃ t' u' hd first, o = .handle hd first ∧
          transfer cfg cfg' t u k memOk =
            .ok (t', u', some x.val, decide ((Spec.erase m x.id).items = []), first) ∧
          R cfg t' (Spec.erase m x.id) ∧ R cfg' u' n' := by
  obtain ⟨t', sp, last, m', h1, h2, h3, h4⟩ := removeByKeyRaw_refines h k
  simp only [Spec.step] at h3
  have hnone : (view cfg t.l1 k).head? = none → removeByKeyRaw cfg t k = .ok (t, none, false) := by
    intro hv
    unfold removeByKeyRaw
    simp only [find_cmpkey h.wf, hv]
  split
  · next hf =>
    rw [hf] at h3
    have hv : (view cfg t.l1 k).head? = none := by
      have := h.spec_find k
      rw [hf] at this
      cases hq : (view cfg t.l1 k).head? with
      | none => rfl
      | some a => rw [hq] at this; simp at this
    unfold transfer
    rw [hnone hv]
  · next x hf =>
    rw [hf] at h3
    simp only [Except.ok.injEq, Prod.mk.injEq, Out.removed.injEq] at h3
    obtain ⟨hm', hsv, hl⟩ := h3
    cases sp with
    | none => simp at hsv
    | some sp =>
      obtain ⟨hk, hhash⟩ := h2 sp rfl
      have hval : x.val = sp.val := by simpa using hsv
      have happ := append_refines g k x.val memOk
      unfold transfer
      simp only [h1]
      have heq : insert cfg' u sp.key sp.val sp.hash memOk = append cfg' u k x.val memOk := by
        unfold append
        rw [hk, hhash, hh, hval]
      rw [heq]
      split
      · next e he =>
        rw [he] at happ
        exact ⟨happ.1, by rw [happ.2]⟩
      · next n' o he =>
        rw [he] at happ
        obtain ⟨u', hd, first, a1, a2, a3⟩ := happ
        refine ⟨t', u', hd, first, a2, ?_, ?_, a3⟩
        · rw [a1]
          simp only [hval, hl]
        · rw [hm']; exact h4

end Verif.Hash
