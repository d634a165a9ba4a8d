import Verif.Log.Inv

/-! # Every step keeps what holds -/

namespace Verif.Log

theorem format_eq (r : Raw) (h : r.user ≠ none) : format r = .ok (whole r, (whole r).length) := by
  obtain ⟨prio, pre, user, po⟩ := r
  obtain ⟨u, rfl⟩ : ∃ u, user = some u := by
    cases user with
    | none => exact absurd rfl h
    | some u => exact ⟨u, rfl⟩
  simp only [format, cpy, dataLen, whole, Option.getD_some, ge_iff_le]
  by_cases h1 : 2048 ≤ pre.length
  · simp only [if_pos h1]
    rw [if_pos (by omega), List.append_assoc, List.take_append_of_le_length (by omega)]
    simp only [List.length_take]
    congr 2
    omega
  · simp only [if_neg h1]
    have ep : pre.take (2048 - 1) = pre := List.take_of_length_le (by omega)
    by_cases h2 : 2048 - pre.length ≤ 1
    · rw [if_pos h2, List.append_assoc, List.take_append_of_le_length (by omega)]
      simp only [List.length_take]
      congr 2
      omega
    · rw [if_neg h2]
      by_cases h3 : 2048 - pre.length ≤ u.length
      · simp only [if_pos h3, post]
        rw [if_pos (by omega)]
        have e1 : (pre ++ u ++ po.getD []).take 2047 = pre.take (2048 - 1) ++ u.take (2048 - pre.length - 1) := by
          rw [ep, List.take_append_of_le_length (by rw [List.length_append]; omega), List.take_append,
            List.take_of_length_le (l := pre) (by omega)]
          congr 2
          omega
        rw [e1, ep]
        simp only [List.length_append, List.length_take, dataLen]
        congr 2
        omega
      · simp only [if_neg h3, post]
        have eu : u.take (2048 - pre.length - 1) = u := List.take_of_length_le (by omega)
        rw [ep, eu]
        by_cases h4 : 2048 - pre.length - u.length ≤ 1
        · rw [if_pos h4, List.take_append_of_le_length (by rw [List.length_append]; omega),
            List.take_of_length_le (by rw [List.length_append]; omega)]
          simp only [List.length_append, dataLen]
          congr 2
          omega
        rw [if_neg h4]
        cases po with
        | none =>
          simp only [Option.getD_none, List.append_nil]
          rw [List.take_of_length_le (by rw [List.length_append]; omega)]
          simp only [List.length_append, dataLen]
          congr 2
          omega
        | some q =>
          simp only [Option.getD_some, cpy, dataLen, ge_iff_le]
          have e1 : (pre ++ u ++ q).take 2047 = pre ++ u ++ q.take (2048 - pre.length - u.length - 1) := by
            rw [List.take_append, List.take_of_length_le (l := pre ++ u) (by rw [List.length_append]; omega)]
            rw [List.length_append]
            congr 2
            omega
          rw [e1]
          simp only [List.length_append, List.length_take]
          congr 2
          by_cases h5 : 2048 - pre.length - u.length ≤ q.length
          · rw [if_pos h5]
            omega
          · rw [if_neg h5]
            omega

theorem held_cell {c c' : Nat → Cell} {q : Pr} {m : Option Msg} (hc : ∀ i, q.item = some i → c' i = c i)
    (h : held c q m) : held c' q m := by
  cases q with
  | idle => exact h
  | got i r => exact h
  | filled i => exact ⟨h.1, by rw [hc i rfl]; exact h.2⟩

theorem take_snoc {α : Type} {l : List α} {n : Nat} (a : α) (h : n ≤ l.length) : (l ++ [a]).take n = l.take n :=
  List.take_append_of_le_length h

theorem drop_snoc {α : Type} {l : List α} {n : Nat} (a : α) (h : n ≤ l.length) : (l ++ [a]).drop n = l.drop n ++ [a] :=
  List.drop_append_of_le_length h

/-- What holds of the end does not look at the lists. -/
theorem Ends.same {s s' : St} {p p' : Seen} (h : Ends s p) (h1 : s'.todo = s.todo) (h2 : s'.joined = s.joined)
    (h3 : s'.ex = s.ex) (h4 : s'.wk = s.wk) (h5 : ∀ i, s.ex.item = some i → s'.cell i = s.cell i) (h6 : p'.put = p.put)
    (h7 : p'.did = p.did) : Ends s' p' where
  todo := by rw [h1, h2]; exact h.todo
  ex := by rw [h2, h3, h4]; exact h.ex
  before := by rw [h2, h3, h6]; exact h.before
  after := by rw [h4, h6, h7]; exact h.after
  fill := by
    intro i hi
    rw [h3] at hi
    rw [h5 i (by rw [hi]; rfl)]
    exact h.fill i hi
  live := by rw [h4, h6, h7]; exact h.live

theorem inHand_same {s s' : St} (h1 : s'.wk = s.wk) (h2 : ∀ i, s.wk.item = some i → s'.cell i = s.cell i) :
    inHand s' = inHand s := by
  unfold inHand
  rw [h1]
  split
  · rename_i i hi
    rw [h2 i (by rw [hi]; rfl)]
  · rfl

theorem dead_upd {ow : Nat → Loc} {i : Nat} {l : Loc} {P : Prop} (h : ∀ j, j < 64 → ow j = .dead → P) (hl : l ≠ .dead) :
    ∀ j, j < 64 → upd ow i l j = .dead → P := by
  intro j hj hd
  by_cases e : j = i
  · rw [e, upd_same] at hd
    exact absurd hd hl
  · rw [upd_other _ _ e] at hd
    exact h j hj hd

theorem get_keeps {s : St} {p : Seen} {t : Nat} {r : Raw} {x : Except Fault St} (h : Inv s p) (hr : r.user ≠ none)
    (hd : (p.next (.get t r)).drops < 2 ^ 31) (hs : stepGet s t r = some x) : ∃ s', x = .ok s' ∧ Inv s' (p.next (.get t r)) := by
  obtain ⟨F, Q, ow, hp, ha, hq⟩ := h.places
  unfold stepGet at hs
  cases hpr : s.pr t with
  | got i r => rw [hpr] at hs; cases hs
  | filled i => rw [hpr] at hs; cases hs
  | idle =>
    rw [hpr] at hs
    cases hf : s.free with
    | none =>
      rw [hf] at hs
      have hF := hp.cF
      rw [hf] at hF
      have hF := chain_none hF
      have h0 : p.avail = 0 := by rw [← ha, hF]; rfl
      simp only [Seen.next, if_pos h0] at hd ⊢
      have : s.dropped + 1 < 2 ^ 31 := by rw [h.drops]; exact hd
      rw [if_pos this] at hs
      simp only [Option.some.injEq] at hs
      refine ⟨_, hs.symm, ⟨F, Q, ow, ?_, ha, hq⟩, h.did, h.out, h.hold, ?_, ?_⟩
      · exact ⟨by rw [← hf]; exact hp.cF, hp.cQ, hp.nF, hp.nQ, hp.tail, hp.mF, hp.mQ, hp.mT, hp.mW, hp.mX, hp.mD⟩
      · show s.dropped + 1 = p.drops + 1
        rw [h.drops]
      · exact h.ends.same rfl rfl rfl rfl (fun _ _ => rfl) rfl rfl
    | some i =>
      rw [hf] at hs
      simp only [Option.some.injEq] at hs
      have hF := hp.cF
      rw [hf] at hF
      obtain ⟨F', rfl, hF'⟩ := chain_some hF
      have h0 : ¬ p.avail = 0 := by rw [← ha]; simp
      simp only [Seen.next, if_neg h0] at hd ⊢
      have hi := (hp.mF i).mp List.mem_cons_self
      have hn := List.nodup_cons.mp hp.nF
      refine ⟨_, hs.symm, ⟨F', Q, upd ow i (.thr t), ?_, ?_, hq⟩, h.did, h.out, ?_, h.drops, ?_⟩
      · refine ⟨hF', hp.cQ, hn.2, hp.nQ, hp.tail, ?_, ?_, ?_, ?_, ?_, dead_upd hp.mD (by nofun)⟩
        · intro j
          by_cases e : j = i
          · subst e
            rw [upd_same]
            exact ⟨fun a => absurd a hn.1, fun a => absurd a.2 (by nofun)⟩
          · rw [upd_other _ _ e, ← hp.mF j]
            simp [e]
        · intro j
          by_cases e : j = i
          · subst e
            rw [upd_same]
            refine ⟨fun a => ?_, fun a => absurd a.2 (by nofun)⟩
            have := (hp.mQ j).mp a
            rw [hi.2] at this
            exact absurd this.2 (by nofun)
          · rw [upd_other _ _ e]
            exact hp.mQ j
        · intro u j
          show (upd s.pr t (Pr.got i r) u).item = some j ↔ _
          by_cases e : u = t
          · subst e
            rw [upd_same]
            by_cases e' : j = i
            · subst e'
              rw [upd_same]
              exact ⟨fun _ => ⟨hi.1, rfl⟩, fun _ => rfl⟩
            · rw [upd_other _ _ e', ← hp.mT u j, hpr]
              constructor
              · intro a
                simp only [Pr.item, Option.some.injEq] at a
                exact absurd a.symm e'
              · intro a
                cases a
          · rw [upd_other _ _ e]
            by_cases e' : j = i
            · subst e'
              rw [upd_same, hp.mT u j, hi.2]
              exact ⟨fun a => absurd a.2 (by nofun), fun a => absurd (Loc.thr.inj a.2).symm e⟩
            · rw [upd_other _ _ e']
              exact hp.mT u j
        · intro j
          by_cases e : j = i
          · subst e
            rw [upd_same]
            show s.wk.item = some j ↔ _
            rw [hp.mW j, hi.2]
            exact ⟨fun a => absurd a.2 (by nofun), fun a => absurd a.2 (by nofun)⟩
          · rw [upd_other _ _ e]
            exact hp.mW j
        · intro j
          by_cases e : j = i
          · subst e
            rw [upd_same]
            show s.ex.item = some j ↔ _
            rw [hp.mX j, hi.2]
            exact ⟨fun a => absurd a.2 (by nofun), fun a => absurd a.2 (by nofun)⟩
          · rw [upd_other _ _ e]
            exact hp.mX j
      · rw [← ha]
        rfl
      · intro u
        show held s.cell (upd s.pr t (Pr.got i r) u) (upd p.hold t (some (msgOf r)) u)
        by_cases e : u = t
        · subst e
          rw [upd_same, upd_same]
          exact ⟨hr, rfl⟩
        · rw [upd_other _ _ e, upd_other _ _ e]
          exact h.hold u
      · exact h.ends.same rfl rfl rfl rfl (fun _ _ => rfl) rfl rfl

/-- The cell of an item that a thread holds is written. -/
theorem fill_keeps {s : St} {p : Seen} {t : Nat} {x : Except Fault St} (h : Inv s p) (hs : stepFill s t = some x) :
    ∃ s', x = .ok s' ∧ Inv s' (p.next (.fill t)) := by
  obtain ⟨F, Q, ow, hp, ha, hq⟩ := h.places
  unfold stepFill at hs
  cases hpr : s.pr t with
  | idle => rw [hpr] at hs; cases hs
  | filled i => rw [hpr] at hs; cases hs
  | got i r =>
    rw [hpr] at hs
    have hh := h.hold t
    rw [hpr] at hh
    simp only [format_eq r hh.1, Option.some.injEq] at hs
    have hi := (hp.mT t i).mp (by rw [hpr]; rfl)
    have hne : ∀ j, j < 64 ∧ ow j ≠ .thr t → upd s.cell i ⟨.write, ⟨r.prio, whole r⟩⟩ j = s.cell j := by
      intro j hj
      exact upd_other _ _ (fun e => hj.2 (by rw [e]; exact hi.2))
    refine ⟨_, hs.symm, ⟨F, Q, ow, ?_, ha, ?_⟩, h.did, h.out, ?_, h.drops, ?_⟩
    · refine ⟨hp.cF, hp.cQ, hp.nF, hp.nQ, hp.tail, hp.mF, hp.mQ, ?_, hp.mW, hp.mX, hp.mD⟩
      intro u j
      rw [← hp.mT u j]
      show (upd s.pr t (Pr.filled i) u).item = some j ↔ _
      by_cases e : u = t
      · subst e
        rw [upd_same, hpr]
        exact Iff.rfl
      · rw [upd_other _ _ e]
    · show _ = p.put.drop p.did
      rw [← hq]
      congr 1
      · refine inHand_same rfl ?_
        intro j hj
        have := (hp.mW j).mp hj
        exact hne j ⟨this.1, by rw [this.2]; nofun⟩
      · refine List.map_congr_left ?_
        intro j hj
        have := (hp.mQ j).mp hj
        show view (upd s.cell i _ j) = _
        rw [hne j ⟨this.1, by rw [this.2]; nofun⟩]
    · intro u
      show held (upd s.cell i ⟨.write, ⟨r.prio, whole r⟩⟩) (upd s.pr t (Pr.filled i) u) (p.hold u)
      by_cases e : u = t
      · subst e
        rw [upd_same]
        refine ⟨by rw [hh.2]; nofun, ?_⟩
        rw [upd_same, hh.2]
        rfl
      · rw [upd_other _ _ e]
        refine held_cell ?_ (h.hold u)
        intro j hj
        have := (hp.mT u j).mp hj
        exact hne j ⟨this.1, by rw [this.2]; exact fun e' => e (Loc.thr.inj e')⟩
    · refine h.ends.same rfl rfl rfl rfl ?_ rfl rfl
      intro j hj
      have := (hp.mX j).mp hj
      exact hne j ⟨this.1, by rw [this.2]; nofun⟩

/-- An item put into the queue. -/
theorem putItem_eq {s : St} {F Q : List Nat} {i : Nat} (cF : Chain s.next s.free F) (cQ : Chain s.next s.queue Q)
    (nQ : Q.Nodup) (tl : Q ≠ [] → s.tail = Q.getLast?) (hF : i ∉ F) (hQ : i ∉ Q) (hFQ : ∀ j ∈ Q, j ∉ F) :
    ∃ nx q, putItem s i = .ok { s with next := nx, queue := q, tail := some i } ∧ Chain nx s.free F ∧ Chain nx q (Q ++ [i]) := by
  unfold putItem
  cases hq : s.queue with
  | none =>
    rw [hq] at cQ
    rw [chain_none cQ]
    refine ⟨_, _, rfl, chain_upd hF cF, rfl, ?_⟩
    rw [upd_same]
    rfl
  | some k =>
    rw [hq] at cQ
    obtain ⟨Q', rfl, _⟩ := chain_some cQ
    have ht := tl (by nofun)
    obtain ⟨t, hlast⟩ : ∃ t, (k :: Q').getLast? = some t := by
      exact ⟨_, List.getLast?_eq_some_getLast (by nofun)⟩
    simp only [ht, hlast]
    refine ⟨_, some k, rfl, ?_, ?_⟩
    · exact chain_upd (hFQ t (List.mem_of_getLast? hlast)) (chain_upd hF cF)
    · exact chain_snoc hQ nQ hlast cQ

theorem not_in {l : List Nat} {ow : Nat → Loc} {a b : Loc} {i : Nat} (h : ∀ j, j ∈ l ↔ j < 64 ∧ ow j = a) (hi : ow i = b)
    (hab : a ≠ b) : i ∉ l := fun hm => hab ((((h i).mp hm).2).symm.trans hi)

theorem put_keeps {s : St} {p : Seen} {t : Nat} {x : Except Fault St} (h : Inv s p) (hs : stepPut s t = some x) :
    ∃ s', x = .ok s' ∧ Inv s' (p.next (.put t)) := by
  obtain ⟨F, Q, ow, hp, ha, hq⟩ := h.places
  unfold stepPut at hs
  cases hpr : s.pr t with
  | idle => rw [hpr] at hs; cases hs
  | got i r => rw [hpr] at hs; cases hs
  | filled i =>
    rw [hpr] at hs
    simp only [Option.some.injEq] at hs
    have hh := h.hold t
    rw [hpr] at hh
    have hi := (hp.mT t i).mp (by rw [hpr]; rfl)
    have hFQ : ∀ j ∈ Q, j ∉ F := fun j hj => not_in hp.mF ((hp.mQ j).mp hj).2 (by nofun)
    obtain ⟨nx, q, e, c1, c2⟩ := putItem_eq (s := { s with pr := upd s.pr t .idle }) hp.cF hp.cQ hp.nQ hp.tail
      (not_in hp.mF hi.2 (by nofun)) (not_in hp.mQ hi.2 (by nofun)) hFQ
    rw [e] at hs
    refine ⟨_, hs.symm, ⟨F, Q ++ [i], upd ow i .queue, ?_, ha, ?_⟩, ?_, ?_, ?_, h.drops, ?_⟩
    · refine ⟨c1, c2, hp.nF, ?_, ?_, ?_, ?_, ?_, ?_, ?_, dead_upd hp.mD (by nofun)⟩
      · rw [List.nodup_append]
        refine ⟨hp.nQ, by simp, ?_⟩
        intro a ha b hb eq
        simp only [List.mem_singleton] at hb
        exact not_in hp.mQ hi.2 (by nofun) (by rw [← hb, ← eq]; exact ha)
      · intro _
        rw [List.getLast?_append]
        rfl
      · intro j
        by_cases e : j = i
        · subst e
          rw [upd_same]
          exact ⟨fun a => absurd a (not_in hp.mF hi.2 (by nofun)), fun a => absurd a.2 (by nofun)⟩
        · rw [upd_other _ _ e]
          exact hp.mF j
      · intro j
        by_cases e : j = i
        · subst e
          rw [upd_same]
          exact ⟨fun _ => ⟨hi.1, rfl⟩, fun _ => by simp⟩
        · rw [upd_other _ _ e, ← hp.mQ j]
          simp [e]
      · intro u j
        show (upd s.pr t Pr.idle u).item = some j ↔ _
        by_cases ut : u = t
        · subst ut
          rw [upd_same]
          by_cases e' : j = i
          · subst e'
            rw [upd_same]
            exact ⟨fun a => absurd a (by nofun), fun a => absurd a.2 (by nofun)⟩
          · rw [upd_other _ _ e', ← hp.mT u j, hpr]
            constructor
            · intro a; cases a
            · intro a
              simp only [Pr.item, Option.some.injEq] at a
              exact absurd a.symm e'
        · rw [upd_other _ _ ut]
          by_cases e' : j = i
          · subst e'
            rw [upd_same, hp.mT u j, hi.2]
            exact ⟨fun a => absurd (Loc.thr.inj a.2).symm ut, fun a => absurd a.2 (by nofun)⟩
          · rw [upd_other _ _ e']
            exact hp.mT u j
      · intro j
        by_cases e : j = i
        · subst e
          rw [upd_same]
          show s.wk.item = some j ↔ _
          rw [hp.mW j, hi.2]
          exact ⟨fun a => absurd a.2 (by nofun), fun a => absurd a.2 (by nofun)⟩
        · rw [upd_other _ _ e]
          exact hp.mW j
      · intro j
        by_cases e : j = i
        · subst e
          rw [upd_same]
          show s.ex.item = some j ↔ _
          rw [hp.mX j, hi.2]
          exact ⟨fun a => absurd a.2 (by nofun), fun a => absurd a.2 (by nofun)⟩
        · rw [upd_other _ _ e]
          exact hp.mX j
    · show inHand _ ++ (Q ++ [i]).map (fun i => view (s.cell i)) = (p.put ++ [p.hold t]).drop p.did
      rw [drop_snoc _ h.did, ← hq, List.map_append, ← List.append_assoc]
      congr 2
      simp [hh.2]
    · show p.did ≤ (p.put ++ [p.hold t]).length
      have := h.did
      simp only [List.length_append]
      omega
    · show s.out = ((p.put ++ [p.hold t]).take p.did).filterMap id
      rw [take_snoc _ h.did]
      exact h.out
    · intro u
      show held s.cell (upd s.pr t Pr.idle u) (upd p.hold t none u)
      by_cases e : u = t
      · subst e
        rw [upd_same, upd_same]
        rfl
      · rw [upd_other _ _ e, upd_other _ _ e]
        exact h.hold u
    · refine ⟨h.ends.todo, h.ends.ex, ?_, ?_, h.ends.fill, ?_⟩
      · intro hj hx hm
        show False
        have hm : none ∈ p.put ++ [p.hold t] := hm
        rcases List.mem_append.mp hm with hm | hm
        · exact h.ends.before hj hx hm
        · simp only [List.mem_singleton] at hm
          exact hh.1 hm.symm
      · intro hw
        obtain ⟨P, R, h1, h2, h3⟩ := h.ends.after hw
        refine ⟨P, R ++ [p.hold t], ?_, h2, h3⟩
        show p.put ++ [p.hold t] = _
        rw [h1]
        simp
      · intro hm
        have hm : none ∈ (p.put ++ [p.hold t]).take p.did := hm
        rw [take_snoc _ h.did] at hm
        exact h.ends.live hm

theorem take_keeps {s : St} {p : Seen} {x : Except Fault St} (h : Inv s p) (hs : stepTake s = some x) :
    ∃ s', x = .ok s' ∧ Inv s' (p.next .take) := by
  obtain ⟨F, Q, ow, hp, ha, hq⟩ := h.places
  unfold stepTake at hs
  cases hw : s.wk with
  | has i => rw [hw] at hs; cases hs
  | did i => rw [hw] at hs; cases hs
  | ended => rw [hw] at hs; cases hs
  | idle =>
    rw [hw] at hs
    cases hQ : s.queue with
    | none => rw [hQ] at hs; cases hs
    | some i =>
      rw [hQ] at hs
      simp only [Option.some.injEq] at hs
      have cQ := hp.cQ
      rw [hQ] at cQ
      obtain ⟨Q', rfl, hQ'⟩ := chain_some cQ
      have hi := (hp.mQ i).mp List.mem_cons_self
      have hn := List.nodup_cons.mp hp.nQ
      refine ⟨_, hs.symm, ⟨F, Q', upd ow i .wk, ?_, ha, ?_⟩, h.did, h.out, h.hold, h.drops, ?_⟩
      · refine ⟨hp.cF, hQ', hp.nF, hn.2, ?_, ?_, ?_, ?_, ?_, ?_,
          fun j hj hd => absurd (dead_upd hp.mD (by nofun) j hj hd) (by rw [hw]; nofun)⟩
        · intro hne
          show s.tail = _
          rw [hp.tail (by nofun)]
          cases Q' with
          | nil => exact absurd rfl hne
          | cons a b => rw [List.getLast?_cons_cons]
        · intro j
          by_cases e : j = i
          · subst e
            rw [upd_same]
            exact ⟨fun a => absurd a (not_in hp.mF hi.2 (by nofun)), fun a => absurd a.2 (by nofun)⟩
          · rw [upd_other _ _ e]
            exact hp.mF j
        · intro j
          by_cases e : j = i
          · subst e
            rw [upd_same]
            exact ⟨fun a => absurd a hn.1, fun a => absurd a.2 (by nofun)⟩
          · rw [upd_other _ _ e, ← hp.mQ j]
            simp [e]
        · intro u j
          show (s.pr u).item = some j ↔ _
          by_cases e : j = i
          · subst e
            rw [upd_same, hp.mT u j, hi.2]
            exact ⟨fun a => absurd a.2 (by nofun), fun a => absurd a.2 (by nofun)⟩
          · rw [upd_other _ _ e]
            exact hp.mT u j
        · intro j
          show some i = some j ↔ _
          by_cases e : j = i
          · subst e
            rw [upd_same]
            exact ⟨fun _ => ⟨hi.1, rfl⟩, fun _ => rfl⟩
          · rw [upd_other _ _ e, ← hp.mW j, hw]
            constructor
            · intro a; exact absurd (Option.some.inj a).symm e
            · intro a; cases a
        · intro j
          show s.ex.item = some j ↔ _
          by_cases e : j = i
          · subst e
            rw [upd_same, hp.mX j, hi.2]
            exact ⟨fun a => absurd a.2 (by nofun), fun a => absurd a.2 (by nofun)⟩
          · rw [upd_other _ _ e]
            exact hp.mX j
      · rw [show (p.next Ev.take) = p from rfl, ← hq]
        simp only [inHand, hw, List.map_cons, List.nil_append, List.singleton_append]
      · exact ⟨h.ends.todo, fun hj => absurd ((h.ends.ex hj).2) (by rw [hw]; nofun), h.ends.before, nofun, h.ends.fill,
          fun hm => absurd (h.ends.live hm) (by rw [hw]; nofun)⟩

theorem drop_cons {α : Type} {l r : List α} {a : α} {n : Nat} (h : a :: r = l.drop n) :
    n < l.length ∧ l.take (n + 1) = l.take n ++ [a] ∧ l.drop (n + 1) = r := by
  have hn : n < l.length := by
    apply Classical.byContradiction
    intro hc
    rw [List.drop_of_length_le (by omega)] at h
    cases h
  rw [List.drop_eq_getElem_cons hn] at h
  injection h with h1 h2
  refine ⟨hn, ?_, h2.symm⟩
  rw [List.take_add_one, List.getElem?_eq_getElem hn, h1]
  rfl

theorem work_keeps {s : St} {p : Seen} {x : Except Fault St} (h : Inv s p) (hs : stepWork s = some x) :
    ∃ s', x = .ok s' ∧ Inv s' (p.next .work) := by
  obtain ⟨F, Q, ow, hp, ha, hq⟩ := h.places
  unfold stepWork at hs
  cases hw : s.wk with
  | idle => rw [hw] at hs; cases hs
  | did i => rw [hw] at hs; cases hs
  | ended => rw [hw] at hs; cases hs
  | has i =>
    rw [hw] at hs
    have hq0 := hq
    simp only [inHand, hw, List.singleton_append] at hq0
    obtain ⟨d1, d2, d3⟩ := drop_cons hq0
    have hi := (hp.mW i).mp (by rw [hw]; rfl)
    have hno : none ∉ p.put.take p.did := fun hm => absurd (h.ends.live hm) (by rw [hw]; nofun)
    have hjn : s.joined ≠ true := fun hj => absurd ((h.ends.ex hj).2) (by rw [hw]; nofun)
    cases hc : (s.cell i).ty with
    | write =>
      simp only [hc, Option.some.injEq] at hs
      have hv : view (s.cell i) = some (s.cell i).msg := by simp [view, hc]
      rw [hv] at d2
      refine ⟨_, hs.symm, ⟨F, Q, ow, ?_, ha, ?_⟩, d1, ?_, h.hold, h.drops, ?_⟩
      · refine ⟨hp.cF, hp.cQ, hp.nF, hp.nQ, hp.tail, hp.mF, hp.mQ, hp.mT, ?_, hp.mX,
          fun j hj hd => absurd (hp.mD j hj hd) (by rw [hw]; nofun)⟩
        intro j
        rw [← hp.mW j, hw]
        exact Iff.rfl
      · show [] ++ Q.map (fun i => view (s.cell i)) = p.put.drop (p.did + 1)
        rw [d3]
        rfl
      · show s.out ++ [(s.cell i).msg] = (p.put.take (p.did + 1)).filterMap id
        rw [d2, List.filterMap_append, ← h.out]
        rfl
      · refine ⟨h.ends.todo, fun hj => absurd hj hjn, h.ends.before, nofun, h.ends.fill, ?_⟩
        intro hm
        have hm : none ∈ p.put.take (p.did + 1) := hm
        rw [d2] at hm
        rcases List.mem_append.mp hm with hm | hm
        · exact absurd hm hno
        · simp at hm
    | exit =>
      simp only [hc, Option.some.injEq] at hs
      have hv : view (s.cell i) = none := by simp [view, hc]
      rw [hv] at d2
      refine ⟨_, hs.symm, ⟨F, Q, upd ow i .dead, ?_, ha, ?_⟩, d1, ?_, h.hold, h.drops, ?_⟩
      · refine ⟨hp.cF, hp.cQ, hp.nF, hp.nQ, hp.tail, ?_, ?_, ?_, ?_, ?_, fun _ _ _ => rfl⟩
        · intro j
          by_cases e : j = i
          · subst e
            rw [upd_same]
            exact ⟨fun a => absurd a (not_in hp.mF hi.2 (by nofun)), fun a => absurd a.2 (by nofun)⟩
          · rw [upd_other _ _ e]
            exact hp.mF j
        · intro j
          by_cases e : j = i
          · subst e
            rw [upd_same]
            exact ⟨fun a => absurd a (not_in hp.mQ hi.2 (by nofun)), fun a => absurd a.2 (by nofun)⟩
          · rw [upd_other _ _ e]
            exact hp.mQ j
        · intro u j
          show (s.pr u).item = some j ↔ _
          by_cases e : j = i
          · subst e
            rw [upd_same, hp.mT u j, hi.2]
            exact ⟨fun a => absurd a.2 (by nofun), fun a => absurd a.2 (by nofun)⟩
          · rw [upd_other _ _ e]
            exact hp.mT u j
        · intro j
          show none = some j ↔ _
          by_cases e : j = i
          · subst e
            rw [upd_same]
            exact ⟨fun a => absurd a (by nofun), fun a => absurd a.2 (by nofun)⟩
          · rw [upd_other _ _ e, ← hp.mW j, hw]
            constructor
            · intro a; cases a
            · intro a; exact absurd (Option.some.inj a).symm e
        · intro j
          show s.ex.item = some j ↔ _
          by_cases e : j = i
          · subst e
            rw [upd_same, hp.mX j, hi.2]
            exact ⟨fun a => absurd a.2 (by nofun), fun a => absurd a.2 (by nofun)⟩
          · rw [upd_other _ _ e]
            exact hp.mX j
      · show [] ++ Q.map (fun i => view (s.cell i)) = p.put.drop (p.did + 1)
        rw [d3]
        rfl
      · show s.out = (p.put.take (p.did + 1)).filterMap id
        rw [d2, List.filterMap_append, ← h.out]
        simp
      · refine ⟨h.ends.todo, fun hj => absurd hj hjn, h.ends.before, ?_, h.ends.fill, fun _ => rfl⟩
        intro _
        refine ⟨p.put.take p.did, p.put.drop (p.did + 1), ?_, ?_, hno⟩
        · show p.put = _
          have := List.take_append_drop (p.did + 1) p.put
          rw [d2, List.append_assoc] at this
          exact this.symm
        · show p.did + 1 = _
          rw [List.length_take]
          omega

theorem rel_keeps {s : St} {p : Seen} {x : Except Fault St} (h : Inv s p) (hs : stepRel s = some x) :
    ∃ s', x = .ok s' ∧ Inv s' (p.next .rel) := by
  obtain ⟨F, Q, ow, hp, ha, hq⟩ := h.places
  unfold stepRel at hs
  cases hw : s.wk with
  | idle => rw [hw] at hs; cases hs
  | has i => rw [hw] at hs; cases hs
  | ended => rw [hw] at hs; cases hs
  | did i =>
    rw [hw] at hs
    simp only [Option.some.injEq] at hs
    have hi := (hp.mW i).mp (by rw [hw]; rfl)
    have hiF := not_in hp.mF hi.2 (by nofun)
    have hiQ := not_in hp.mQ hi.2 (by nofun)
    refine ⟨_, hs.symm, ⟨i :: F, Q, upd ow i .free, ?_, ?_, ?_⟩, h.did, h.out, h.hold, h.drops, ?_⟩
    · refine ⟨⟨rfl, ?_⟩, chain_upd hiQ hp.cQ, List.nodup_cons.mpr ⟨hiF, hp.nF⟩, hp.nQ, hp.tail, ?_, ?_, ?_, ?_, ?_,
        fun j hj hd => absurd (dead_upd hp.mD (by nofun) j hj hd) (by rw [hw]; nofun)⟩
      · show Chain (upd s.next i s.free) (upd s.next i s.free i) F
        rw [upd_same]
        exact chain_upd hiF hp.cF
      · intro j
        by_cases e : j = i
        · subst e
          rw [upd_same]
          exact ⟨fun _ => ⟨hi.1, rfl⟩, fun _ => List.mem_cons_self⟩
        · rw [upd_other _ _ e, ← hp.mF j]
          simp [e]
      · intro j
        by_cases e : j = i
        · subst e
          rw [upd_same]
          exact ⟨fun a => absurd a hiQ, fun a => absurd a.2 (by nofun)⟩
        · rw [upd_other _ _ e]
          exact hp.mQ j
      · intro u j
        show (s.pr u).item = some j ↔ _
        by_cases e : j = i
        · subst e
          rw [upd_same, hp.mT u j, hi.2]
          exact ⟨fun a => absurd a.2 (by nofun), fun a => absurd a.2 (by nofun)⟩
        · rw [upd_other _ _ e]
          exact hp.mT u j
      · intro j
        show none = some j ↔ _
        by_cases e : j = i
        · subst e
          rw [upd_same]
          exact ⟨fun a => absurd a (by nofun), fun a => absurd a.2 (by nofun)⟩
        · rw [upd_other _ _ e, ← hp.mW j, hw]
          constructor
          · intro a; cases a
          · intro a; exact absurd (Option.some.inj a).symm e
      · intro j
        show s.ex.item = some j ↔ _
        by_cases e : j = i
        · subst e
          rw [upd_same, hp.mX j, hi.2]
          exact ⟨fun a => absurd a.2 (by nofun), fun a => absurd a.2 (by nofun)⟩
        · rw [upd_other _ _ e]
          exact hp.mX j
    · show F.length + 1 = p.avail + 1
      rw [ha]
    · show [] ++ Q.map (fun i => view (s.cell i)) = p.put.drop p.did
      rw [← hq]
      simp [inHand, hw]
    · exact ⟨h.ends.todo, fun hj => absurd ((h.ends.ex hj).2) (by rw [hw]; nofun), h.ends.before, nofun, h.ends.fill,
        fun hm => absurd (h.ends.live hm) (by rw [hw]; nofun)⟩

theorem xget_keeps {s : St} {p : Seen} {x : Except Fault St} (h : Inv s p) (hs : stepXget s = some x) :
    ∃ s', x = .ok s' ∧ Inv s' (p.next .xget) := by
  obtain ⟨F, Q, ow, hp, ha, hq⟩ := h.places
  unfold stepXget at hs
  split at hs
  · rename_i n i hex htodo hf
    simp only [Option.some.injEq] at hs
    have hF := hp.cF
    rw [hf] at hF
    obtain ⟨F', rfl, hF'⟩ := chain_some hF
    have hi := (hp.mF i).mp List.mem_cons_self
    have hn := List.nodup_cons.mp hp.nF
    have hjn : s.joined = false := by
      have := h.ends.todo
      cases hj : s.joined with
      | false => rfl
      | true => rw [htodo, hj] at this; simp at this
    refine ⟨_, hs.symm, ⟨F', Q, upd ow i .ex, ?_, ?_, hq⟩, h.did, h.out, h.hold, h.drops, ?_⟩
    · refine ⟨hF', hp.cQ, hn.2, hp.nQ, hp.tail, ?_, ?_, ?_, ?_, ?_, dead_upd hp.mD (by nofun)⟩
      · intro j
        by_cases e : j = i
        · subst e
          rw [upd_same]
          exact ⟨fun a => absurd a hn.1, fun a => absurd a.2 (by nofun)⟩
        · rw [upd_other _ _ e, ← hp.mF j]
          simp [e]
      · intro j
        by_cases e : j = i
        · subst e
          rw [upd_same]
          exact ⟨fun a => absurd a (not_in hp.mQ hi.2 (by nofun)), fun a => absurd a.2 (by nofun)⟩
        · rw [upd_other _ _ e]
          exact hp.mQ j
      · intro u j
        show (s.pr u).item = some j ↔ _
        by_cases e : j = i
        · subst e
          rw [upd_same, hp.mT u j, hi.2]
          exact ⟨fun a => absurd a.2 (by nofun), fun a => absurd a.2 (by nofun)⟩
        · rw [upd_other _ _ e]
          exact hp.mT u j
      · intro j
        show s.wk.item = some j ↔ _
        by_cases e : j = i
        · subst e
          rw [upd_same, hp.mW j, hi.2]
          exact ⟨fun a => absurd a.2 (by nofun), fun a => absurd a.2 (by nofun)⟩
        · rw [upd_other _ _ e]
          exact hp.mW j
      · intro j
        show some i = some j ↔ _
        by_cases e : j = i
        · subst e
          rw [upd_same]
          exact ⟨fun _ => ⟨hi.1, rfl⟩, fun _ => rfl⟩
        · rw [upd_other _ _ e, ← hp.mX j, hex]
          constructor
          · intro a; exact absurd (Option.some.inj a).symm e
          · intro a; cases a
    · show F'.length = p.avail - 1
      rw [← ha]
      rfl
    · exact ⟨h.ends.todo, fun hj => absurd hj (by rw [hjn]; nofun), fun hj _ => h.ends.before hj (by rw [hex]; nofun),
        h.ends.after, nofun, h.ends.live⟩
  · cases hs

theorem xfill_keeps {s : St} {p : Seen} {x : Except Fault St} (h : Inv s p) (hs : stepXfill s = some x) :
    ∃ s', x = .ok s' ∧ Inv s' (p.next .xfill) := by
  obtain ⟨F, Q, ow, hp, ha, hq⟩ := h.places
  unfold stepXfill at hs
  cases hex : s.ex with
  | no => rw [hex] at hs; cases hs
  | filled i => rw [hex] at hs; cases hs
  | join => rw [hex] at hs; cases hs
  | got i =>
    rw [hex] at hs
    simp only [Option.some.injEq] at hs
    have hi := (hp.mX i).mp (by rw [hex]; rfl)
    have hne : ∀ j, ow j ≠ .ex → upd s.cell i ⟨.exit, (s.cell i).msg⟩ j = s.cell j := by
      intro j hj
      exact upd_other _ _ (fun e => hj (by rw [e]; exact hi.2))
    refine ⟨_, hs.symm, ⟨F, Q, ow, ?_, ha, ?_⟩, h.did, h.out, ?_, h.drops, ?_⟩
    · refine ⟨hp.cF, hp.cQ, hp.nF, hp.nQ, hp.tail, hp.mF, hp.mQ, hp.mT, hp.mW, ?_, hp.mD⟩
      intro j
      rw [← hp.mX j, hex]
      exact Iff.rfl
    · show _ = p.put.drop p.did
      rw [← hq]
      congr 1
      · refine inHand_same rfl ?_
        intro j hj
        exact hne j (by rw [((hp.mW j).mp hj).2]; nofun)
      · refine List.map_congr_left ?_
        intro j hj
        show view (upd s.cell i _ j) = _
        rw [hne j (by rw [((hp.mQ j).mp hj).2]; nofun)]
    · intro u
      refine held_cell ?_ (h.hold u)
      intro j hj
      exact hne j (by rw [((hp.mT u j).mp hj).2]; nofun)
    · refine ⟨h.ends.todo, fun hj => absurd (h.ends.ex hj).1 (by rw [hex]; nofun), fun hj _ => h.ends.before hj (by rw [hex]; nofun),
        h.ends.after, ?_, h.ends.live⟩
      intro j hj
      cases hj
      show (upd s.cell i ⟨.exit, (s.cell i).msg⟩ i).ty = .exit
      rw [upd_same]

theorem xput_keeps {s : St} {p : Seen} {x : Except Fault St} (h : Inv s p) (hs : stepXput s = some x) :
    ∃ s', x = .ok s' ∧ Inv s' (p.next .xput) := by
  obtain ⟨F, Q, ow, hp, ha, hq⟩ := h.places
  unfold stepXput at hs
  cases hex : s.ex with
  | no => rw [hex] at hs; cases hs
  | got i => rw [hex] at hs; cases hs
  | join => rw [hex] at hs; cases hs
  | filled i =>
    rw [hex] at hs
    simp only [Option.some.injEq] at hs
    have hi := (hp.mX i).mp (by rw [hex]; rfl)
    have hFQ : ∀ j ∈ Q, j ∉ F := fun j hj => not_in hp.mF ((hp.mQ j).mp hj).2 (by nofun)
    obtain ⟨nx, q, e, c1, c2⟩ := putItem_eq (s := { s with ex := .join }) hp.cF hp.cQ hp.nQ hp.tail
      (not_in hp.mF hi.2 (by nofun)) (not_in hp.mQ hi.2 (by nofun)) hFQ
    rw [e] at hs
    refine ⟨_, hs.symm, ⟨F, Q ++ [i], upd ow i .queue, ?_, ha, ?_⟩, ?_, ?_, h.hold, h.drops, ?_⟩
    · refine ⟨c1, c2, hp.nF, ?_, ?_, ?_, ?_, ?_, ?_, ?_, dead_upd hp.mD (by nofun)⟩
      · rw [List.nodup_append]
        refine ⟨hp.nQ, by simp, ?_⟩
        intro a ha b hb eq
        simp only [List.mem_singleton] at hb
        exact not_in hp.mQ hi.2 (by nofun) (by rw [← hb, ← eq]; exact ha)
      · intro _
        rw [List.getLast?_append]
        rfl
      · intro j
        by_cases e : j = i
        · subst e
          rw [upd_same]
          exact ⟨fun a => absurd a (not_in hp.mF hi.2 (by nofun)), fun a => absurd a.2 (by nofun)⟩
        · rw [upd_other _ _ e]
          exact hp.mF j
      · intro j
        by_cases e : j = i
        · subst e
          rw [upd_same]
          exact ⟨fun _ => ⟨hi.1, rfl⟩, fun _ => by simp⟩
        · rw [upd_other _ _ e, ← hp.mQ j]
          simp [e]
      · intro u j
        show (s.pr u).item = some j ↔ _
        by_cases e : j = i
        · subst e
          rw [upd_same, hp.mT u j, hi.2]
          exact ⟨fun a => absurd a.2 (by nofun), fun a => absurd a.2 (by nofun)⟩
        · rw [upd_other _ _ e]
          exact hp.mT u j
      · intro j
        show s.wk.item = some j ↔ _
        by_cases e : j = i
        · subst e
          rw [upd_same, hp.mW j, hi.2]
          exact ⟨fun a => absurd a.2 (by nofun), fun a => absurd a.2 (by nofun)⟩
        · rw [upd_other _ _ e]
          exact hp.mW j
      · intro j
        show none = some j ↔ _
        by_cases e : j = i
        · subst e
          rw [upd_same]
          exact ⟨fun a => absurd a (by nofun), fun a => absurd a.2 (by nofun)⟩
        · rw [upd_other _ _ e, ← hp.mX j, hex]
          constructor
          · intro a; cases a
          · intro a; exact absurd (Option.some.inj a).symm e
    · show inHand _ ++ (Q ++ [i]).map (fun i => view (s.cell i)) = (p.put ++ [none]).drop p.did
      rw [drop_snoc _ h.did, ← hq, List.map_append, ← List.append_assoc]
      congr 2
      simp [view, h.ends.fill i hex]
    · show p.did ≤ (p.put ++ [none]).length
      have := h.did
      simp only [List.length_append]
      omega
    · show s.out = ((p.put ++ [none]).take p.did).filterMap id
      rw [take_snoc _ h.did]
      exact h.out
    · refine ⟨h.ends.todo, fun hj => absurd (h.ends.ex hj).1 (by rw [hex]; nofun), fun _ hx => absurd rfl hx, ?_, nofun, ?_⟩
      · intro hw
        obtain ⟨P, R, h1, h2, h3⟩ := h.ends.after hw
        refine ⟨P, R ++ [none], ?_, h2, h3⟩
        show p.put ++ [none] = _
        rw [h1]
        simp
      · intro hm
        have hm : none ∈ (p.put ++ [none]).take p.did := hm
        rw [take_snoc _ h.did] at hm
        exact h.ends.live hm

theorem xjoin_keeps {s : St} {p : Seen} {x : Except Fault St} (h : Inv s p) (hs : stepXjoin s = some x) :
    ∃ s', x = .ok s' ∧ Inv s' (p.next .xjoin) := by
  obtain ⟨F, Q, ow, hp, ha, hq⟩ := h.places
  unfold stepXjoin at hs
  cases hex : s.ex with
  | no => rw [hex] at hs; cases hs
  | got i => rw [hex] at hs; cases hs
  | filled i => rw [hex] at hs; cases hs
  | join =>
    simp only [hex] at hs
    cases hj : s.joined with
    | true => exact absurd (h.ends.ex hj).1 (by rw [hex]; nofun)
    | false =>
      rw [hj] at hs
      simp only [Bool.false_eq_true, if_false] at hs
      cases hw : s.wk with
      | idle => rw [hw] at hs; cases hs
      | has i => rw [hw] at hs; cases hs
      | did i => rw [hw] at hs; cases hs
      | ended =>
        rw [hw] at hs
        simp only [Option.some.injEq] at hs
        refine ⟨_, hs.symm, ⟨F, Q, ow, ?_, ha, ?_⟩, h.did, h.out, h.hold, h.drops, ?_⟩
        · refine ⟨hp.cF, hp.cQ, hp.nF, hp.nQ, hp.tail, hp.mF, hp.mQ, hp.mT, by rw [← hw]; exact hp.mW, ?_, fun _ _ _ => rfl⟩
          intro j
          rw [← hp.mX j, hex]
          exact Iff.rfl
        · rw [show (p.next Ev.xjoin) = p from rfl, ← hq]
          simp only [inHand, hw]
        · refine ⟨?_, fun _ => ⟨rfl, rfl⟩, fun a => absurd a (by nofun), fun _ => h.ends.after hw, nofun, fun _ => rfl⟩
          have := h.ends.todo
          rw [hj] at this
          simp only [Bool.false_eq_true, if_false] at this
          show s.todo - 1 = _
          rw [this]
          rfl

theorem keeps {s : St} {p : Seen} {e : Ev} {x : Except Fault St} (h : Inv s p) (hi : e ≠ .init) (hr : e.sane)
    (hd : (p.next e).drops < 2 ^ 31) (hs : step s e = some x) : ∃ s', x = .ok s' ∧ Inv s' (p.next e) := by
  cases e with
  | get t r => exact get_keeps h hr hd hs
  | fill t => exact fill_keeps h hs
  | put t => exact put_keeps h hs
  | take => exact take_keeps h hs
  | work => exact work_keeps h hs
  | rel => exact rel_keeps h hs
  | xget => exact xget_keeps h hs
  | xfill => exact xfill_keeps h hs
  | xput => exact xput_keeps h hs
  | xjoin => exact xjoin_keeps h hs
  | init => exact absurd rfl hi

theorem chain_init : ∀ k n : Nat, n + k = 64 →
    Chain (fun i => if i + 1 < poolSize then some (i + 1) else none) (if n < 64 then some n else none) (List.range' n k) := by
  intro k
  induction k with
  | zero => intro n hn; rw [if_neg (by omega)]; rfl
  | succ k ih =>
    intro n hn
    rw [if_pos (by omega)]
    exact ⟨rfl, ih (n + 1) (by omega)⟩

theorem inv_init : Inv init Seen.start where
  places := by
    refine ⟨List.range' 0 64, [], fun i => if i < 64 then .free else .dead, ⟨?_, rfl, List.nodup_range', List.nodup_nil, ?_,
      ?_, ?_, ?_, ?_, ?_, ?_⟩, by simp [Seen.start], rfl⟩
    · exact chain_init 64 0 rfl
    · intro a; exact absurd rfl a
    · intro i
      simp only [List.mem_range'_1]
      constructor
      · intro a; exact ⟨by omega, if_pos (by omega)⟩
      · intro a; omega
    · intro i
      refine ⟨fun a => absurd a (by nofun), fun a => ?_⟩
      rw [if_pos a.1] at a
      exact absurd a.2 (by nofun)
    · intro t i
      refine ⟨fun a => absurd a (by nofun), fun a => ?_⟩
      rw [if_pos a.1] at a
      exact absurd a.2 (by nofun)
    · intro i
      refine ⟨fun a => absurd a (by nofun), fun a => ?_⟩
      rw [if_pos a.1] at a
      exact absurd a.2 (by nofun)
    · intro i
      refine ⟨fun a => absurd a (by nofun), fun a => ?_⟩
      rw [if_pos a.1] at a
      exact absurd a.2 (by nofun)
    · intro i hi hd
      rw [if_pos hi] at hd
      exact absurd hd (by nofun)
  did := Nat.le_refl _
  out := rfl
  hold := fun _ => rfl
  drops := rfl
  ends := ⟨rfl, nofun, fun _ _ => by nofun, nofun, nofun, nofun⟩

end Verif.Log
