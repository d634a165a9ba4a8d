import Verif.Netio.Inv

/-! # The counts of references are kept by every step, and no step goes wrong -/

namespace Verif.Netio

open Verif.Util (tot tot_set tot_ge)

theorem live_eq (st : St) : live st = curItems st.cur ++ items st.batch ++ items st.queue ++ st.lost := rfl

theorem cnt_live (p : Nat) (st : St) :
    cnt p (live st) = cnt p (curItems st.cur) + cnt p (items st.batch) + cnt p (items st.queue) + cnt p st.lost := by
  simp only [live, cnt_append]

theorem live_same {a b : St} (h : Same a b) : live b = live a := by
  simp only [live, h.cur, h.batch, h.queue, h.lost]

theorem holds_set {st : St} {p : Nat} {o o' : Obj} (ho : st.objs[p]? = some o) (he : ∀ s, hold s o' = hold s o) (s : Nat) :
    tot (hold s) (st.objs.set p o') = tot (hold s) st.objs := by
  have := tot_set (hold s) st.objs p o o' ho
  rw [he] at this; omega

theorem init_inv (d : Bool) : InvR (init d) := by
  refine ⟨⟨?_, ?_, ?_⟩, ⟨?_, ?_, ?_⟩⟩ <;> simp [init, live, curItems, items]

/-- Somebody gives back a reference of theirs to a packet, or the thread or the queue does. -/
theorem release_inv {st : St} {p : Nat} {o o1 : Obj} {l : List Item} (hs : InvS st (holds st)) (hO : InvO st (live st))
    (ho : st.objs[p]? = some o) (h1 : o1.refs = o.refs ∧ o1.held = o.held)
    (hr : o.refs = o1.ext + cnt p l + 1) (hq : ∀ q, q ≠ p → cnt q l = cnt q (live st)) (hl : ∀ i ∈ l, i ∈ live st)
    {st1 : St} (e1 : st1.objs = st.objs.set p o1) (e2 : st1.socks = st.socks) (e3 : st1.fdt = st.fdt)
    (e4 : live st1 = l) :
    ∃ st', decObj st1 p = .ok st' ∧ InvR st' := by
  have ho1 : st1.objs[p]? = some o1 := by rw [e1, set_get ho, if_pos rfl]
  have hh : holds st1 = holds st := by
    funext s
    simp only [holds, e1]
    exact holds_set ho (fun s => by simp only [hold, h1.1, h1.2]) s
  obtain ⟨st', g1, g2, g3, g4⟩ := decObj_inv (st := st1) (l := l) (p := p) (o := o1)
    (by rw [hh]; exact ⟨by rw [e2]; exact hs.refs, by rw [e2]; exact hs.pin, by rw [e2, e3]; exact hs.fdt⟩) ho1
    (by rw [h1.1]; exact hr)
    (by
      intro q o' hq' hne
      rw [e1, set_get ho, if_neg hne] at hq'
      rw [hO.refs q o' hq', hq q hne])
    (by
      intro q o' hq' s hs'
      rw [e1, set_get ho] at hq'
      rw [e2]
      split at hq'
      · cases hq'; exact hO.held p o ho s (by rw [← h1.2]; exact hs')
      · exact hO.held q o' hq' s hs')
    (by
      intro i hi
      obtain ⟨o', f1, s, k, f2, f3, f4⟩ := hO.item i (hl i hi)
      rw [e1, e2, set_get ho]
      split
      next e =>
        rw [e, ho] at f1; cases f1
        exact ⟨o1, rfl, s, k, f2, f3, by rw [h1.2]; exact f4⟩
      next e => exact ⟨o', f1, s, k, f2, f3, f4⟩)
  refine ⟨st', g1, g2, ?_⟩
  rw [live_same g4]
  have : live { st1 with objs := st1.objs.set p { o1 with refs := o1.refs - 1 } } = live st1 := rfl
  rw [this, e4]
  exact g3

theorem set_self {α : Type} {l : List α} {i : Nat} {x : α} (h : l[i]? = some x) : l.set i x = l := by
  apply List.ext_getElem?
  intro j
  rw [set_get h]
  split
  next e => subst e; exact h.symm
  · rfl

/-- Items are only moved about. -/
theorem move_inv {st st' : St} (h : InvR st) (e1 : st'.objs = st.objs) (e2 : st'.socks = st.socks)
    (e3 : st'.fdt = st.fdt) (hc : ∀ p, cnt p (live st') = cnt p (live st)) (hl : ∀ i ∈ live st', i ∈ live st) : InvR st' := by
  refine ⟨⟨?_, ?_, ?_⟩, ⟨?_, ?_, ?_⟩⟩
  · simp only [holds, e1, e2]; exact h.1.refs
  · simp only [e2]; exact h.1.pin
  · simp only [e2, e3]; exact h.1.fdt
  · intro p o; rw [e1, hc]; exact h.2.refs p o
  · rw [e1, e2]; exact h.2.held
  · intro i hi; rw [e1, e2]; exact h.2.item i (hl i hi)

theorem mem_live_release {st : St} {i : Item} (hR : InvR st) (hi : i ∈ live st) :
    ∃ o, st.objs[i.obj]? = some o ∧ o.refs = o.ext + cnt i.obj (live st) := by
  obtain ⟨o, h1, _⟩ := hR.2.item i hi
  exact ⟨o, h1, hR.2.refs _ o h1⟩

/-- The release of an item. -/
theorem drop_inv {st st1 : St} {i : Item} (hR : InvR st) (hi : i ∈ live st)
    (hc : ∀ q, cnt q (live st) = (if i.obj = q then 1 else 0) + cnt q (live st1)) (hl : ∀ j ∈ live st1, j ∈ live st)
    (e1 : st1.objs = st.objs) (e2 : st1.socks = st.socks) (e3 : st1.fdt = st.fdt) :
    ∃ st', decObj st1 i.obj = .ok st' ∧ InvR st' := by
  obtain ⟨o, ho, hr⟩ := mem_live_release hR hi
  have h1 := hc i.obj
  rw [if_pos rfl] at h1
  exact release_inv hR.1 hR.2 ho ⟨rfl, rfl⟩ (l := live st1) (by omega)
    (by intro q hq; have := hc q; rw [if_neg (Ne.symm hq)] at this; omega) hl
    (by rw [set_self ho]; exact e1) e2 e3 rfl

theorem cur_live {st : St} {c : Cur} (h : st.cur = some c) : c.it ∈ live st := by
  simp [live, h, curItems]

theorem cnt_pos {p : Nat} {l : List Item} {i : Item} (hi : i ∈ l) (he : i.obj = p) : 0 < cnt p l := by
  rw [cnt, List.count_pos_iff]
  exact List.mem_map.mpr ⟨i, hi, he⟩

/-- The packet of an item is alive. -/
theorem live_obj {st : St} {i : Item} (hR : InvR st) (hi : i ∈ live st) :
    ∃ o, st.objs[i.obj]? = some o ∧ 0 < o.refs := by
  obtain ⟨o, ho, hr⟩ := mem_live_release hR hi
  have := cnt_pos hi rfl
  exact ⟨o, ho, by omega⟩

theorem step_inv {st : St} (hR : InvR st) (e : Ev) :
    step st e = none ∨ ∃ st', step st e = some (.ok st') ∧ InvR st' := by
  obtain ⟨hS, hO⟩ := hR
  cases e with
  | sopen fd pin =>
    simp only [step]
    split
    next hf =>
      refine Or.inr ⟨_, rfl, ⟨?_, ?_, ?_⟩, ⟨?_, ?_, ?_⟩⟩
      · intro s k hk
        simp only at hk
        rw [List.getElem?_append] at hk
        split at hk
        next hlt => exact hS.refs s k hk
        next hge =>
          have : s = st.socks.length := by
            have := get_lt hk
            simp at this; omega
          subst this
          simp at hk; subst hk
          have : tot (hold st.socks.length) st.objs = 0 := by
            refine Verif.Util.tot_zero _ _ ?_
            intro o ho
            simp only [hold]
            split
            · rfl
            · rw [List.count_eq_zero]
              intro hm
              obtain ⟨p, hp⟩ := List.getElem?_of_mem ho
              exact absurd (hO.held p o hp _ hm) (Nat.lt_irrefl _)
          simp only [holds]; rw [this]
      · intro s k hk
        simp only at hk
        rw [List.getElem?_append] at hk
        split at hk
        next hlt => exact hS.pin s k hk
        next hge =>
          have : s = st.socks.length := by
            have := get_lt hk
            simp at this; omega
          subst this
          simp at hk; subst hk
          simp
      · intro fd' s
        simp only [List.getElem?_append]
        by_cases hfd : fd' = fd
        · subst hfd
          rw [upd_self]
          constructor
          · rintro h; cases h
            refine ⟨_, by rw [if_neg (Nat.lt_irrefl _)]; simp; rfl, by simp, rfl⟩
          · rintro ⟨k, hk, h0, hkf⟩
            split at hk
            next hlt =>
              have := (hS.fdt fd' s).mpr ⟨k, hk, h0, hkf⟩
              rw [hf] at this; cases this
            next hge =>
              have := get_lt hk
              simp at this
              congr 1; omega
        · rw [upd_ne _ _ hfd, hS.fdt]
          constructor
          · rintro ⟨k, hk, h0, hkf⟩
            exact ⟨k, by rw [if_pos (get_lt hk)]; exact hk, h0, hkf⟩
          · rintro ⟨k, hk, h0, hkf⟩
            split at hk
            next hlt => exact ⟨k, hk, h0, hkf⟩
            next hge =>
              exfalso
              have := get_lt hk
              simp at this
              have : s - st.socks.length = 0 := by omega
              rw [this] at hk
              simp at hk; subst hk
              exact hfd hkf.symm
      · exact hO.refs
      · intro p o ho s hs
        have := hO.held p o ho s hs
        simp; omega
      · intro i hi
        obtain ⟨o, h1, s, k, h2, h3⟩ := hO.item i hi
        exact ⟨o, h1, s, k, by simp only; rw [List.getElem?_append_left (get_lt h2)]; exact h2, h3⟩
    · exact Or.inl rfl
  | sget s =>
    simp only [step]
    split
    · exact Or.inl rfl
    next k hk =>
      split
      · exact Or.inl rfl
      next h0 =>
        refine Or.inr ⟨_, rfl, ⟨?_, ?_, ?_⟩, ⟨hO.refs, ?_, ?_⟩⟩
        · intro t j hj
          simp only [set_get hk] at hj
          split at hj
          next e => subst e; cases hj; have := hS.refs t k hk; simp only [holds] at *; omega
          next e => exact hS.refs t j hj
        · intro t j hj
          simp only [set_get hk] at hj
          split at hj
          next e => subst e; cases hj; simp
          next e => exact hS.pin t j hj
        · intro fd t
          simp only [set_get hk]
          rw [hS.fdt]
          have hr := hS.refs s k hk
          constructor
          · rintro ⟨j, hj, hj0, hjf⟩
            split
            next e => subst e; rw [hk] at hj; cases hj; exact ⟨_, rfl, by simp, hjf⟩
            next e => exact ⟨j, hj, hj0, hjf⟩
          · rintro ⟨j, hj, hj0, hjf⟩
            split at hj
            next e => subst e; cases hj; exact ⟨k, hk, by omega, hjf⟩
            next e => exact ⟨j, hj, hj0, hjf⟩
        · intro p o ho t ht
          simpa using hO.held p o ho t ht
        · intro i hi
          obtain ⟨o, h1, t, j, h2, h3, h4⟩ := hO.item i hi
          simp only [set_get hk]
          refine ⟨o, h1, t, if t = s then { k with refs := k.refs + 1, ext := k.ext + 1 } else j, ?_, ?_, ?_⟩
          · split
            · rfl
            · exact h2
          · split
            next e => subst e; rw [hk] at h2; cases h2; exact h3
            · exact h3
          · split
            next e => subst e; rw [hk] at h2; cases h2; exact h4
            · exact h4
  | sput s =>
    simp only [step]
    split
    · exact Or.inl rfl
    next k hk =>
      split
      · exact Or.inl rfl
      next h0 =>
        right
        have hne : k.ext ≠ 0 := fun e => h0 (.inl e)
        have hpin : k.pinned = true → k.ext ≠ 1 := fun e e' => h0 (.inr ⟨e, e'⟩)
        have hr := hS.refs s k hk
        have hS1 : InvS { st with socks := st.socks.set s { k with ext := k.ext - 1 } }
            (fun t => if t = s then holds st t + 1 else holds st t) := by
          refine ⟨?_, ?_, ?_⟩
          · intro t j hj
            simp only [set_get hk] at hj
            split at hj
            next e => subst e; cases hj; simp only [if_pos]; omega
            next e => rw [if_neg e]; exact hS.refs t j hj
          · intro t j hj
            simp only [set_get hk] at hj
            split at hj
            next e => subst e; cases hj; intro hp; have := hpin hp; simp only; omega
            next e => exact hS.pin t j hj
          · intro fd t
            simp only [set_get hk]
            rw [hS.fdt]
            constructor
            · rintro ⟨j, hj, hj0, hjf⟩
              split
              next e => subst e; rw [hk] at hj; cases hj; exact ⟨_, rfl, hj0, hjf⟩
              next e => exact ⟨j, hj, hj0, hjf⟩
            · rintro ⟨j, hj, hj0, hjf⟩
              split at hj
              next e => subst e; cases hj; exact ⟨k, hk, hj0, hjf⟩
              next e => exact ⟨j, hj, hj0, hjf⟩
        obtain ⟨st', e1, i1, s1⟩ := decSock_inv hS1 (s := s) (by simpa using get_lt hk) (by simp)
        refine ⟨st', by rw [e1], ?_, ?_⟩
        · have : (fun t => if t = s then (if t = s then holds st t + 1 else holds st t) - 1 else
              if t = s then holds st t + 1 else holds st t) = holds st' := by
            funext t
            simp only [holds, s1.objs]
            split
            · omega
            · rfl
          rw [← this]; exact i1
        · rw [live_same s1]
          refine ⟨?_, ?_, ?_⟩
          · rw [s1.objs]; exact hO.refs
          · rw [s1.objs, s1.len]; intro p o ho t ht; simpa using hO.held p o ho t ht
          · intro i hi
            obtain ⟨o, h1, t, j, h2, h3, h4⟩ := hO.item i hi
            rw [s1.objs]
            have : ∃ j', (st.socks.set s { k with ext := k.ext - 1 })[t]? = some j' ∧ j'.fd = j.fd ∧ j'.pinned = j.pinned := by
              rw [set_get hk]
              split
              next e => subst e; rw [hk] at h2; cases h2; exact ⟨_, rfl, rfl, rfl⟩
              · exact ⟨j, h2, rfl, rfl⟩
            obtain ⟨j', g1, g2, g3⟩ := this
            obtain ⟨j2, g4, g5, _, g6⟩ := s1.get g1
            exact ⟨o, h1, t, j2, g4, by rw [g5, g2, h3], by rw [g6, g3]; exact h4⟩
  | onew d =>
    have hlen : ∀ (p : Nat) (o : Obj), (st.objs ++ [⟨d, 1, 1, []⟩])[p]? = some o →
        st.objs[p]? = some o ∨ (p = st.objs.length ∧ o = ⟨d, 1, 1, []⟩) := by
      intro p o hp
      rw [List.getElem?_append] at hp
      split at hp
      · exact .inl hp
      next hge =>
        have := get_lt hp
        simp at this
        have : p - st.objs.length = 0 := by omega
        rw [this] at hp
        simp at hp
        exact .inr ⟨by omega, hp.symm⟩
    have hh : ∀ s, tot (hold s) (st.objs ++ [⟨d, 1, 1, []⟩]) = tot (hold s) st.objs := by
      intro s; simp [tot, hold]
    refine Or.inr ⟨_, rfl, ⟨?_, hS.pin, hS.fdt⟩, ⟨?_, ?_, ?_⟩⟩
    · intro s k hk
      simp only [holds, hh]; exact hS.refs s k hk
    · intro p o hp
      rcases hlen p o hp with h | ⟨rfl, rfl⟩
      · exact hO.refs p o h
      · have : cnt st.objs.length (live st) = 0 := by
          rw [cnt, List.count_eq_zero]
          intro hm
          obtain ⟨i, hi, he⟩ := List.mem_map.mp hm
          obtain ⟨o, h1, _⟩ := hO.item i hi
          have := get_lt h1; omega
        show 1 = 1 + cnt st.objs.length (live st)
        omega
    · intro p o hp s hs
      rcases hlen p o hp with h | ⟨rfl, rfl⟩
      · exact hO.held p o h s hs
      · cases hs
    · intro i hi
      obtain ⟨o, h1, h2⟩ := hO.item i hi
      exact ⟨o, by simp only; rw [List.getElem?_append_left (get_lt h1)]; exact h1, h2⟩
  | oget p =>
    simp only [step]
    split
    · exact Or.inl rfl
    next o ho =>
      split
      · exact Or.inl rfl
      next h0 =>
        have hr := hO.refs p o ho
        refine Or.inr ⟨_, rfl, ⟨?_, hS.pin, hS.fdt⟩, ⟨?_, ?_, ?_⟩⟩
        · intro s k hk
          simp only [holds]
          rw [holds_set ho (fun s => by simp only [hold]; rw [if_neg (by omega), if_neg (by omega)])]
          exact hS.refs s k hk
        · intro q o' hq
          simp only [set_get ho] at hq
          split at hq
          next e => subst e; cases hq; show o.refs + 1 = o.ext + 1 + cnt q (live st); omega
          next e => exact hO.refs q o' hq
        · intro q o' hq s hs
          simp only [set_get ho] at hq
          split at hq
          next e => subst e; cases hq; exact hO.held q o ho s hs
          next e => exact hO.held q o' hq s hs
        · intro i hi
          obtain ⟨o', h1, s, k, h2⟩ := hO.item i hi
          simp only [set_get ho]
          split
          next e => rw [e, ho] at h1; cases h1; exact ⟨_, rfl, s, k, h2⟩
          next e => exact ⟨o', h1, s, k, h2⟩
  | oput p =>
    simp only [step]
    split
    · exact Or.inl rfl
    next o ho =>
      split
      · exact Or.inl rfl
      next h0 =>
        right
        have hr := hO.refs p o ho
        obtain ⟨st', h1, h2⟩ := release_inv hS hO ho (o1 := { o with ext := o.ext - 1 }) ⟨rfl, rfl⟩ (l := live st)
          (by simp only; omega) (fun _ _ => rfl) (fun _ h => h)
          (st1 := { st with objs := st.objs.set p { o with ext := o.ext - 1 } }) rfl rfl rfl rfl
        exact ⟨st', by rw [h1], h2⟩
  | addr a v =>
    exact Or.inr ⟨_, rfl, move_inv ⟨hS, hO⟩ rfl rfl rfl (fun _ => rfl) (fun _ h => h)⟩
  | hand s p a ok =>
    simp only [step]
    split
    next k o hk ho =>
      split
      · exact Or.inl rfl
      next h0 =>
        right
        have hr := hO.refs p o ho
        have hke : k.ext ≠ 0 := fun e => h0 (.inl e)
        have hoe : o.ext ≠ 0 := fun e => h0 (.inr (.inl e))
        simp only [hand]
        split
        · obtain ⟨st', h1, h2⟩ := release_inv hS hO ho (o1 := { o with ext := o.ext - 1 }) ⟨rfl, rfl⟩ (l := live st)
            (by simp only; omega) (fun _ _ => rfl) (fun _ h => h)
            (st1 := { st with objs := st.objs.set p { o with ext := o.ext - 1 } }) rfl rfl rfl rfl
          exact ⟨st', by rw [h1], h2⟩
        · refine ⟨_, rfl, ⟨?_, ?_, ?_⟩, ⟨?_, ?_, ?_⟩⟩
          · intro t j hj
            simp only [set_get hk] at hj
            simp only [holds]
            have := tot_set (hold t) st.objs p o { o with ext := o.ext - 1, held := o.held ++ [s] } ho
            simp only [hold] at this
            rw [if_neg (by omega), if_neg (by omega), List.count_append] at this
            split at hj
            next e =>
              subst e; cases hj
              have h5 := hS.refs t k hk
              simp only [holds] at h5
              simp only [List.count_singleton_self] at this
              have e1 : (hold t) = fun o => if o.refs = 0 then 0 else o.held.count t := rfl
              simp only [e1] at *
              omega
            next e =>
              have h5 := hS.refs t j hj
              simp only [holds] at h5
              have h6 : List.count t [s] = 0 := by simp [Ne.symm e]
              rw [h6] at this
              have e1 : (hold t) = fun o => if o.refs = 0 then 0 else o.held.count t := rfl
              simp only [e1] at *
              omega
          · intro t j hj
            simp only [set_get hk] at hj
            split at hj
            next e => subst e; cases hj; exact hS.pin t k hk
            next e => exact hS.pin t j hj
          · intro fd t
            simp only [set_get hk]
            rw [hS.fdt]
            have hr' := hS.refs s k hk
            constructor
            · rintro ⟨j, hj, hj0, hjf⟩
              split
              next e => subst e; rw [hk] at hj; cases hj; exact ⟨_, rfl, by simp, hjf⟩
              next e => exact ⟨j, hj, hj0, hjf⟩
            · rintro ⟨j, hj, hj0, hjf⟩
              split at hj
              next e => subst e; cases hj; exact ⟨k, hk, by omega, hjf⟩
              next e => exact ⟨j, hj, hj0, hjf⟩
          · intro q o' hq
            simp only [set_get ho] at hq
            simp only [live, items_append, items, cnt_append, cnt_cons]
            have hl := cnt_live q st
            split at hq
            next e =>
              subst e; cases hq
              have hn : cnt q [] = 0 := rfl
              simp only [if_pos]; omega
            next e =>
              rw [if_neg (Ne.symm e)]
              have := hO.refs q o' hq
              have hn : cnt q [] = 0 := rfl
              omega
          · intro q o' hq t ht
            simp only [set_get ho] at hq
            simp only [List.length_set]
            split at hq
            next e =>
              subst e; cases hq
              simp only [List.mem_append, List.mem_singleton] at ht
              rcases ht with ht | rfl
              · exact hO.held q o ho t ht
              · exact get_lt hk
            next e => exact hO.held q o' hq t ht
          · intro i hi
            have hi' : i ∈ live st ∨ i = ⟨p, k.fd, st.addrs a, nsend st.dmode o.data.length⟩ := by
              simp only [live, items_append, items, List.mem_append, List.mem_singleton] at hi ⊢
              grind
            simp only [set_get ho, set_get hk]
            rcases hi' with hi | rfl
            · obtain ⟨o', h1, t, j, h2, h3, h4⟩ := hO.item i hi
              refine ⟨if i.obj = p then { o with ext := o.ext - 1, held := o.held ++ [s] } else o', ?_, t,
                if t = s then { k with refs := k.refs + 1 } else j, ?_, ?_, ?_⟩
              · split
                · rfl
                · exact h1
              · split
                · rfl
                · exact h2
              · split
                next e => subst e; rw [hk] at h2; cases h2; exact h3
                · exact h3
              · have hp : (if t = s then { k with refs := k.refs + 1 } else j).pinned = j.pinned := by
                  split
                  next e => subst e; rw [hk] at h2; cases h2; rfl
                  · rfl
                rw [hp]
                refine h4.imp_left ?_
                intro hm
                split
                next e => rw [e, ho] at h1; cases h1; exact List.mem_append_left _ hm
                · exact hm
            · exact ⟨_, by rw [if_pos rfl], s, { k with refs := k.refs + 1 }, by rw [if_pos rfl], rfl, .inl (by simp)⟩
    · exact Or.inl rfl
  | reply s p v ok =>
    simp only [step]
    split
    next k o hk ho =>
      split
      · exact Or.inl rfl
      next h0 =>
        right
        have hr := hO.refs p o ho
        have hoe : o.ext ≠ 0 := fun e => h0 (.inr (.inr (.inl e)))
        have hkp : k.pinned = true := by
          cases h : k.pinned with
          | true => rfl
          | false => exact absurd (.inr (.inl h)) h0
        simp only [reply]
        split
        · obtain ⟨st', h1, h2⟩ := release_inv hS hO ho (o1 := { o with ext := o.ext - 1 }) ⟨rfl, rfl⟩ (l := live st)
            (by simp only; omega) (fun _ _ => rfl) (fun _ h => h)
            (st1 := { st with objs := st.objs.set p { o with ext := o.ext - 1 } }) rfl rfl rfl rfl
          exact ⟨st', by rw [h1], h2⟩
        · refine ⟨_, rfl, ⟨?_, hS.pin, hS.fdt⟩, ⟨?_, ?_, ?_⟩⟩
          · intro t j hj
            simp only [holds]
            rw [holds_set ho (fun s => by simp only [hold])]
            exact hS.refs t j hj
          · intro q o' hq
            simp only [set_get ho] at hq
            simp only [live, items_append, items, cnt_append, cnt_cons]
            have hl := cnt_live q st
            split at hq
            next e =>
              subst e; cases hq
              have hn : cnt q [] = 0 := rfl
              simp only [if_pos]; omega
            next e =>
              rw [if_neg (Ne.symm e)]
              have := hO.refs q o' hq
              have hn : cnt q [] = 0 := rfl
              omega
          · intro q o' hq t ht
            simp only [set_get ho] at hq
            split at hq
            next e => subst e; cases hq; exact hO.held q o ho t ht
            next e => exact hO.held q o' hq t ht
          · intro i hi
            have hi' : i ∈ live st ∨ i = ⟨p, k.fd, v, 1⟩ := by
              simp only [live, items_append, items, List.mem_append, List.mem_singleton] at hi ⊢
              grind
            simp only [set_get ho]
            rcases hi' with hi | rfl
            · obtain ⟨o', h1, t, j, h2⟩ := hO.item i hi
              split
              next e => rw [e, ho] at h1; cases h1; exact ⟨_, rfl, t, j, h2⟩
              next e => exact ⟨o', h1, t, j, h2⟩
            · exact ⟨_, by rw [if_pos rfl], s, k, hk, rfl, .inr hkp⟩
    · exact Or.inl rfl
  | stop =>
    simp only [step]
    split
    · exact Or.inl rfl
    · refine Or.inr ⟨_, rfl, move_inv ⟨hS, hO⟩ rfl rfl rfl ?_ ?_⟩ <;>
        simp [live, items_append, items]
  | take =>
    simp only [step]
    split
    · exact Or.inl rfl
    next h0 =>
      have hb : st.batch = [] := Classical.byContradiction fun h => h0 (.inr (.inl h))
      have : live { st with batch := st.queue.take batchLen, queue := st.queue.drop batchLen } = live st := by
        simp only [live, hb, items, List.append_assoc]
        congr 1
        simp only [List.nil_append]
        rw [← List.append_assoc, ← items_append, List.take_append_drop]
      exact Or.inr ⟨_, rfl, move_inv ⟨hS, hO⟩ rfl rfl rfl (by rw [this]; simp) (by rw [this]; simp)⟩
  | go r =>
    simp only [step]
    split
    · exact Or.inl rfl
    · simp only [go]
      split
      next c hc =>
        right
        split
        next hov =>
          obtain ⟨st', h1, h2⟩ := drop_inv (st1 := { st with cur := none }) ⟨hS, hO⟩ (cur_live hc)
            (by
              intro q
              simp only [live, hc, curItems, cnt_append, cnt_cons]
              have : cnt q [] = 0 := rfl
              omega)
            (by intro j hj; simp only [live, hc, curItems, List.mem_append] at hj ⊢; grind) rfl rfl rfl
          exact ⟨st', by rw [h1], h2⟩
        next hov =>
          obtain ⟨o, ho, hr⟩ := live_obj ⟨hS, hO⟩ (cur_live hc)
          simp only [sendto, ho]
          rw [if_neg (by omega)]
          refine ⟨_, rfl, move_inv ⟨hS, hO⟩ rfl rfl rfl ?_ ?_⟩
          all_goals
            have : ∀ r, (after c r).it = c.it := by
              intro r; cases r <;> simp only [after]
              split <;> rfl
            simp [live, hc, curItems, this]
      · split
        · exact Or.inl rfl
        next hc _ b hb =>
          refine Or.inr ⟨_, rfl, move_inv ⟨hS, hO⟩ rfl rfl rfl ?_ ?_⟩
          · intro p
            simp only [live, hb, hc, curItems, items, cnt_append]
            have : cnt p [] = 0 := rfl
            omega
          · intro j hj
            simp only [live, hb, hc, curItems, items, List.mem_append] at hj ⊢
            grind
        next hc _ i b hb =>
          refine Or.inr ⟨_, rfl, move_inv ⟨hS, hO⟩ rfl rfl rfl ?_ ?_⟩
          all_goals simp [live, hb, hc, curItems, items]
  | destroy =>
    simp only [step]
    split
    · exact Or.inl rfl
    · right
      simp only [destroy]
      split
      · exact ⟨_, rfl, move_inv ⟨hS, hO⟩ rfl rfl rfl (fun _ => rfl) (fun _ h => h)⟩
      next i q hq =>
        obtain ⟨st', h1, h2⟩ := drop_inv (st1 := { st with queue := q }) (i := i) ⟨hS, hO⟩
          (by simp [live, hq, items])
          (by
            intro p
            simp only [live, hq, items, cnt_append, cnt_cons]
            omega)
          (by intro j hj; simp only [live, hq, items, List.mem_append, List.mem_cons] at hj ⊢; grind) rfl rfl rfl
        exact ⟨st', by rw [h1], h2⟩
      next q hq =>
        refine ⟨_, rfl, move_inv ⟨hS, hO⟩ rfl rfl rfl ?_ ?_⟩ <;> simp [live, hq, items]

end Verif.Netio
