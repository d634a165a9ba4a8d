import Verif.Netio.Order

/-!
# C71: what is handed over for sending is sent from that socket, in order, and released once
-/

namespace Verif.Netio

theorem run_from {d : Bool} {es : List Ev} {st : St} {h : Hist} (hR : InvR st) (ho : Ord d st h) :
    (∀ f, run st es ≠ some (.error f)) ∧ ∀ st', run st es = some (.ok st') →
      InvR st' ∧ Ord d st' (es.foldl (Hist.step d) h) := by
  induction es generalizing st h with
  | nil =>
    refine ⟨nofun, ?_⟩
    intro st' hs
    cases hs
    exact ⟨hR, ho⟩
  | cons e es ih =>
    simp only [run]
    rcases step_inv hR e with hn | ⟨st1, h3, h4⟩
    · rw [hn]; exact ⟨nofun, nofun⟩
    · rw [h3]
      simp only
      exact ih h4 (step_ord hR ho h3)

theorem run_inv {d : Bool} {es : List Ev} {st : St} (h : run (init d) es = some (.ok st)) :
    InvR st ∧ Ord d st (hist d es) :=
  (run_from (init_inv d) (init_ord d)).2 st h

/-- No packet and no socket is used or released after it is gone, whatever happens in whatever order. -/
theorem C71_no_fault (d : Bool) (es : List Ev) (f : Fault) : run (init d) es ≠ some (.error f) :=
  (run_from (init_inv d) (init_ord d)).1 f

/-- The calls of `sendto` are those due to the messages handed over, in that order: each is made on
the socket of the message (not on another one that got its number), with its contents, to the address
at the time of the hand-over, until all copies are accepted, or the fourth temporary error or another
error is met; and only the last message may not be done with. -/
theorem C71_in_order {d : Bool} {es : List Ev} {st : St} (h : run (init d) es = some (.ok st)) :
    ∃ dn tl, (hist d es).msgs = dn ++ tl ∧
      (Sent dn st.log ∨
       ∃ m tl' l rs, tl = m :: tl' ∧ Sent dn l ∧ Going m.copies rs ∧ st.log = l ++ attempts m rs) := by
  have ho := (run_inv h).2
  cases hout : st.out with
  | true =>
    obtain ⟨_, dn, tl, h1, h2, _⟩ := ho.fin hout
    exact ⟨dn, tl, h1, .inl h2⟩
  | false =>
    obtain ⟨dn, pd, L, h1, h2, h3, h4, _⟩ := ho.run hout
    cases hc : st.cur with
    | none =>
      rw [hc] at h4
      have : st.log = L := h4
      exact ⟨dn, pd, h1, .inl (this ▸ h3)⟩
    | some c =>
      rw [hc] at h4
      cases pd with
      | nil => exact h4.elim
      | cons m pd =>
        obtain ⟨rs, h5, ⟨_, h6⟩ | ⟨_, h6, _⟩⟩ := h4
        · exact ⟨dn ++ [m], pd, by rw [h1]; simp, .inl (h5 ▸ .snoc h3 h6)⟩
        · exact ⟨dn, m :: pd, h1, .inr ⟨m, pd, L, rs, rfl, h3, h6, h5⟩⟩

/-- When the thread has nothing to do, everything handed over has been dealt with. -/
theorem C71_idle_all_sent {d : Bool} {es : List Ev} {st : St} (h : run (init d) es = some (.ok st))
    (hi : Idle st) (ho : st.out = false) : Sent (hist d es).msgs st.log := by
  obtain ⟨dn, pd, L, h1, h2, h3, h4, _⟩ := (run_inv h).2.run ho
  obtain ⟨hc, hb, hq⟩ := hi
  have hq : st.queue = [] := hq.resolve_left (by rw [ho]; nofun)
  rw [hc] at h4
  have h5 : st.log = L := h4
  have := h2.len
  simp only [pend, hc, hb, hq, curItems, items] at this
  have : pd = [] := List.eq_nil_of_length_eq_zero (by simpa using this)
  rw [h1, this, List.append_nil, h5]
  exact h3

/-- When the thread has ended, the messages handed over before the order to stop have been dealt with,
and no others. -/
theorem C71_stop {d : Bool} {es : List Ev} {st : St} (h : run (init d) es = some (.ok st)) (ho : st.out = true) :
    ∃ n, (hist d es).stop = some n ∧ n ≤ (hist d es).msgs.length ∧ Sent ((hist d es).msgs.take n) st.log := by
  obtain ⟨_, dn, tl, h1, h2, h3⟩ := (run_inv h).2.fin ho
  refine ⟨dn.length, h3, by rw [h1]; simp, ?_⟩
  rw [h1, List.take_left]
  exact h2

/-- Once it has been ordered to stop and has nothing left to do, the thread has ended. -/
theorem C71_ends {d : Bool} {es : List Ev} {st : St} (h : run (init d) es = some (.ok st)) (hi : Idle st)
    (hs : (hist d es).stop ≠ none) : st.out = true := by
  refine Classical.byContradiction fun hn => ?_
  have ho : st.out = false := by simpa using hn
  obtain ⟨dn, pd, L, h1, h2, h3, h4, h5⟩ := (run_inv h).2.run ho
  obtain ⟨hc, hb, hq⟩ := hi
  have hq : st.queue = [] := hq.resolve_left (by rw [ho]; nofun)
  simp only [TermOk, hb, hq] at h5
  split at h5
  · obtain ⟨l1, l2, g1, _⟩ := h5
    simp at g1
  · exact hs h5.1

/-- A packet is kept as long as somebody has a reference to it or an item for it has not been dealt
with, and no longer: the references of items are given back exactly once. -/
theorem C71_packet_kept {d : Bool} {es : List Ev} {st : St} (h : run (init d) es = some (.ok st)) {p : Nat} {o : Obj}
    (hp : st.objs[p]? = some o) : o.refs = o.ext + ((pending st ++ st.lost).map (·.obj)).count p := by
  have := (run_inv h).1.2.refs p o hp
  rw [this]
  have e : live st = pending st ++ st.lost := by
    simp only [live, pending]; cases st.cur <;> rfl
  rw [cnt, e]

/-- A socket is open as long as somebody has a reference to it or a packet to be sent from it has not
been released, and no longer; its number then is not another one's. -/
theorem C71_socket_kept {d : Bool} {es : List Ev} {st : St} (h : run (init d) es = some (.ok st)) {s : Nat} {k : Sock}
    (hs : st.socks[s]? = some k) :
    (st.fdt k.fd = some s ↔ 0 < k.ext ∨ ∃ (p : Nat) (o : Obj), st.objs[p]? = some o ∧ 0 < o.refs ∧ s ∈ o.held) := by
  have hS := (run_inv h).1.1
  have hr := hS.refs s k hs
  constructor
  · intro hf
    obtain ⟨k', h1, h2, _⟩ := (hS.fdt _ _).mp hf
    rw [hs] at h1; cases h1
    by_cases he : 0 < k.ext
    · exact .inl he
    · right
      have h3 : holds st s ≠ 0 := by omega
      refine Classical.byContradiction fun hn => h3 ?_
      refine Verif.Util.tot_zero _ _ ?_
      intro o ho
      obtain ⟨p, hp⟩ := List.getElem?_of_mem ho
      simp only [hold]
      split
      · rfl
      · exact List.count_eq_zero.mpr fun hm => hn ⟨p, o, hp, by omega, hm⟩
  · intro hh
    refine (hS.fdt _ _).mpr ⟨k, hs, ?_, rfl⟩
    rcases hh with hh | ⟨p, o, h1, h2, h3⟩
    · omega
    · have h4 := Verif.Util.tot_ge (hold s) st.objs p o h1
      have h5 : 0 < hold s o := by
        simp only [hold]
        rw [if_neg (by omega)]
        exact List.count_pos_iff.mpr h3
      simp only [holds] at hr; omega

/-! ### The thread gets on -/

def wB : Work → Nat
  | .pkt i => i.nsend + 6
  | .term => 1

def wC : Option Cur → Nat
  | none => 0
  | some c => if c.over = true then 1 else 2 + c.ncopies + (3 - c.nretry)

def sumB (l : List Work) : Nat := (l.map wB).sum
def sumQ (l : List Work) : Nat := (l.map fun w => wB w + 1).sum

def left (st : St) : Nat := wC st.cur + sumB st.batch + sumQ st.queue

theorem sumB_append (l m : List Work) : sumB (l ++ m) = sumB l + sumB m := by simp [sumB]
theorem sumQ_append (l m : List Work) : sumQ (l ++ m) = sumQ l + sumQ m := by simp [sumQ]

theorem sumQ_eq (l : List Work) : sumQ l = sumB l + l.length := by
  induction l with
  | nil => rfl
  | cons w l ih => simp only [sumQ, sumB, List.map_cons, List.sum_cons, List.length_cons] at *; omega

theorem left_fix {a b : St} (h : Fix a b) : left b = left a := by
  simp only [left, h.cur, h.batch, h.queue]

theorem wC_le (c : Cur) : wC (some c) ≤ 2 + c.ncopies + (3 - c.nretry) := by
  simp only [wC]
  split <;> omega

theorem wC_after {c : Cur} {r : Res} (ho : c.over = false) (h0 : 0 < c.ncopies) :
    wC (some (after c r)) < wC (some c) := by
  have e1 : wC (some c) = 2 + c.ncopies + (3 - c.nretry) := by simp [wC, ho]
  rw [e1]
  cases r with
  | ok =>
    refine Nat.lt_of_le_of_lt (wC_le _) ?_
    simp only [after]; omega
  | hard => simp only [wC, after, if_true]; omega
  | soft =>
    simp only [after]
    split
    next h =>
      have h' : c.nretry < 3 := h
      refine Nat.lt_of_le_of_lt (wC_le _) ?_
      simp only; omega
    next h => simp only [wC, if_true]; omega

theorem thread_step {d : Bool} {st st' : St} {h : Hist} {e : Ev} (ho : Ord d st h) (he : e.thread = true)
    (hs : step st e = some (.ok st')) : left st' < left st := by
  cases e <;> simp only [Ev.thread, Bool.false_eq_true] at he
  case take =>
    simp only [step] at hs
    split at hs
    · cases hs
    next h0 =>
      have hb : st.batch = [] := Classical.byContradiction fun hh => h0 (.inr (.inl hh))
      have hq : st.queue ≠ [] := fun hh => h0 (.inr (.inr (.inr hh)))
      cases hs
      simp only [left, hb]
      have h1 := sumQ_append (st.queue.take batchLen) (st.queue.drop batchLen)
      rw [List.take_append_drop] at h1
      have h2 := sumQ_eq (st.queue.take batchLen)
      have h3 : 0 < (st.queue.take batchLen).length := by
        have : 0 < st.queue.length := List.length_pos_iff.mpr hq
        simp only [List.length_take, batchLen]; omega
      have h4 : sumB [] = 0 := rfl
      omega
  case go r =>
    simp only [step] at hs
    split at hs
    · cases hs
    next hout =>
      have hout : st.out = false := by simpa using hout
      obtain ⟨dn, pd, L, h1, h2, h3, h4, h5⟩ := ho.run hout
      simp only [go] at hs
      split at hs
      next c hc =>
        split at hs
        next hov =>
          have := left_fix (decObj_fix (Option.some.inj hs))
          rw [this]
          simp only [left, hc, wC, hov, if_true]; omega
        next hov =>
          have hov : c.over = false := by simpa using hov
          rw [hc] at h4
          cases pd with
          | nil => exact h4.elim
          | cons m pd =>
          obtain ⟨rs, hl, ⟨h, _⟩ | ⟨_, hg1, hg2, hg3⟩⟩ := h4
          · rw [hov] at h; cases h
          split at hs
          · cases hs
          next t r' hst =>
            cases hs
            have := wC_after (r := r') hov (by have := hg1.1; omega)
            simp only [left, hc]; omega
      next hc =>
        split at hs
        · cases hs
        next b hb =>
          cases hs
          simp only [left, hb, hc, sumB, wB, List.map_cons, List.sum_cons, List.map_nil, List.sum_nil]
          omega
        next i b hb =>
          cases hs
          simp only [left, hb, hc, sumB, wB, List.map_cons, List.sum_cons, wC, Bool.false_eq_true, if_false]
          omega

theorem sumB_items (l : List Work) (h : ∀ i ∈ items l, i.nsend ≤ 2) : sumB l ≤ 8 * (items l).length + (l.length - (items l).length) ∧
    (items l).length ≤ l.length := by
  induction l with
  | nil => simp [sumB, items]
  | cons w l ih =>
    cases w with
    | pkt i =>
      have h1 := h i (by simp [items])
      have h2 := ih (fun j hj => h j (by simp [items, hj]))
      simp only [sumB, items, wB, List.map_cons, List.sum_cons, List.length_cons] at *
      omega
    | term =>
      have h2 := ih h
      simp only [sumB, items, wB, List.map_cons, List.sum_cons, List.length_cons] at *
      omega

theorem items_len {l : List Work} (h : .term ∉ l) : (items l).length = l.length := by
  induction l with
  | nil => rfl
  | cons w l ih =>
    cases w with
    | pkt i => simp only [items, List.length_cons]; rw [ih (fun hh => h (List.mem_cons_of_mem _ hh))]
    | term => exact absurd List.mem_cons_self h

theorem All2.right {α β : Type} {R : α → β → Prop} {P : β → Prop} (h : ∀ a b, R a b → P b) :
    ∀ {l : List α} {m : List β}, All2 R l m → ∀ b ∈ m, P b
  | [], [], _ => by simp
  | _ :: _, _ :: _, ⟨h1, h2⟩ => by
    intro b hb
    rcases List.mem_cons.mp hb with rfl | hb
    · exact h _ _ h1
    · exact h2.right h b hb
  | [], _ :: _, hh => hh.elim
  | _ :: _, [], hh => hh.elim

theorem left_le {d : Bool} {st : St} {h : Hist} (ho : Ord d st h) (hout : st.out = false) :
    left st ≤ 9 * (pending st).length + 2 := by
  obtain ⟨dn, pd, L, h1, h2, h3, h4, h5⟩ := ho.run hout
  have hp : pending st = pend st := by simp only [pending, pend]; cases st.cur <;> rfl
  have hn : ∀ i ∈ pend st, i.nsend ≤ 2 := h2.right (by
    rintro m i ⟨_, _, _, _, _, _, _, _, h7, _, h8⟩; omega)
  have hlen : (st.batch ++ st.queue).length ≤ (items (st.batch ++ st.queue)).length + 1 := by
    simp only [TermOk] at h5
    split at h5
    · obtain ⟨l1, l2, g1, g2, g3, _⟩ := h5
      rw [g1]
      have := items_len g2
      have := items_len g3
      simp only [items_append, items, List.length_append, List.length_cons]; omega
    · rw [items_len h5.2]; omega
  have hb := sumB_items st.batch (fun i hi => hn i (by simp [pend, hi]))
  have hq := sumB_items st.queue (fun i hi => hn i (by simp [pend, hi]))
  have hq2 := sumQ_eq st.queue
  rw [items_append, List.length_append, List.length_append] at hlen
  have hc : wC st.cur ≤ 7 * (curItems st.cur).length := by
    cases hcur : st.cur with
    | none => simp [wC, curItems]
    | some c =>
      rw [hcur] at h4
      cases pd with
      | nil => exact h4.elim
      | cons m pd =>
        obtain ⟨rs, _, h6⟩ := h4
        have hm : m.copies ≤ 2 := by
          simp only [pend, hcur, curItems] at h2
          obtain ⟨_, _, _, _, _, _, _, _, _, _, h8⟩ := h2.1
          exact h8
        simp only [wC, curItems, List.length_cons, List.length_nil]
        rcases h6 with ⟨h7, _⟩ | ⟨h7, _, h8, _⟩
        · rw [if_pos h7]; omega
        · rw [if_neg (by rw [h7]; nofun)]; omega
  rw [hp]
  simp only [left, pend, List.length_append]
  omega

/-- The thread on its own deals with everything in at most nine steps per message, whatever the results
of `sendto`: as long as it has something to do it can do it. -/
theorem C71_progress {d : Bool} {es : List Ev} {st : St} (h : run (init d) es = some (.ok st)) (ho : st.out = false) :
    (¬ Idle st → ∀ r, (∃ st', step st .take = some (.ok st')) ∨ ∃ st', step st (.go r) = some (.ok st')) ∧
    ∀ fs st', (∀ e ∈ fs, e.thread = true) → run st fs = some (.ok st') → fs.length ≤ 9 * (pending st).length + 2 := by
  obtain ⟨hR, hO⟩ := run_inv h
  refine ⟨?_, ?_⟩
  · intro hn r
    cases hc : st.cur with
    | some c =>
      right
      rcases step_inv hR (.go r) with h1 | ⟨st', h1, _⟩
      · exfalso
        simp only [step, ho, go, hc] at h1
        simp only [Bool.false_eq_true, if_false] at h1
        split at h1
        · cases h1
        · split at h1 <;> cases h1
      · exact ⟨st', h1⟩
    | none =>
      cases hb : st.batch with
      | nil =>
        left
        have hq : st.queue ≠ [] := fun hq => hn ⟨hc, hb, .inr hq⟩
        simp [step, ho, hb, hc, hq]
      | cons w b =>
        right
        cases w <;> simp [step, ho, go, hc, hb]
  · intro fs st' hf hr
    refine Nat.le_trans ?_ (left_le hO ho)
    clear h ho
    generalize hist d es = hh at hO
    induction fs generalizing st hh with
    | nil => simp
    | cons e fs ih =>
      simp only [run] at hr
      split at hr
      · cases hr
      · cases hr
      next st1 h1 =>
        have h2 := thread_step hO (hf e List.mem_cons_self) h1
        have hR1 : InvR st1 := by
          rcases step_inv hR e with hn | ⟨st2, h3, h4⟩
          · rw [hn] at h1; cases h1
          · rw [h3] at h1; cases h1; exact h4
        have h3 := ih hR1 (fun x hx => hf x (List.mem_cons_of_mem _ hx)) hr _ (step_ord hR hO h1)
        simp only [List.length_cons]; omega

end Verif.Netio
