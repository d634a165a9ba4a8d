import Verif.Queue.Lemmas

/-!
# C27: the inter-thread queue is a FIFO
-/

namespace Verif.Queue

/-- A queue holds `s`: the ring, then the overflow list. -/
structure Rep (q : Q) (s : Spec.S) : Prop where
  ex : ∃ r o, s.items = r ++ o ∧ Ring q.circb r ∧ Chain q.nxt q.head o ∧ q.tail = o.getLast? ∧ q.length = o.length
  nodup : s.items.Nodup
  max : q.mlen = s.max

theorem Rep.init (cap : Nat) (nxt : Nat → Option Nat) : Rep (init cap nxt) ⟨[], 4294967295⟩ := by
  refine ⟨⟨[], [], rfl, ?_, rfl, rfl, rfl⟩, by simp, rfl⟩
  constructor <;> simp [Queue.init]

theorem Rep.getclen {q : Q} {s : Spec.S} (h : Rep q s) : q.getclen = s.items.length := by
  obtain ⟨r, o, e, hr, -, -, hl⟩ := h.ex
  have h1 := hr.head
  have h2 := hr.tail
  have h3 := hr.room
  rw [e, List.length_append, Q.getclen, hl]
  split at h1 <;> split <;> (try split) <;> omega

theorem append_ok {q : Q} {o : List Nat} {x : Nat} (hc : Chain q.nxt q.head o) (ht : q.tail = o.getLast?)
    (hl : q.length = o.length) (hnd : o.Nodup) (hx : x ∉ o) :
    ∃ q', q.append x = .ok q' ∧ Chain q'.nxt q'.head (o ++ [x]) ∧ q'.tail = (o ++ [x]).getLast? ∧
      q'.length = (o ++ [x]).length ∧ q'.circb = q.circb ∧ q'.mlen = q.mlen := by
  rcases List.eq_nil_or_concat o with rfl | ⟨l, t, rfl⟩
  · have hh : q.head = none := hc
    refine ⟨{ q with nxt := setN q.nxt x none, head := some x, tail := some x, length := q.length + 1 }, ?_, ?_, ?_, ?_, rfl, rfl⟩
    · simp only [Q.append, hh]
    · exact ⟨rfl, setN_same _ _ _⟩
    · rfl
    · simp [hl]
  · rw [List.concat_eq_append] at *
    have hh : ∃ a, q.head = some a := by
      cases l with
      | nil => exact ⟨_, hc.1⟩
      | cons a l => exact ⟨_, hc.1⟩
    obtain ⟨a, hh⟩ := hh
    have htl : q.tail = some t := by rw [ht]; simp
    refine ⟨{ q with nxt := setN (setN q.nxt x none) t (some x), tail := some x, length := q.length + 1 }, ?_, ?_, ?_, ?_, rfl, rfl⟩
    · simp only [Q.append, hh, htl]
    · exact hc.snoc hnd hx
    · simp
    · simp [hl]

theorem put_ok {q : Q} {s : Spec.S} (h : Rep q s) {x : Nat} (hx : x ∉ s.items) :
    ∃ q' b, q.put x = .ok (q', b) ∧ Spec.step s (.put x) = ((Spec.step s (.put x)).1, .put b) ∧
      Rep q' (Spec.step s (.put x)).1 := by
  have hcl := h.getclen
  have hm := h.max
  simp only [Q.put, Spec.step, hcl, hm, unlimited]
  by_cases hfull : s.max ≠ 4294967295 ∧ s.max ≤ s.items.length
  · rw [if_pos hfull, if_pos hfull]
    exact ⟨q, false, rfl, rfl, h⟩
  · rw [if_neg hfull, if_neg hfull]
    obtain ⟨r, o, e, hr, hc, ht, hl⟩ := h.ex
    have hnd := h.nodup
    have hnd' : (s.items ++ [x]).Nodup := by
      rw [List.nodup_append]
      exact ⟨hnd, by simp, by intro a ha b hb; simp at hb; subst hb; rintro rfl; exact hx ha⟩
    rw [e] at hnd hx
    have hno := (List.nodup_append.1 hnd).2.1
    have hxo : x ∉ o := fun hm => hx (List.mem_append_right _ hm)
    obtain ⟨q', a1, a2, a3, a4, a5, a6⟩ := append_ok hc ht hl hno hxo
    by_cases hpos : q.length > 0
    · rw [if_pos hpos, a1]
      exact ⟨q', true, rfl, rfl, ⟨r, o ++ [x], by simp [e], a5 ▸ hr, a2, a3, a4⟩, hnd', by rw [a6, hm]⟩
    · rw [if_neg hpos]
      rcases hr.push x with ⟨_, p⟩ | ⟨_, c', p, hr', _⟩
      · rw [p]
        simp only [a1]
        exact ⟨q', true, rfl, rfl, ⟨r, o ++ [x], by simp [e], a5 ▸ hr, a2, a3, a4⟩, hnd', by rw [a6, hm]⟩
      · rw [p]
        have ho : o = [] := List.length_eq_zero_iff.1 (by omega)
        subst ho
        exact ⟨_, true, rfl, rfl, ⟨r ++ [x], [], by simp [e], hr', hc, ht, hl⟩, hnd', rfl⟩

theorem extract_ok {q : Q} {s : Spec.S} (h : Rep q s) (n : Nat) :
    ∃ q', q.extract n = .ok (q', s.items.take n) ∧ Rep q' { s with items := s.items.drop n } := by
  obtain ⟨r, o, e, hr, hc, ht, hl⟩ := h.ex
  obtain ⟨c', p, hr', -⟩ := hr.popmany n
  have hnd' : (s.items.drop n).Nodup := h.nodup.sublist (List.drop_sublist _ _)
  simp only [Q.extract, p]
  have htk : s.items.take n = r.take n ++ o.take (n - r.length) := by rw [e, List.take_append]
  have hdk : s.items.drop n = r.drop n ++ o.drop (n - r.length) := by rw [e, List.drop_append]
  by_cases hdone : (r.take n).length = n ∨ q.length = 0
  · rw [if_pos hdone]
    have h1 : o.take (n - r.length) = [] ∧ o.drop (n - r.length) = o := by
      rcases hdone with hd | hd
      · rw [List.length_take] at hd
        rw [show n - r.length = 0 by omega]; simp
      · have : o = [] := List.length_eq_zero_iff.1 (by omega)
        subst this; simp
    rw [h1.1] at htk
    rw [h1.2] at hdk
    refine ⟨{ q with circb := c' }, ?_, ⟨r.drop n, o, hdk, ?_, hc, ht, hl⟩, hnd', h.max⟩
    · rw [htk]; simp
    · exact hr'
  · rw [if_neg hdone]
    rw [not_or] at hdone
    have hlen : (r.take n).length = r.length ∧ r.length < n := by
      have := hdone.1
      rw [List.length_take] at this ⊢
      omega
    have hone : o ≠ [] := by rintro rfl; exact hdone.2 hl
    obtain ⟨h', t1, t2⟩ := takeList_ok (n - r.length) (acc := []) hc hone (by omega) ht
    rw [hlen.1, t1]
    simp only [List.nil_append]
    refine ⟨{ q with circb := c', head := h', tail := (o.drop (n - r.length)).getLast?, length := q.length - (o.take (n - r.length)).length }, ?_, ⟨r.drop n, o.drop (n - r.length), hdk, ?_, ?_, ?_, ?_⟩, hnd', h.max⟩
    · rw [htk]
    · exact hr'
    · exact t2
    · rfl
    · simp only [List.length_take, List.length_drop, hl]; omega

theorem getItems_ok {q : Q} {s : Spec.S} (h : Rep q s) (n : Nat) :
    ∃ q', q.getItems n = .ok (q', s.items.take n) ∧ Rep q' { s with items := s.items.drop n } := by
  unfold Q.getItems
  rw [h.getclen]
  by_cases h0 : s.items.length = 0
  · rw [if_pos h0]
    have : s.items = [] := List.length_eq_zero_iff.1 h0
    refine ⟨q, by rw [this]; simp, ?_⟩
    have he : ({ s with items := s.items.drop n } : Spec.S) = s := by rw [this]; simp; cases s; simp_all
    rw [he]; exact h
  · rw [if_neg h0]; exact extract_ok h n

theorem getItem_ok {q : Q} {s : Spec.S} (h : Rep q s) :
    ∃ q', q.getItem = .ok (q', s.items.take 1) ∧ Rep q' { s with items := s.items.drop 1 } := by
  obtain ⟨q', e, h'⟩ := getItems_ok h 1
  unfold Q.getItem
  rw [e]
  match hs : s.items with
  | [] =>
    simp only [List.take_nil]
    rw [hs] at h'
    exact ⟨q', rfl, h'⟩
  | x :: l =>
    simp only [List.take_succ_cons, List.take_zero]
    rw [hs] at h'
    refine ⟨_, rfl, ?_⟩
    have hx : x ∉ l := by have := h.nodup; rw [hs] at this; exact (List.nodup_cons.1 this).1
    obtain ⟨r, o, e1, hr, hc, ht, hl⟩ := h'.ex
    refine ⟨⟨r, o, e1, hr, hc.congr ?_, ht, hl⟩, h'.nodup, h'.max⟩
    intro a ha
    refine setN_other ?_
    rintro rfl
    have hm : a ∈ l := by
      have : l = r ++ o := by simpa using e1
      rw [this]; exact List.mem_append_right _ ha
    exact hx hm

theorem eraseP_at {p : Nat → Bool} : ∀ {l1 : List Nat} {x : Nat} {l2 : List Nat}, (∀ y ∈ l1, p y = false) → p x = true →
    (l1 ++ x :: l2).eraseP p = l1 ++ l2 ∧ (l1 ++ x :: l2).find? p = some x
  | [], x, l2, _, hp => by simp [hp]
  | a :: l1, x, l2, h, hp => by
    have ha := h a (by simp)
    obtain ⟨i1, i2⟩ := eraseP_at (l1 := l1) (l2 := l2) (fun y hy => h y (by simp [hy])) hp
    simp [ha, i1, i2]

theorem matching_ok {q : Q} {s : Spec.S} (h : Rep q s) (p : Nat → Bool) :
    ∃ q', q.getFirstMatching p = .ok (q', s.items.find? p) ∧ Rep q' { s with items := s.items.eraseP p } := by
  obtain ⟨r, o, e, hr, hc, ht, hl⟩ := h.ex
  have hnd' : (s.items.eraseP p).Nodup := h.nodup.sublist List.eraseP_sublist
  unfold Q.getFirstMatching
  rcases findRing_ok (p := p) hr (q.circb.buflen + 1) 0 (by omega) (by have := hr.room; omega) with
    ⟨g1, g2⟩ | ⟨j, x, g1, -, g2, g3, g4⟩
  · rw [g1]
    simp only [List.drop_zero] at g2
    rcases findList_ok (p := p) (prev := none) (q.length + 1) hc (by omega) with ⟨k1, k2⟩ | ⟨l1, x, l2, k0, k1, k2, k3⟩
    · rw [k1]
      have hall : ∀ y ∈ s.items, p y = false := by
        intro y hy
        rw [e] at hy
        rcases List.mem_append.1 hy with hy | hy
        · exact g2 y hy
        · exact k2 y hy
      have hf : s.items.find? p = none := List.find?_eq_none.2 (fun y hy => by simp [hall y hy])
      have he : s.items.eraseP p = s.items := List.eraseP_of_forall_not (fun y hy => by simp [hall y hy])
      exact ⟨q, by rw [hf], by rw [he]; exact h⟩
    · rw [k3]
      have hsp : s.items = (r ++ l1) ++ x :: l2 := by rw [e, k0]; simp
      obtain ⟨f1, f2⟩ := eraseP_at (l1 := r ++ l1) (l2 := l2) (p := p) (x := x) (by
        intro y hy
        rcases List.mem_append.1 hy with hy | hy
        · exact g2 y hy
        · exact k1 y hy) k2
      have hnd0 : (l1 ++ x :: l2).Nodup := by
        have := h.nodup
        rw [e, k0] at this
        exact (List.nodup_append.1 this).2.1
      have key : ∃ q', q.removeAfter (if l1 = [] then none else l1.getLast?) = .ok q' ∧ Chain q'.nxt q'.head (l1 ++ l2) ∧
          q'.tail = (l1 ++ l2).getLast? ∧ q'.length = (l1 ++ l2).length ∧ q'.circb = q.circb ∧ q'.mlen = q.mlen := by
        rw [k0] at hc ht hl
        rcases List.eq_nil_or_concat l1 with rfl | ⟨m, pv, rfl⟩
        · simp only [List.nil_append] at hc ht hl hnd0
          obtain ⟨c1, c2⟩ := hc
          refine ⟨{ q with tail := if q.tail = q.head then none else q.tail, head := q.nxt x, length := q.length - 1,
                           nxt := setN q.nxt x none }, ?_, ?_, ?_, ?_, rfl, rfl⟩
          · simp only [if_true, Q.removeAfter, c1, Q.removeHead]
          · simp only [List.nil_append]
            refine c2.congr ?_
            intro a ha
            exact setN_other (by rintro rfl; exact (List.nodup_cons.1 hnd0).1 ha)
          · simp only [List.nil_append, ht, c1]
            cases l2 with
            | nil => simp
            | cons b l2 =>
              rw [if_neg, List.getLast?_cons_cons]
              intro hq
              have : x ∈ b :: l2 := by
                have hm := List.mem_of_getLast? (a := x) (l := b :: l2) (by rw [List.getLast?_cons_cons] at hq; exact hq)
                exact hm
              exact (List.nodup_cons.1 hnd0).1 this
          · simp [hl]
        · rw [List.concat_eq_append] at *
          have hc' : Chain q.nxt q.head (m ++ pv :: x :: l2) := by simpa using hc
          have hnd1 : (m ++ pv :: x :: l2).Nodup := by simpa using hnd0
          obtain ⟨d1, d2, d3⟩ := hc'.removeMid hnd1
          rw [if_neg (by simp), show (m ++ [pv]).getLast? = some pv by simp]
          cases l2 with
          | nil =>
            refine ⟨{ q with nxt := setN (setN q.nxt pv none) x none, tail := some pv, length := q.length - 1 }, ?_, ?_, ?_, ?_, rfl, rfl⟩
            · simp only [Q.removeAfter, d1]
              rw [if_pos (by rw [ht]; simp)]
            · rw [d3 rfl] at d2
              simpa using d2
            · simp
            · simp [hl]
          | cons b l2 =>
            refine ⟨{ q with nxt := setN (setN q.nxt pv (q.nxt x)) x none, length := q.length - 1 }, ?_, ?_, ?_, ?_, rfl, rfl⟩
            · simp only [Q.removeAfter, d1]
              rw [if_neg]
              rw [ht]
              intro hq
              rw [List.getLast?_append_cons, List.getLast?_cons_cons] at hq
              have hm := List.mem_of_getLast? hq
              have := (List.nodup_append.1 hnd0).2.1
              exact (List.nodup_cons.1 this).1 hm
            · simpa using d2
            · simp only []
              rw [ht, List.getLast?_append_cons, List.getLast?_append_cons, List.getLast?_cons_cons]
            · simp [hl]
      obtain ⟨q', a1, a2, a3, a4, a5, a6⟩ := key
      simp only [a1]
      refine ⟨q', by rw [hsp, f2], ⟨r, l1 ++ l2, ?_, a5 ▸ hr, a2, a3, a4⟩, hnd', by rw [a6]; exact h.max⟩
      simp only []
      rw [hsp, f1]; simp
  · rw [g1]
    have hj : j < r.length := by
      by_contra hj
      rw [List.getElem?_eq_none (by omega)] at g2
      cases g2
    obtain ⟨c', e1, hr', -⟩ := hr.remove j hj
    simp only [e1]
    have hx : r[j] = x := by rw [List.getElem?_eq_getElem hj, Option.some.injEq] at g2; exact g2
    have hrs : r = r.take j ++ x :: r.drop (j + 1) := by
      rw [← hx, ← List.drop_eq_getElem_cons hj, List.take_append_drop]
    have hsp : s.items = r.take j ++ x :: (r.drop (j + 1) ++ o) := by
      rw [e]
      conv => lhs; rw [hrs]
      simp
    obtain ⟨f1, f2⟩ := eraseP_at (l1 := r.take j) (l2 := r.drop (j + 1) ++ o) (p := p) (x := x) (by
      intro y hy
      obtain ⟨k, hk, he⟩ := List.getElem_of_mem hy
      rw [List.length_take] at hk
      rw [List.getElem_take] at he
      exact g4 k y (Nat.zero_le _) (by omega) (by rw [List.getElem?_eq_getElem (by omega), he])) g3
    refine ⟨{ q with circb := c' }, ?_, ⟨r.eraseIdx j, o, ?_, ?_, hc, ht, hl⟩, hnd', h.max⟩
    · rw [hsp, f2]
    · simp only []
      rw [hsp, f1, List.eraseIdx_eq_take_drop_succ]; simp
    · exact hr'

theorem step_ok {q : Q} {s : Spec.S} (h : Rep q s) (op : Op) (hx : ∀ x, op = .put x → x ∉ s.items) :
    ∃ q', step q op = .ok (q', (Spec.step s op).2) ∧ Rep q' (Spec.step s op).1 := by
  cases op with
  | put x =>
    obtain ⟨q', b, e1, e2, e3⟩ := put_ok h (hx x rfl)
    refine ⟨q', ?_, e3⟩
    simp only [step, e1]
    rw [e2]
  | get =>
    obtain ⟨q', e1, e2⟩ := getItem_ok h
    exact ⟨q', by simp only [step, e1, Spec.step], e2⟩
  | getMany n =>
    obtain ⟨q', e1, e2⟩ := getItems_ok h n
    exact ⟨q', by simp only [step, e1, Spec.step], e2⟩
  | getMatching p =>
    obtain ⟨q', e1, e2⟩ := matching_ok h p
    exact ⟨q', by simp only [step, e1, Spec.step], e2⟩
  | setMax m => exact ⟨_, rfl, h.ex, h.nodup, rfl⟩
  | length => exact ⟨q, by simp only [step, Spec.step, h.getclen], h⟩

theorem run_ok : ∀ (ops : List Op) {q : Q} {s : Spec.S}, Rep q s → Spec.Owned s ops →
    ∃ q', run q ops = .ok (q', (Spec.run s ops).2) ∧ Rep q' (Spec.run s ops).1
  | [], q, _, h, _ => ⟨q, rfl, h⟩
  | op :: ops, q, s, h, ho => by
    obtain ⟨q1, e1, h1⟩ := step_ok h op ho.1
    obtain ⟨q2, e2, h2⟩ := run_ok ops h1 ho.2
    exact ⟨q2, by simp only [run, e1, e2, Spec.run], h2⟩

/-- Whatever the size of the ring and whatever the sequence of puts, gets, bulk gets, selective gets, limit changes
and length queries, the queue never faults (no access outside the ring, no assertion failure, no NULL
dereference) and answers exactly as a plain list would — provided nobody puts an item that is still queued. -/
theorem C27_queue_is_fifo (capacity : Nat) (nxt : Nat → Option Nat) (ops : List Op)
    (ho : Spec.Owned ⟨[], 4294967295⟩ ops) :
    ∃ q', run (init capacity nxt) ops = .ok (q', (Spec.run ⟨[], 4294967295⟩ ops).2) ∧
      q'.getclen = (Spec.run ⟨[], 4294967295⟩ ops).1.items.length := by
  obtain ⟨q', e, h⟩ := run_ok ops (Rep.init capacity nxt) ho
  exact ⟨q', e, h.getclen⟩

/-- Ring of two: items overflow to the list, one is plucked out of the ring, another out of the list. -/
example : ∃ q', run (init 2 (fun _ => none)) [.put 1, .put 2, .put 3, .put 4, .put 5, .getMatching (· == 2), .put 6,
    .getMatching (· == 4), .length, .getMany 2, .get, .getMany 9] =
    .ok (q', [.put true, .put true, .put true, .put true, .put true, .items [2], .put true, .items [4], .len 4,
      .items [1, 3], .items [5], .items [6]]) := ⟨_, rfl⟩

theorem spec_conserved : ∀ (ops : List Op) (s : Spec.S),
    (Spec.taken (Spec.run s ops).2 ++ (Spec.run s ops).1.items).Perm
      (s.items ++ Spec.accepted ops (Spec.run s ops).2)
  | [], s => by simp [Spec.run, Spec.taken, Spec.accepted]
  | op :: ops, s => by
    have ih := spec_conserved ops (Spec.step s op).1
    simp only [Spec.run]
    cases op with
    | put x =>
      simp only [Spec.step] at ih ⊢
      by_cases hf : s.max ≠ 4294967295 ∧ s.max ≤ s.items.length
      · rw [if_pos hf] at ih ⊢
        simpa [Spec.taken, Spec.accepted] using ih
      · rw [if_neg hf] at ih ⊢
        simpa [Spec.taken, Spec.accepted] using ih
    | get =>
      simp only [Spec.step, Spec.taken, Spec.accepted] at ih ⊢
      have := (List.Perm.append_left (s.items.take 1) ih)
      rw [← List.append_assoc, ← List.append_assoc, List.take_append_drop] at this
      exact this
    | getMany n =>
      simp only [Spec.step, Spec.taken, Spec.accepted] at ih ⊢
      have := (List.Perm.append_left (s.items.take n) ih)
      rw [← List.append_assoc, ← List.append_assoc, List.take_append_drop] at this
      exact this
    | getMatching p =>
      simp only [Spec.step, Spec.taken, Spec.accepted] at ih ⊢
      have := (List.Perm.append_left (s.items.find? p).toList ih)
      rw [← List.append_assoc, ← List.append_assoc] at this
      refine this.trans (List.Perm.append_right _ ?_)
      have key : ∀ l : List Nat, ((l.find? p).toList ++ l.eraseP p).Perm l := by
        intro l
        induction l with
        | nil => simp
        | cons a l ih =>
          by_cases ha : p a = true
          · simp [ha]
          · simp only [Bool.not_eq_true] at ha
            simp only [List.find?_cons, ha, List.eraseP_cons]
            simp only [cond_false]
            cases hf : l.find? p with
            | none => rw [hf] at ih; simpa using ih
            | some b =>
              rw [hf] at ih
              simp only [Option.toList_some, List.cons_append, List.nil_append] at ih ⊢
              exact (List.Perm.swap a b _).trans (ih.cons a)
      exact key s.items
    | setMax m => simpa [Spec.step, Spec.taken, Spec.accepted] using ih
    | length => simpa [Spec.step, Spec.taken, Spec.accepted] using ih

theorem spec_order : ∀ (ops : List Op) (s : Spec.S), (∀ p, Op.getMatching p ∉ ops) →
    Spec.taken (Spec.run s ops).2 ++ (Spec.run s ops).1.items = s.items ++ Spec.accepted ops (Spec.run s ops).2
  | [], s, _ => by simp [Spec.run, Spec.taken, Spec.accepted]
  | op :: ops, s, hno => by
    have ih := spec_order ops (Spec.step s op).1 (fun p hp => hno p (by simp [hp]))
    simp only [Spec.run]
    cases op with
    | put x =>
      simp only [Spec.step] at ih ⊢
      by_cases hf : s.max ≠ 4294967295 ∧ s.max ≤ s.items.length
      · rw [if_pos hf] at ih ⊢
        simpa [Spec.taken, Spec.accepted] using ih
      · rw [if_neg hf] at ih ⊢
        simpa [Spec.taken, Spec.accepted] using ih
    | get =>
      simp only [Spec.step, Spec.taken, Spec.accepted] at ih ⊢
      rw [List.append_assoc, ih, ← List.append_assoc, List.take_append_drop]
    | getMany n =>
      simp only [Spec.step, Spec.taken, Spec.accepted] at ih ⊢
      rw [List.append_assoc, ih, ← List.append_assoc, List.take_append_drop]
    | getMatching p => exact absurd (by simp) (hno p)
    | setMax m => simpa [Spec.step, Spec.taken, Spec.accepted] using ih
    | length => simpa [Spec.step, Spec.taken, Spec.accepted] using ih

/-- Nothing is lost, duplicated or invented: what was handed out plus what is left is exactly what was accepted. -/
theorem C27_no_loss_no_duplication (capacity : Nat) (nxt : Nat → Option Nat) (ops : List Op)
    (ho : Spec.Owned ⟨[], 4294967295⟩ ops) :
    ∃ q' outs left, run (init capacity nxt) ops = .ok (q', outs) ∧ left.length = q'.getclen ∧
      (Spec.taken outs ++ left).Perm (Spec.accepted ops outs) := by
  obtain ⟨q', e, h⟩ := C27_queue_is_fifo capacity nxt ops ho
  exact ⟨q', _, _, e, h.symm, by simpa using spec_conserved ops ⟨[], 4294967295⟩⟩

/-- Without selective gets, items come out in the order in which they were accepted. -/
theorem C27_order (capacity : Nat) (nxt : Nat → Option Nat) (ops : List Op)
    (ho : Spec.Owned ⟨[], 4294967295⟩ ops) (hno : ∀ p, Op.getMatching p ∉ ops) :
    ∃ q' outs, run (init capacity nxt) ops = .ok (q', outs) ∧
      ∃ left, Spec.taken outs ++ left = Spec.accepted ops outs ∧ left.length = q'.getclen := by
  obtain ⟨q', e, h⟩ := C27_queue_is_fifo capacity nxt ops ho
  exact ⟨q', _, e, _, by simpa using spec_order ops ⟨[], 4294967295⟩ hno, h.symm⟩

example : Spec.Owned ⟨[], 4294967295⟩ [.put 7, .put 8, .get, .put 7, .getMany 5] ∧
    (∀ p, Op.getMatching p ∉ [.put 7, .put 8, .get, .put 7, .getMany 5]) := by
  refine ⟨?_, by simp⟩
  simp [Spec.Owned, Spec.step]

/-- Once a limit is set (and not the all-ones value), the queue never grows beyond it: a put at the limit is
refused, and so the length stays at most the larger of the limit and what was there when it was set. -/
theorem C27_limit (ops : List Op) (q : Q) (s : Spec.S) (m : Nat) (hm : m < 4294967295) (h : Rep q s)
    (ho : Spec.Owned s (.setMax m :: ops)) (hno : ∀ m', Op.setMax m' ∉ ops) :
    ∃ q' outs, run q (.setMax m :: ops) = .ok (q', outs) ∧ q'.getclen ≤ Nat.max m q.getclen := by
  obtain ⟨q', e, h'⟩ := run_ok _ h ho
  refine ⟨q', _, e, ?_⟩
  rw [h'.getclen, h.getclen]
  have key : ∀ (ops : List Op) (s : Spec.S) (b : Nat), s.max = m → m ≤ b → s.items.length ≤ b →
      (∀ m', Op.setMax m' ∉ ops) → (Spec.run s ops).1.items.length ≤ b := by
    intro ops
    induction ops with
    | nil => intro s b _ _ hb _; exact hb
    | cons op ops ih =>
      intro s b hs hmb hb hno
      simp only [Spec.run]
      have hno' : ∀ m', Op.setMax m' ∉ ops := fun m' hm' => hno m' (by simp [hm'])
      cases op with
      | put x =>
        simp only [Spec.step]
        by_cases hf : s.max ≠ 4294967295 ∧ s.max ≤ s.items.length
        · rw [if_pos hf]; exact ih s b hs hmb hb hno'
        · rw [if_neg hf]
          refine ih _ b hs hmb ?_ hno'
          simp only [List.length_append, List.length_singleton]
          have : s.items.length < m := by
            by_contra hc
            exact hf ⟨by omega, by omega⟩
          omega
      | get => exact ih _ b hs hmb (by simp [Spec.step]; omega) hno'
      | getMany n => exact ih _ b hs hmb (by simp [Spec.step]; omega) hno'
      | getMatching p =>
        refine ih _ b hs hmb ?_ hno'
        exact Nat.le_trans (List.length_eraseP_le) hb
      | setMax m' => exact absurd (by simp) (hno m')
      | length => exact ih _ b hs hmb hb hno'
  simp only [Spec.run]
  exact key ops _ _ (by simp [Spec.step]; omega) (Nat.le_max_left _ _) (Nat.le_max_right _ _) hno

example : ∃ q', run (init 1 (fun _ => none)) [.setMax 2, .put 1, .put 2, .put 3, .get, .put 3] =
    .ok (q', [.unit, .put true, .put true, .put false, .items [1], .put true]) := ⟨_, rfl⟩

end Verif.Queue
