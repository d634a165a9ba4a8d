import Verif.Queue.Spec
import Mathlib.Data.List.Perm.Basic
import Mathlib.Data.List.Nodup

/-!
# The ring and the overflow list represent lists
-/

namespace Verif.Queue

/-- The ring holds `r`, oldest first. -/
structure Ring (c : Circ) (r : List Nat) : Prop where
  len : c.buf.length = c.buflen
  tail : c.tail < c.buflen
  room : r.length < c.buflen
  head : c.head = if c.tail + r.length < c.buflen then c.tail + r.length else c.tail + r.length - c.buflen
  get : ∀ i, i < r.length →
    c.buf[if c.tail + i < c.buflen then c.tail + i else c.tail + i - c.buflen]? = r[i]?

theorem Ring.isempty {c : Circ} {r : List Nat} (h : Ring c r) : c.isempty = true ↔ r = [] := by
  have h1 := h.head
  have h2 := h.tail
  have h3 := h.room
  unfold Circ.isempty
  rw [beq_iff_eq, ← List.length_eq_zero_iff]
  split at h1 <;> omega

theorem Ring.clen {c : Circ} {r : List Nat} (h : Ring c r) : c.clen = r.length := by
  have h1 := h.head
  have h2 := h.tail
  have h3 := h.room
  unfold Circ.clen
  split at h1 <;> split <;> omega

theorem Ring.slot {c : Circ} {r : List Nat} (h : Ring c r) {i : Nat} (hi : i < r.length) :
    c.slot i < c.buf.length ∧ c.buf[c.slot i]? = r[i]? := by
  have h1 := h.get i hi
  have h2 := h.tail
  have h3 := h.room
  have h4 := h.len
  unfold Circ.slot
  by_cases hc : c.tail + i < c.buflen
  · rw [if_pos hc] at h1
    rw [if_neg (by omega)]
    exact ⟨by omega, h1⟩
  · rw [if_neg hc] at h1
    rw [if_pos (by omega)]
    exact ⟨by omega, h1⟩

theorem Ring.peek {c : Circ} {r : List Nat} (h : Ring c r) (i : Nat) : c.peek i = .ok r[i]? := by
  unfold Circ.peek
  by_cases he : r = []
  · rw [if_pos (h.isempty.2 he), he]; rfl
  · rw [if_neg (fun hh => he (h.isempty.1 hh)), h.clen]
    by_cases hi : i < r.length
    · rw [if_neg (by omega), (h.slot hi).2, List.getElem?_eq_getElem hi]
    · rw [if_pos (by omega), List.getElem?_eq_none (by omega)]

theorem Ring.push {c : Circ} {r : List Nat} (h : Ring c r) (x : Nat) :
    (r.length + 1 = c.buflen ∧ c.push x = .ok none) ∨
    (r.length + 1 < c.buflen ∧ ∃ c', c.push x = .ok (some c') ∧ Ring c' (r ++ [x]) ∧ c'.buflen = c.buflen) := by
  have h1 := h.head
  have h2 := h.tail
  have h3 := h.room
  have h4 := h.len
  unfold Circ.push
  simp only []
  by_cases hf : r.length + 1 = c.buflen
  · left
    refine ⟨hf, ?_⟩
    rw [if_pos]
    split at h1 <;> split <;> omega
  · right
    refine ⟨by omega, { c with buf := c.buf.set c.head x, head := if c.head + 1 = c.buflen then 0 else c.head + 1 },
      ?_, ?_, rfl⟩
    · rw [if_neg, if_pos]
      · split at h1 <;> omega
      · split at h1 <;> split <;> omega
    · constructor
      · simpa using h4
      · exact h2
      · simp; omega
      · simp only [List.length_append, List.length_singleton]
        split at h1 <;> split <;> split <;> omega
      · intro i hi
        simp only [List.length_append, List.length_singleton] at hi
        by_cases hlast : i = r.length
        · subst hlast
          simp only []
          rw [← h1, List.getElem?_set_self (by split at h1 <;> omega)]
          simp
        · have hi' : i < r.length := by omega
          have hg := h.get i hi'
          simp only []
          rw [List.getElem?_set_ne, hg, List.getElem?_append_left hi']
          split at h1 <;> split <;> omega

/-- Dropping items from the ring. -/
theorem Ring.drop {c : Circ} {r : List Nat} (h : Ring c r) (n : Nat) (hn : n ≤ r.length) {t : Nat}
    (ht : t = if c.tail + n < c.buflen then c.tail + n else c.tail + n - c.buflen) :
    Ring { c with tail := t } (r.drop n) := by
  have h1 := h.head
  have h2 := h.tail
  have h3 := h.room
  constructor
  · exact h.len
  · simp only []
    split at ht <;> omega
  · simp; omega
  · simp only [List.length_drop]
    split at h1 <;> split at ht <;> split <;> omega
  · intro i hi
    simp only [List.length_drop] at hi
    have hg := h.get (n + i) (by omega)
    rw [List.getElem?_drop, ← hg]
    congr 1
    simp only []
    split at ht <;> split <;> split <;> omega

theorem Ring.seg {c : Circ} {r : List Nat} (h : Ring c r) (n : Nat) (hn : n ≤ r.length) (ht : c.tail + n ≤ c.buflen) :
    (c.buf.drop c.tail).take n = r.take n := by
  apply List.ext_getElem?
  intro i
  rw [List.getElem?_take, List.getElem?_take]
  by_cases hi : i < n
  · rw [if_pos hi, if_pos hi, List.getElem?_drop]
    have hg := h.get i (by omega)
    rw [if_pos (by omega)] at hg
    exact hg
  · rw [if_neg hi, if_neg hi]

theorem Ring.popmany {c : Circ} {r : List Nat} (h : Ring c r) (n : Nat) :
    ∃ c', c.popmany n 3 [] = .ok (c', r.take n) ∧ Ring c' (r.drop n) ∧ c'.buflen = c.buflen := by
  -- one pass: pops `m ≤ howmany` items
  have pass : ∀ (fuel : Nat) (c : Circ) (r acc : List Nat), Ring c r → r ≠ [] → acc.length ≤ n →
      ∃ m, m ≤ r.length ∧ m ≤ n - acc.length ∧
        (m = n - acc.length ∨ m = r.length ∨ (c.head < c.tail ∧ c.tail + m = c.buflen)) ∧
        c.popmany n (fuel + 1) acc =
          (if (acc ++ r.take m).length = n then
            .ok ({ c with tail := if c.tail + m < c.buflen then c.tail + m else c.tail + m - c.buflen }, acc ++ r.take m)
           else Circ.popmany n fuel { c with tail := if c.tail + m < c.buflen then c.tail + m else c.tail + m - c.buflen }
             (acc ++ r.take m)) := by
    intro fuel c r acc h hne hacc
    have h1 := h.head
    have h2 := h.tail
    have h3 := h.room
    have h4 := h.len
    have hpos : 0 < r.length := List.length_pos_iff.2 hne
    rw [Circ.popmany, if_neg (fun hh => hne (h.isempty.1 hh))]
    by_cases hw : c.head < c.tail
    · by_cases hb : c.tail + n - acc.length ≥ c.buflen
      · refine ⟨c.buflen - c.tail, by split at h1 <;> omega, by omega, .inr (.inr ⟨hw, by omega⟩), ?_⟩
        simp only [hw, if_true, hb]
        rw [if_pos (by omega), h.seg _ (by split at h1 <;> omega) (by omega),
          if_neg (show ¬ c.tail + (c.buflen - c.tail) < c.buflen by omega),
          show c.tail + (c.buflen - c.tail) - c.buflen = 0 by omega]
      · refine ⟨n - acc.length, by split at h1 <;> omega, by omega, .inl rfl, ?_⟩
        simp only [hw, if_true, hb, if_false]
        rw [show c.tail + n - acc.length - c.tail = n - acc.length by omega, if_pos (by omega),
          h.seg _ (by split at h1 <;> omega) (by omega), if_pos (show c.tail + (n - acc.length) < c.buflen by omega),
          show c.tail + n - acc.length = c.tail + (n - acc.length) by omega]
    · by_cases hb : c.tail + n - acc.length > c.head
      · have e : c.head = c.tail + r.length ∧ c.tail + r.length < c.buflen := by split at h1 <;> omega
        refine ⟨r.length, by omega, by omega, .inr (.inl rfl), ?_⟩
        simp only [hw, if_false, hb, if_true]
        rw [show c.head - c.tail = r.length by omega, if_pos (by omega), h.seg _ (by omega) (by omega),
          if_pos e.2, e.1]
      · refine ⟨n - acc.length, by split at h1 <;> omega, by omega, .inl rfl, ?_⟩
        simp only [hw, if_false, hb]
        rw [show c.tail + n - acc.length - c.tail = n - acc.length by omega,
          if_pos (by split at h1 <;> omega),
          h.seg _ (by split at h1 <;> omega) (by split at h1 <;> omega),
          if_pos (show c.tail + (n - acc.length) < c.buflen by split at h1 <;> omega),
          show c.tail + n - acc.length = c.tail + (n - acc.length) by omega]
  by_cases he : r = []
  · refine ⟨c, ?_, ?_, rfl⟩
    · rw [Circ.popmany, if_pos (h.isempty.2 he), he]; simp
    · rw [he] at h ⊢; simpa using h
  · obtain ⟨m, m1, m2, m3, e⟩ := pass 2 c r [] h he (by simp)
    simp only [List.length_nil, Nat.sub_zero, List.nil_append] at m2 m3 e
    have hr1 := h.drop m m1 rfl
    rw [e]
    by_cases hd : (r.take m).length = n
    · rw [if_pos hd]
      have : m = n := by rw [List.length_take] at hd; omega
      subst this
      exact ⟨_, rfl, hr1, rfl⟩
    · rw [if_neg hd]
      have hmn : m < n := by rw [List.length_take] at hd; omega
      by_cases he2 : r.drop m = []
      · refine ⟨{ c with tail := if c.tail + m < c.buflen then c.tail + m else c.tail + m - c.buflen }, ?_, ?_, rfl⟩
        · have hl : r.length = m := by have := List.drop_eq_nil_iff.1 he2; omega
          show Circ.popmany n (1 + 1) _ _ = _
          rw [Circ.popmany, if_pos (hr1.isempty.2 he2), List.take_of_length_le (by omega), List.take_of_length_le (by omega)]
        · have hl : r.length = m := by have := List.drop_eq_nil_iff.1 he2; omega
          rw [he2] at hr1
          rw [List.drop_eq_nil_iff.2 (by omega)]
          exact hr1
      · obtain ⟨m', k1, k2, k3, e'⟩ := pass 1 _ _ (r.take m) hr1 he2 (by rw [List.length_take]; omega)
        rw [e']
        have hr2 := hr1.drop m' k1 rfl
        have htk : (r.take m).length = m := by rw [List.length_take]; omega
        rw [htk] at k2 k3
        rw [List.length_drop] at k1 k3
        have happ : r.take m ++ (r.drop m).take m' = r.take (m + m') := by rw [List.take_add]
        rw [happ]
        rw [List.drop_drop] at hr2
        have h1 := h.head
        have h2 := h.tail
        have h3 := h.room
        -- the first pass ended at the end of the buffer, so the second is not wrapped
        have hnw : ¬ ((if c.tail + m < c.buflen then c.tail + m else c.tail + m - c.buflen) > c.head) := by
          rcases m3 with m3 | m3 | ⟨_, m3⟩
          · omega
          · exfalso; apply he2; rw [List.drop_eq_nil_iff]; omega
          · rw [if_neg (by omega)]; omega
        by_cases hd2 : (r.take (m + m')).length = n
        · rw [if_pos hd2]
          have : m + m' = n := by rw [List.length_take] at hd2; omega
          subst this
          exact ⟨_, rfl, hr2, rfl⟩
        · rw [if_neg hd2]
          have hlt : m + m' < n := by rw [List.length_take] at hd2; omega
          have hall : m' = r.length - m := by
            rcases k3 with k3 | k3 | ⟨k3, _⟩
            · omega
            · exact k3
            · exact absurd k3 hnw
          have hemp : r.drop (m + m') = [] := by rw [List.drop_eq_nil_iff]; omega
          refine ⟨{ c with tail := if (if c.tail + m < c.buflen then c.tail + m else c.tail + m - c.buflen) + m' < c.buflen then (if c.tail + m < c.buflen then c.tail + m else c.tail + m - c.buflen) + m' else (if c.tail + m < c.buflen then c.tail + m else c.tail + m - c.buflen) + m' - c.buflen }, ?_, ?_, rfl⟩
          · show Circ.popmany n (0 + 1) _ _ = _
            rw [Circ.popmany, if_pos (hr2.isempty.2 hemp), List.take_of_length_le (by omega), List.take_of_length_le (by omega)]
          · rw [hemp] at hr2
            rw [List.drop_eq_nil_iff.2 (by omega)]
            exact hr2

theorem Ring.replace {c : Circ} {r : List Nat} (h : Ring c r) (i x : Nat) (hi : i < r.length) :
    ∃ c', c.replace i x = .ok (some c') ∧ Ring c' (r.set i x) ∧ c'.buflen = c.buflen ∧ c'.tail = c.tail := by
  have hne : r ≠ [] := by intro h0; rw [h0] at hi; simp at hi
  refine ⟨{ c with buf := c.buf.set (c.slot i) x }, ?_, ?_, rfl, rfl⟩
  · unfold Circ.replace
    rw [if_neg (fun hh => hne (h.isempty.1 hh)), h.clen, if_neg (by omega), if_pos (h.slot hi).1]
  · constructor
    · simpa using h.len
    · exact h.tail
    · simpa using h.room
    · simpa using h.head
    · intro j hj
      rw [List.length_set] at hj
      have hg := h.get j hj
      have h2 := h.tail
      have h3 := h.room
      simp only []
      by_cases hij : i = j
      · subst hij
        have hs := (h.slot hi).1
        have he : (if c.tail + i < c.buflen then c.tail + i else c.tail + i - c.buflen) = c.slot i := by
          unfold Circ.slot; split <;> split <;> omega
        rw [he, List.getElem?_set_self hs, List.getElem?_set_self hi]
      · rw [List.getElem?_set_ne, List.getElem?_set_ne hij, hg]
        unfold Circ.slot
        split <;> split <;> omega

theorem Ring.shift : ∀ {i : Nat} {c : Circ} {r : List Nat}, Ring c r → i < r.length →
    ∃ c', Circ.shift i c = .ok c' ∧ c'.buflen = c.buflen ∧ c'.tail = c.tail ∧ ∃ y, Ring c' (y :: r.eraseIdx i)
  | 0, c, r, h, hi => by
    cases r with
    | nil => simp at hi
    | cons a r => exact ⟨c, rfl, rfl, rfl, a, by simpa using h⟩
  | i + 1, c, r, h, hi => by
    have hp := h.peek i
    rw [List.getElem?_eq_getElem (by omega)] at hp
    obtain ⟨c1, e1, h1, b1, t1⟩ := h.replace (i + 1) (r[i]'(by omega)) hi
    obtain ⟨c2, e2, b2, t2, y, h2⟩ := Ring.shift (i := i) h1 (by simp; omega)
    refine ⟨c2, ?_, by rw [b2, b1], by rw [t2, t1], y, ?_⟩
    · simp only [Circ.shift, hp, e1, e2]
    · have : (r.set (i + 1) (r[i]'(by omega))).eraseIdx i = r.eraseIdx (i + 1) := by
        apply List.ext_getElem?
        intro k
        rw [List.getElem?_eraseIdx, List.getElem?_eraseIdx]
        by_cases hk : k < i
        · rw [if_pos hk, if_pos (by omega), List.getElem?_set_ne (by omega)]
        · rw [if_neg hk]
          by_cases hk2 : k = i
          · subst hk2
            rw [if_pos (by omega), List.getElem?_set_self hi, List.getElem?_eq_getElem]
          · rw [if_neg (by omega), List.getElem?_set_ne (by omega)]
      rw [this] at h2
      exact h2

theorem Ring.remove {c : Circ} {r : List Nat} (h : Ring c r) (i : Nat) (hi : i < r.length) :
    ∃ c', c.remove i = .ok (some c') ∧ Ring c' (r.eraseIdx i) ∧ c'.buflen = c.buflen := by
  have hne : r ≠ [] := by intro h0; rw [h0] at hi; simp at hi
  obtain ⟨c1, e1, b1, t1, y, h1⟩ := Ring.shift h hi
  refine ⟨{ c1 with tail := if c1.tail + 1 = c1.buflen then 0 else c1.tail + 1 }, ?_, ?_, b1⟩
  · unfold Circ.remove
    rw [if_neg (fun hh => hne (h.isempty.1 hh)), h.clen, if_neg (by omega), e1]
  · have := h1.drop 1 (by simp) (t := if c1.tail + 1 = c1.buflen then 0 else c1.tail + 1) (by
      have := h1.tail
      split <;> split <;> omega)
    simpa using this

/-! ### The overflow list -/

/-- `h` is the first of the linked items `o`. -/
def Chain (nxt : Nat → Option Nat) : Option Nat → List Nat → Prop
  | h, [] => h = none
  | h, a :: l => h = some a ∧ Chain nxt (nxt a) l

theorem Chain.congr {n n' : Nat → Option Nat} : ∀ {l : List Nat} {h : Option Nat}, Chain n h l → (∀ a ∈ l, n' a = n a) →
    Chain n' h l
  | [], _, h, _ => h
  | a :: l, _, h, e => ⟨h.1, by rw [e a (by simp)]; exact h.2.congr (fun b hb => e b (by simp [hb]))⟩

theorem setN_other {f : Nat → Option Nat} {a b : Nat} {v : Option Nat} (h : b ≠ a) : setN f a v b = f b := by simp [setN, h]
theorem setN_same (f : Nat → Option Nat) (a : Nat) (v : Option Nat) : setN f a v a = v := by simp [setN]

theorem Chain.snoc {n : Nat → Option Nat} {x t : Nat} : ∀ {l : List Nat} {h : Option Nat}, Chain n h (l ++ [t]) →
    (l ++ [t]).Nodup → x ∉ l ++ [t] → Chain (setN (setN n x none) t (some x)) h (l ++ [t] ++ [x])
  | [], _, h, _, hx => by
    simp only [List.nil_append, List.mem_singleton] at hx
    exact ⟨h.1, by rw [setN_same], by rw [setN_other hx, setN_same]; rfl⟩
  | a :: l, h0, h, hnd, hx => by
    simp only [List.cons_append, List.nodup_cons, List.mem_append, not_or, List.mem_cons] at hnd hx
    refine ⟨h.1, ?_⟩
    rw [setN_other (fun e => hnd.1.2.1 e), setN_other (fun e => hx.1 e.symm)]
    exact Chain.snoc (l := l) h.2 hnd.2 (by simp [hx.2.1, hx.2.2.1])

theorem takeList_ok {n : Nat → Option Nat} : ∀ (m : Nat) {l : List Nat} {h t : Option Nat} {acc : List Nat}, Chain n h l →
    l ≠ [] → 0 < m → t = l.getLast? →
    ∃ h', takeList n m h t acc = .ok (h', (l.drop m).getLast?, acc ++ l.take m) ∧ Chain n h' (l.drop m)
  | m + 1, [], _, _, _, _, hne, _, _ => absurd rfl hne
  | m + 1, [a], h, t, acc, hc, _, _, ht => by
    obtain ⟨rfl, h2⟩ := hc
    refine ⟨none, ?_, by simp [Chain]⟩
    simp only [takeList]
    rw [show n a = none from h2]
    simp
  | m + 1, a :: b :: l, h, t, acc, hc, _, _, ht => by
    obtain ⟨rfl, h2⟩ := hc
    have hb : n a = some b := h2.1
    simp only [takeList, hb]
    cases m with
    | zero =>
      refine ⟨some b, ?_, by rw [← hb]; simpa using h2⟩
      simp only [takeList, ht]
      simp
    | succ m =>
      obtain ⟨h', e, hc'⟩ := takeList_ok (m + 1) (l := b :: l) (h := some b) (t := t) (acc := acc ++ [a]) (hb ▸ h2) (by simp) (by omega)
        (by rw [ht]; simp)
      refine ⟨h', ?_, by simpa using hc'⟩
      rw [e]
      simp

theorem findRing_ok {p : Nat → Bool} {c : Circ} {r : List Nat} (h : Ring c r) : ∀ (fuel i : Nat), i ≤ r.length → r.length < i + fuel →
    (findRing p c fuel i = .ok none ∧ ∀ x ∈ r.drop i, p x = false) ∨
    ∃ j x, findRing p c fuel i = .ok (some (j, x)) ∧ i ≤ j ∧ r[j]? = some x ∧ p x = true ∧
      ∀ k y, i ≤ k → k < j → r[k]? = some y → p y = false
  | 0, i, hl, hf => by omega
  | fuel + 1, i, hl, hf => by
    simp only [findRing, h.peek]
    by_cases hi : i < r.length
    · rw [List.getElem?_eq_getElem hi]
      simp only []
      by_cases hp : p r[i] = true
      · rw [if_pos hp]
        exact .inr ⟨i, _, rfl, Nat.le_refl _, List.getElem?_eq_getElem hi, hp, by intros; omega⟩
      · rw [if_neg hp]
        rcases findRing_ok h fuel (i + 1) (by omega) (by omega) with ⟨e, g⟩ | ⟨j, x, e, g1, g2, g3, g4⟩
        · refine .inl ⟨e, ?_⟩
          rw [List.drop_eq_getElem_cons hi]
          intro x hx
          rcases List.mem_cons.1 hx with rfl | hx
          · simpa using hp
          · exact g x hx
        · refine .inr ⟨j, x, e, by omega, g2, g3, ?_⟩
          intro k y h1 h2 h3
          by_cases hk : k = i
          · subst hk
            rw [List.getElem?_eq_getElem hi, Option.some.injEq] at h3
            subst h3
            simpa using hp
          · exact g4 k y (by omega) h2 h3
    · rw [List.getElem?_eq_none (by omega)]
      refine .inl ⟨rfl, ?_⟩
      rw [List.drop_eq_nil_iff.2 (by omega)]
      simp

theorem findList_ok {p : Nat → Bool} {n : Nat → Option Nat} : ∀ (fuel : Nat) {l : List Nat} {h prev : Option Nat}, Chain n h l →
    l.length < fuel →
    (findList p n fuel prev h = .ok none ∧ ∀ x ∈ l, p x = false) ∨
    ∃ l1 x l2, l = l1 ++ x :: l2 ∧ (∀ y ∈ l1, p y = false) ∧ p x = true ∧
      findList p n fuel prev h = .ok (some (if l1 = [] then prev else l1.getLast?, x))
  | fuel + 1, [], h, prev, hc, _ => by
    have : h = none := hc
    subst this
    exact .inl ⟨rfl, by simp⟩
  | fuel + 1, a :: l, h, prev, hc, hf => by
    obtain ⟨rfl, h2⟩ := hc
    simp only [findList]
    by_cases hp : p a = true
    · rw [if_pos hp]
      exact .inr ⟨[], a, l, rfl, by simp, hp, by simp⟩
    · rw [if_neg hp]
      rcases findList_ok fuel (prev := some a) h2 (by simpa using hf) with ⟨e, g⟩ | ⟨l1, x, l2, e, g1, g2, g3⟩
      · refine .inl ⟨e, ?_⟩
        intro x hx
        rcases List.mem_cons.1 hx with rfl | hx
        · simpa using hp
        · exact g x hx
      · refine .inr ⟨a :: l1, x, l2, by rw [e]; rfl, ?_, g2, ?_⟩
        · intro y hy
          rcases List.mem_cons.1 hy with rfl | hy
          · simpa using hp
          · exact g1 y hy
        · rw [g3]
          cases l1 with
          | nil => simp
          | cons b l1 => simp

theorem Chain.removeMid {n : Nat → Option Nat} {p a : Nat} {l2 : List Nat} : ∀ {l1 : List Nat} {h : Option Nat},
    Chain n h (l1 ++ p :: a :: l2) → (l1 ++ p :: a :: l2).Nodup →
    n p = some a ∧ Chain (setN (setN n p (n a)) a none) h (l1 ++ p :: l2) ∧ (l2 = [] → n a = none)
  | [], h, hc, hnd => by
    obtain ⟨rfl, h2⟩ := hc
    obtain ⟨h3, h4⟩ := h2
    simp only [List.nil_append, List.nodup_cons, List.mem_cons, not_or] at hnd
    refine ⟨h3, ⟨rfl, ?_⟩, ?_⟩
    · rw [setN_other hnd.1.1, setN_same]
      refine h4.congr ?_
      intro b hb
      rw [setN_other (by rintro rfl; exact hnd.2.1 hb), setN_other (by rintro rfl; exact hnd.1.2 hb)]
    · rintro rfl
      exact h4
  | b :: l1, h, hc, hnd => by
    obtain ⟨rfl, h2⟩ := hc
    simp only [List.cons_append, List.nodup_cons] at hnd
    obtain ⟨e1, e2, e3⟩ := Chain.removeMid (l1 := l1) h2 hnd.2
    refine ⟨e1, ⟨rfl, ?_⟩, e3⟩
    have hb := hnd.1
    simp only [List.mem_append, List.mem_cons, not_or] at hb
    rw [setN_other hb.2.2.1, setN_other hb.2.1]
    exact e2

end Verif.Queue
