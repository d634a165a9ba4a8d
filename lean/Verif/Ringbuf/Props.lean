import Verif.Ringbuf.Model

/-!
# C06: the ring buffer remembers exactly the last N values
-/

namespace Verif.Ringbuf

variable {α : Type}

/-! ### Specification -/

/-- Values pushed since the last flush, oldest first. -/
def pushed : List (Op α) → List α
  | ops => ops.foldl (fun acc op => match op with | .push d => acc ++ [d] | .flush => []) []

/-- The last `n` elements of a list. -/
def lastN (n : Nat) (l : List α) : List α := l.drop (l.length - n)

/-! ### Helper lemmas -/

/-- Ring state reached after pushing `l` since the last flush: slot `i` holds the most
recent pushed value whose index is `i` modulo the capacity. -/
structure Rep (n : Nat) (r : Ring α) (l : List α) : Prop where
  len : r.elements.length = n
  nel : r.nelements = n
  c : r.cElem = l.length % n
  full : r.bFull = decide (n ≤ l.length)
  slot : ∀ j, l.length - n ≤ j → j < l.length → r.elements[j % n]? = l[j]?

theorem mod_inj_window {n j L : Nat} (_hn : 0 < n) (h1 : L - n ≤ j) (h2 : j < L)
    (h : j % n = L % n) : j + n = L := by
  have a := Nat.div_add_mod j n
  have b := Nat.div_add_mod L n
  rw [h] at a
  have hlt : L - j ≤ n := by omega
  have : n * (j / n) < n * (L / n) := by omega
  have h3 : j / n < L / n := Nat.lt_of_mul_lt_mul_left this
  have h4 : n * (j / n + 1) ≤ n * (L / n) := Nat.mul_le_mul_left n h3
  rw [Nat.mul_add, Nat.mul_one] at h4
  omega

theorem Rep.push {n : Nat} (hn : 0 < n) {r : Ring α} {l : List α} (h : Rep n r l) (d : α) :
    ∃ r', push r d = .ok r' ∧ Rep n r' (l ++ [d]) := by
  have hc : r.cElem < r.elements.length := by rw [h.c, h.len]; exact Nat.mod_lt _ hn
  have hslot : ∀ j, (l ++ [d]).length - n ≤ j → j < (l ++ [d]).length →
      (r.elements.set r.cElem d)[j % n]? = (l ++ [d])[j]? := by
    intro j h1 h2
    simp only [List.length_append, List.length_singleton] at h1 h2
    rw [List.getElem?_set]
    by_cases hj : j = l.length
    · subst hj
      rw [if_pos h.c, if_pos (by simpa using hc)]
      simp
    · have hne : r.cElem ≠ j % n := by
        rw [h.c]
        intro he
        have := mod_inj_window (L := l.length) hn (by omega) (by omega) he.symm
        omega
      rw [if_neg hne, h.slot j (by omega) (by omega),
        List.getElem?_append_left (by omega)]
  have hmod : (l.length + 1) % n = if l.length % n + 1 = n then 0 else l.length % n + 1 := by
    rw [Nat.add_mod]
    split
    · next he =>
      by_cases h1 : n = 1
      · subst h1; simp [Nat.mod_one]
      · rw [Nat.mod_eq_of_lt (a := 1) (by omega), he, Nat.mod_self]
    · next he =>
      have := Nat.mod_lt l.length hn
      by_cases h1 : n = 1
      · subst h1; simp [Nat.mod_one] at he
      · rw [Nat.mod_eq_of_lt (a := 1) (by omega), Nat.mod_eq_of_lt (by omega)]
  have hfull : decide (n ≤ l.length + 1) = (decide (n ≤ l.length) || decide (l.length % n + 1 = n)) := by
    by_cases h1 : n ≤ l.length
    · simp [h1]; omega
    · have : l.length % n = l.length := Nat.mod_eq_of_lt (by omega)
      simp [h1, this]
      omega
  unfold Ringbuf.push
  rw [if_pos hc]
  simp only [h.c, h.nel]
  by_cases he : l.length % n + 1 = n
  · rw [if_pos he]
    refine ⟨_, rfl, ?_, rfl, ?_, ?_, ?_⟩
    · simpa using h.len
    · simp only [List.length_append, List.length_singleton, hmod, if_pos he]
    · simp only [List.length_append, List.length_singleton, hfull, he]; simp
    · rw [← h.c]; exact hslot
  · rw [if_neg he]
    refine ⟨_, rfl, ?_, rfl, ?_, ?_, ?_⟩
    · simpa using h.len
    · simp only [List.length_append, List.length_singleton, hmod, if_neg he]
    · simp only [List.length_append, List.length_singleton, hfull, he, h.full]; simp
    · rw [← h.c]; exact hslot

theorem Rep.flush {n : Nat} (hn : 0 < n) {r : Ring α} {l : List α} (h : Rep n r l) :
    Rep n (flush r) [] := by
  refine ⟨h.len, h.nel, ?_, ?_, ?_⟩
  · simp [Ringbuf.flush]
  · simp [Ringbuf.flush]; omega
  · intro j _ h2; simp at h2

theorem Rep.run {n : Nat} (hn : 0 < n) : ∀ (ops : List (Op α)) (r : Ring α) (l : List α),
    Rep n r l → ∃ r', run r ops = .ok r' ∧
      Rep n r' (ops.foldl (fun acc op => match op with | .push d => acc ++ [d] | .flush => []) l)
  | [], r, l, h => ⟨r, rfl, h⟩
  | .push d :: ops, r, l, h => by
    obtain ⟨r1, e1, h1⟩ := h.push hn d
    obtain ⟨r2, e2, h2⟩ := Rep.run hn ops r1 _ h1
    exact ⟨r2, by simp only [Ringbuf.run, e1, e2], h2⟩
  | .flush :: ops, r, l, h => by
    obtain ⟨r2, e2, h2⟩ := Rep.run hn ops _ _ (h.flush hn)
    exact ⟨r2, by simp only [Ringbuf.run, e2], h2⟩

theorem Rep.ctor {n : Nat} (hn : 0 < n) (zero : α) : Rep n (ctor zero n) [] := by
  refine ⟨by simp [Ringbuf.ctor], rfl, by simp [Ringbuf.ctor], ?_, ?_⟩
  · simp [Ringbuf.ctor]; omega
  · intro j _ h2; simp at h2

theorem scan_spec [DecidableEq α] (els : List α) (d : α) : ∀ (left i : Nat), i + left ≤ els.length →
    (∃ p, scan els d i left = .ok (some p) ∧ i ≤ p ∧ p < i + left ∧ els[p]? = some d) ∨
    (scan els d i left = .ok none ∧ ∀ p, i ≤ p → p < i + left → els[p]? ≠ some d)
  | 0, i, _ => .inr ⟨rfl, fun p h1 h2 => by omega⟩
  | left + 1, i, h => by
    unfold scan
    rw [List.getElem?_eq_getElem (by omega)]
    simp only
    by_cases hx : els[i] = d
    · left
      rw [if_pos hx]
      exact ⟨i, rfl, Nat.le_refl _, by omega, by rw [List.getElem?_eq_getElem (by omega), hx]⟩
    · rw [if_neg hx]
      rcases scan_spec els d left (i + 1) (by omega) with ⟨p, h1, h2, h3, h4⟩ | ⟨h1, h2⟩
      · exact .inl ⟨p, h1, by omega, by omega, h4⟩
      · refine .inr ⟨h1, ?_⟩
        intro p h3 h4
        by_cases hp : p = i
        · subst hp
          rw [List.getElem?_eq_getElem (by omega)]
          intro e; exact hx (Option.some.inj e)
        · exact h2 p (by omega) (by omega)

/-- Slots in use correspond to the last `n` pushed values. -/
theorem Rep.window {n : Nat} (hn : 0 < n) {r : Ring α} {l : List α} (h : Rep n r l) (p : Nat) (d : α) :
    (p < (if r.bFull then r.nelements else r.cElem) ∧ r.elements[p]? = some d) ↔
    ∃ j, l.length - n ≤ j ∧ j < l.length ∧ j % n = p ∧ l[j]? = some d := by
  constructor
  · rintro ⟨h1, h2⟩
    rw [h.full, h.nel, h.c] at h1
    by_cases hf : n ≤ l.length
    · simp only [hf, decide_true, if_true] at h1
      -- the unique index in the last window congruent to p
      let b := l.length - n
      let j := b + (p + n - b % n) % n
      have hb := Nat.mod_lt b hn
      have hlt := Nat.mod_lt (p + n - b % n) hn
      have hj : j % n = p := by
        show (b + (p + n - b % n) % n) % n = p
        rw [Nat.add_mod_mod]
        have : b + (p + n - b % n) = p + n * (b / n + 1) := by
          have := Nat.div_add_mod b n
          rw [Nat.mul_add, Nat.mul_one]; omega
        rw [this, Nat.add_mul_mod_self_left, Nat.mod_eq_of_lt h1]
      refine ⟨j, by show l.length - n ≤ b + _; omega, by show b + _ < l.length; omega, hj, ?_⟩
      rw [← h.slot j (by show l.length - n ≤ b + _; omega) (by show b + _ < l.length; omega), hj]
      exact h2
    · simp only [hf, decide_false, Bool.false_eq_true, if_false] at h1
      rw [Nat.mod_eq_of_lt (by omega)] at h1
      have hp : p % n = p := Nat.mod_eq_of_lt (by omega)
      refine ⟨p, by omega, h1, hp, ?_⟩
      rw [← h.slot p (by omega) h1, hp]
      exact h2
  · rintro ⟨j, h1, h2, h3, h4⟩
    constructor
    · rw [h.full, h.nel, h.c, ← h3]
      by_cases hf : n ≤ l.length
      · simp only [hf, decide_true, if_true]; exact Nat.mod_lt _ hn
      · simp only [hf, decide_false, Bool.false_eq_true, if_false]
        rw [Nat.mod_eq_of_lt (by omega), Nat.mod_eq_of_lt (by omega)]; exact h2
    · rw [← h3, h.slot j h1 h2, h4]

/-! ### Property theorems -/

/-- **C06** For every capacity `n > 0` and every history of pushes and flushes: nothing
outside the storage is touched, and a look-up reports a position iff the value is among the
last `n` values pushed since the last flush. -/
theorem C06_locate_iff_recent [DecidableEq α] (zero : α) (n : Nat) (hn : 0 < n)
    (ops : List (Op α)) (d : α) :
    ∃ r res, run (ctor zero n) ops = .ok r ∧ locate r d = .ok res ∧
      (res.isSome = true ↔ d ∈ lastN n (pushed ops)) := by
  obtain ⟨r, e, h⟩ := (Rep.ctor hn zero).run hn ops
  have hmem : d ∈ lastN n (pushed ops) ↔
      ∃ p, p < (if r.bFull then r.nelements else r.cElem) ∧ r.elements[p]? = some d := by
    have hw := h.window hn
    have : d ∈ lastN n (pushed ops) ↔ ∃ j, (pushed ops).length - n ≤ j ∧ j < (pushed ops).length ∧
        (pushed ops)[j]? = some d := by
      unfold lastN
      rw [List.mem_iff_getElem?]
      constructor
      · rintro ⟨i, hi⟩
        rw [List.getElem?_drop] at hi
        exact ⟨_, by omega, (List.getElem?_eq_some_iff.1 hi).1, hi⟩
      · rintro ⟨j, h1, h2, h3⟩
        refine ⟨j - ((pushed ops).length - n), ?_⟩
        rw [List.getElem?_drop]
        rw [show (pushed ops).length - n + (j - ((pushed ops).length - n)) = j by omega]
        exact h3
    rw [this]
    constructor
    · rintro ⟨j, h1, h2, h3⟩
      exact ⟨j % n, (hw (j % n) d).2 ⟨j, h1, h2, rfl, h3⟩⟩
    · rintro ⟨p, hp⟩
      obtain ⟨j, h1, h2, _, h4⟩ := (hw p d).1 hp
      exact ⟨j, h1, h2, h4⟩
  have hle : 0 + (if r.bFull then r.nelements else r.cElem) ≤ r.elements.length := by
    rw [h.nel, h.len, h.c]
    have := Nat.mod_lt (ops.foldl (fun acc op => match op with | .push d => acc ++ [d] | .flush => []) []).length hn
    split <;> omega
  rcases scan_spec r.elements d _ 0 hle with ⟨p, h1, _, h3, h4⟩ | ⟨h1, h2⟩
  · refine ⟨r, some p, e, h1, ?_⟩
    rw [hmem]
    exact ⟨fun _ => ⟨p, by omega, h4⟩, fun _ => rfl⟩
  · refine ⟨r, none, e, h1, ?_⟩
    rw [hmem]
    constructor
    · intro h; cases h
    · rintro ⟨p, hp1, hp2⟩
      exact absurd hp2 (h2 p (by omega) (by omega))

/-- **C06** The reported position identifies such an occurrence: it is the index, modulo the
capacity, of an equal value among the last `n` pushed. -/
theorem C06_position_identifies_occurrence [DecidableEq α] (zero : α) (n : Nat) (hn : 0 < n)
    (ops : List (Op α)) (d : α) {r : Ring α} {p : Nat} (hr : run (ctor zero n) ops = .ok r)
    (hl : locate r d = .ok (some p)) :
    ∃ j, (pushed ops).length - n ≤ j ∧ j < (pushed ops).length ∧ j % n = p ∧
      (pushed ops)[j]? = some d := by
  obtain ⟨r', e, h⟩ := (Rep.ctor hn zero).run hn ops
  rw [e] at hr; cases hr
  have hle : 0 + (if r.bFull then r.nelements else r.cElem) ≤ r.elements.length := by
    rw [h.nel, h.len, h.c]
    have := Nat.mod_lt (ops.foldl (fun acc op => match op with | .push d => acc ++ [d] | .flush => []) []).length hn
    split <;> omega
  rcases scan_spec r.elements d _ 0 hle with ⟨q, h1, _, h3, h4⟩ | ⟨h1, _⟩
  · unfold locate at hl
    rw [h1] at hl
    cases hl
    exact (h.window hn p d).1 ⟨by omega, h4⟩
  · unfold locate at hl
    rw [h1] at hl; cases hl

/-- Non-vacuity: capacity 3, wrap-around, and a flush. -/
example : (do
    let r ← run (ctor 0 3) [.push 1, .push 2, .push 3, .push 4]
    pure (← locate r 1, ← locate r 4, ← locate r 2) : Except Fault _).toOption =
      some (none, some 0, some 1) ∧
    (do
      let r ← run (ctor 0 3) [.push 1, .push 2, .push 3, .push 4, .flush, .push 9]
      pure (← locate r 4, ← locate r 9, ← locate r 0) : Except Fault _).toOption =
      some (none, some 0, none) := by
  decide

end Verif.Ringbuf
