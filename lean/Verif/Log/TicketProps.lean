import Verif.Log.Ticket

/-! # The lock of tickets keeps the parts of a message together -/

namespace Verif.Log.Ticket

theorem upd_same (f : Nat → Pc) (i : Nat) (a : Pc) : upd f i a i = a := if_pos rfl

theorem upd_other (f : Nat → Pc) {i j : Nat} (a : Pc) (h : j ≠ i) : upd f i a j = f j := if_neg h

theorem asked_snoc (es : List Ev) (e : Ev) : asked (es ++ [e]) = asked es ++ asked [e] := by
  induction es with
  | nil => rfl
  | cons a es ih => cases a <;> simp [asked, ih]

theorem writes_snoc (es : List Ev) (e : Ev) : writes (es ++ [e]) = writes es + writes [e] := by
  induction es with
  | nil => simp [writes]
  | cons a es ih => cases a <;> simp [writes, ih] <;> omega

theorem left_snoc (es : List Ev) (e : Ev) : left (es ++ [e]) = left es + left [e] := by
  induction es with
  | nil => simp [left]
  | cons a es ih => cases a <;> simp [left, ih] <;> omega

theorem flat_len (A : List Nat) : (A.flatMap parts).length = 3 * A.length := by
  induction A with
  | nil => rfl
  | cons a A ih =>
    simp only [List.flatMap_cons, List.length_append, ih, parts, List.length_cons, List.length_nil]
    omega

theorem flat_get {A : List Nat} {L m : Nat} (h : A[L]? = some m) {j : Nat} (hj : j < 3) :
    (A.flatMap parts)[3 * L + j]? = some (m, j) := by
  induction A generalizing L with
  | nil => cases h
  | cons a A ih =>
    rw [List.flatMap_cons]
    cases L with
    | zero =>
      simp only [List.getElem?_cons_zero, Option.some.injEq] at h
      subst h
      match j, hj with
      | 0, _ => rfl
      | 1, _ => rfl
      | 2, _ => rfl
    | succ L =>
      simp only [List.getElem?_cons_succ] at h
      rw [List.getElem?_append_right (by simp [parts]; omega)]
      have : 3 * (L + 1) + j - (parts a).length = 3 * L + j := by simp [parts]; omega
      rw [this]
      exact ih h

theorem take_next {α : Type} {l : List α} {n : Nat} {a : α} (h : l[n]? = some a) : l.take (n + 1) = l.take n ++ [a] := by
  rw [List.take_add_one, h]
  rfl

/-- `τ` gives the thread with the ticket of that number; `j` parts of the present message have been written. -/
structure Inv (s : St) (A : List Nat) (L j : Nat) (τ : Nat → Nat) : Prop where
  le : L ≤ A.length
  next : s.next = A.length % 2 ^ 32
  now : s.now = L % 2 ^ 32
  none : L = A.length → j = 0
  first : L < A.length → ∃ m, A[L]? = some m ∧ ((j = 0 ∧ s.pc (τ L) = .wait (L % 2 ^ 32) m) ∨ (j ≤ 3 ∧ s.pc (τ L) = .has m j))
  rest : ∀ k, L < k → k < A.length → ∃ m, A[k]? = some m ∧ s.pc (τ k) = .wait (k % 2 ^ 32) m
  back : ∀ t, s.pc t ≠ .idle → ∃ k, L ≤ k ∧ k < A.length ∧ τ k = t
  inj : ∀ k k', L ≤ k → k < A.length → L ≤ k' → k' < A.length → τ k = τ k' → k = k'
  out : s.out = (A.flatMap parts).take (3 * L + j)

theorem Inv.busy {s : St} {A : List Nat} {L j : Nat} {τ : Nat → Nat} (h : Inv s A L j τ) {k : Nat} (h1 : L ≤ k)
    (h2 : k < A.length) : s.pc (τ k) ≠ .idle := by
  by_cases e : k = L
  · subst e
    obtain ⟨m, _, hm | hm⟩ := h.first h2
    · rw [hm.2]; nofun
    · rw [hm.2]; nofun
  · obtain ⟨m, _, hm⟩ := h.rest k (by omega) h2
    rw [hm]; nofun

/-- Only the first in the queue has the lock. -/
theorem Inv.holder {s : St} {A : List Nat} {L j : Nat} {τ : Nat → Nat} (h : Inv s A L j τ) {t m k : Nat} (ht : s.pc t = .has m k) :
    L < A.length ∧ τ L = t ∧ A[L]? = some m ∧ j = k := by
  obtain ⟨i, h1, h2, h3⟩ := h.back t (by rw [ht]; nofun)
  by_cases e : i = L
  · subst e
    obtain ⟨m', h4, h5 | h5⟩ := h.first h2
    · rw [h3, ht] at h5
      exact absurd h5.2 (by nofun)
    · rw [h3, ht] at h5
      have := h5.2
      injection this with e1 e2
      exact ⟨h2, h3, by rw [h4, e1], e2.symm⟩
  · obtain ⟨m', _, h4⟩ := h.rest i (by omega) h2
    rw [h3, ht] at h4
    cases h4

theorem Inv.keep {s : St} {A : List Nat} {L j : Nat} {τ : Nat → Nat} {t : Nat} {p : Pc} {o : List (Nat × Nat)} {j' : Nat}
    (h : Inv s A L j τ) (hL : L < A.length) (ht : τ L = t) (hp : p ≠ .idle)
    (hf : ∃ m, A[L]? = some m ∧ ((j' = 0 ∧ p = .wait (L % 2 ^ 32) m) ∨ (j' ≤ 3 ∧ p = .has m j')))
    (ho : o = (A.flatMap parts).take (3 * L + j')) :
    Inv { s with pc := upd s.pc t p, out := o } A L j' τ where
  le := h.le
  next := h.next
  now := h.now
  none := fun e => absurd e (by omega)
  first := by
    intro _
    show ∃ m, A[L]? = some m ∧ ((j' = 0 ∧ upd s.pc t p (τ L) = .wait (L % 2 ^ 32) m) ∨ (j' ≤ 3 ∧ upd s.pc t p (τ L) = .has m j'))
    rw [ht, upd_same]
    exact hf
  rest := by
    intro k h1 h2
    show ∃ m, A[k]? = some m ∧ upd s.pc t p (τ k) = .wait (k % 2 ^ 32) m
    rw [upd_other _ _ (fun e => by
      have := h.inj k L (by omega) h2 (Nat.le_refl _) hL (by rw [e, ht])
      omega)]
    exact h.rest k h1 h2
  back := by
    intro u hu
    have hu : upd s.pc t p u ≠ .idle := hu
    by_cases e : u = t
    · exact ⟨L, Nat.le_refl _, hL, by rw [e, ht]⟩
    · rw [upd_other _ _ e] at hu
      exact h.back u hu
  inj := h.inj
  out := ho

theorem inv_run (es : List Ev) : ∀ s, run init es = some s → Few es →
    ∃ τ j, Inv s (asked es) (left es) j τ ∧ writes es = 3 * left es + j := by
  induction es using List.reverseRecOn with
  | nil =>
    intro s hr _
    simp only [run, Option.some.injEq] at hr
    subst hr
    refine ⟨fun _ => 0, 0, ⟨Nat.le_refl _, rfl, rfl, fun _ => rfl, nofun, nofun, fun t h => absurd rfl h, nofun, rfl⟩, rfl⟩
  | append_singleton es e ih =>
    intro s hr hfew
    obtain ⟨s0, h0, hst⟩ : ∃ s0, run init es = some s0 ∧ step s0 e = some s := by
      have : ∀ (es : List Ev) (a : St), run a (es ++ [e]) = some s → ∃ s0, run a es = some s0 ∧ step s0 e = some s := by
        intro es
        induction es with
        | nil =>
          intro a h
          simp only [List.nil_append, run] at h
          refine ⟨a, rfl, ?_⟩
          cases hs : step a e with
          | none => rw [hs] at h; cases h
          | some b => rw [hs] at h; exact h
        | cons x es ih =>
          intro a h
          simp only [List.cons_append, run] at h ⊢
          cases hs : step a x with
          | none => rw [hs] at h; cases h
          | some b => rw [hs] at h; exact ih b h
      exact this es init hr
    have hf0 : Few es := fun fs h => hfew fs (h.trans (List.prefix_append _ _))
    obtain ⟨τ, j, h, hw⟩ := ih s0 h0 hf0
    have hlt : (asked es).length < left es + 2 ^ 32 := hf0 es (List.prefix_refl _)
    rw [asked_snoc, left_snoc, writes_snoc]
    generalize asked es = A at h hlt
    generalize left es = L at h hlt hw
    cases e with
    | ticket t m =>
      simp only [asked, left, writes, Nat.add_zero]
      simp only [step] at hst
      cases hpc : s0.pc t with
      | wait n m => rw [hpc] at hst; cases hst
      | has m k => rw [hpc] at hst; cases hst
      | idle =>
        rw [hpc] at hst
        simp only [Option.some.injEq] at hst
        subst hst
        have hne : ∀ k, L ≤ k → k < A.length → τ k ≠ t := fun k h1 h2 e => h.busy h1 h2 (by rw [e]; exact hpc)
        have old : ∀ k, k < A.length → (if k = A.length then t else τ k) = τ k := fun k hk => if_neg (by omega)
        refine ⟨fun k => if k = A.length then t else τ k, j, ?_, hw⟩
        refine ⟨?_, ?_, h.now, ?_, ?_, ?_, ?_, ?_, ?_⟩
        · have := h.le
          simp only [List.length_append, List.length_singleton]
          omega
        · show (s0.next + 1) % 2 ^ 32 = _
          rw [h.next]
          simp only [List.length_append, List.length_singleton, Nat.mod_add_mod]
        · intro e
          have := h.le
          simp only [List.length_append, List.length_singleton] at e
          omega
        · intro hL
          simp only [List.length_append, List.length_singleton] at hL
          show ∃ m', (A ++ [m])[L]? = some m' ∧ ((j = 0 ∧ upd s0.pc t _ _ = _) ∨ (j ≤ 3 ∧ upd s0.pc t _ _ = _))
          by_cases e : L = A.length
          · refine ⟨m, by rw [e]; simp, .inl ⟨h.none e, ?_⟩⟩
            simp only [e, if_true, upd_same]
            rw [h.next]
          · have hL' : L < A.length := by omega
            rw [old L hL', upd_other _ _ (hne L (Nat.le_refl _) hL'), List.getElem?_append_left hL']
            exact h.first hL'
        · intro k h1 h2
          simp only [List.length_append, List.length_singleton] at h2
          show ∃ m', (A ++ [m])[k]? = some m' ∧ upd s0.pc t _ _ = _
          by_cases e : k = A.length
          · refine ⟨m, by rw [e]; simp, ?_⟩
            simp only [e, if_true, upd_same]
            rw [h.next]
          · have hk : k < A.length := by omega
            rw [old k hk, upd_other _ _ (hne k (by omega) hk), List.getElem?_append_left hk]
            exact h.rest k h1 hk
        · intro u hu
          have hu : upd s0.pc t _ u ≠ .idle := hu
          simp only [List.length_append, List.length_singleton]
          by_cases e : u = t
          · exact ⟨A.length, h.le, by omega, by rw [if_pos rfl, e]⟩
          · rw [upd_other _ _ e] at hu
            obtain ⟨k, h1, h2, h3⟩ := h.back u hu
            exact ⟨k, h1, by omega, by rw [old k h2]; exact h3⟩
        · intro k k' h1 h2 h3 h4 e
          simp only [List.length_append, List.length_singleton] at h2 h4
          by_cases e1 : k = A.length
          · by_cases e2 : k' = A.length
            · rw [e1, e2]
            · have hk' : k' < A.length := by omega
              rw [if_pos e1, old k' hk'] at e
              exact absurd e.symm (hne k' h3 hk')
          · have hk : k < A.length := by omega
            by_cases e2 : k' = A.length
            · rw [old k hk, if_pos e2] at e
              exact absurd e (hne k h1 hk)
            · have hk' : k' < A.length := by omega
              rw [old k hk, old k' hk'] at e
              exact h.inj k k' h1 hk h3 hk' e
        · show s0.out = _
          rw [h.out, List.flatMap_append, List.take_append_of_le_length]
          rw [flat_len]
          have := h.le
          by_cases e : L = A.length
          · have := h.none e
            omega
          · obtain ⟨m, _, h5 | h5⟩ := h.first (by omega) <;> omega
    | enter t =>
      simp only [asked, left, writes, Nat.add_zero, List.append_nil]
      simp only [step] at hst
      cases hpc : s0.pc t with
      | idle => rw [hpc] at hst; cases hst
      | has m k => rw [hpc] at hst; cases hst
      | wait n m =>
        simp only [hpc] at hst
        by_cases hn : s0.now = n
        · rw [if_pos hn] at hst
          simp only [Option.some.injEq] at hst
          subst hst
          obtain ⟨k, h1, h2, h3⟩ := h.back t (by rw [hpc]; nofun)
          have hk : n = k % 2 ^ 32 := by
            by_cases e : k = L
            · subst e
              obtain ⟨m', _, h5 | h5⟩ := h.first h2
              · have := h5.2
                rw [h3, hpc] at this
                injection this
              · have := h5.2
                rw [h3, hpc] at this
                cases this
            · obtain ⟨m', _, h5⟩ := h.rest k (by omega) h2
              rw [h3, hpc] at h5
              injection h5
          have hkL : k = L := by
            have := h.now
            omega
          subst hkL
          obtain ⟨m', h4, h5 | h5⟩ := h.first h2
          · have hp := h5.2
            rw [h3, hpc] at hp
            injection hp with _ hm
            refine ⟨τ, j, ?_, hw⟩
            refine h.keep h2 h3 (by nofun) ⟨m', h4, .inr ⟨by omega, ?_⟩⟩ h.out
            rw [hm, h5.1]
          · have hp := h5.2
            rw [h3, hpc] at hp
            cases hp
        · rw [if_neg hn] at hst
          cases hst
    | write t =>
      simp only [asked, left, writes, Nat.add_zero, List.append_nil]
      simp only [step] at hst
      cases hpc : s0.pc t with
      | idle => rw [hpc] at hst; cases hst
      | wait n m => rw [hpc] at hst; cases hst
      | has m k =>
        simp only [hpc] at hst
        by_cases hk : k < 3
        · rw [if_pos hk] at hst
          simp only [Option.some.injEq] at hst
          subst hst
          obtain ⟨h1, h2, h3, h4⟩ := h.holder hpc
          subst h4
          refine ⟨τ, j + 1, ?_, by omega⟩
          refine h.keep h1 h2 (by nofun) ⟨m, h3, .inr ⟨by omega, rfl⟩⟩ ?_
          rw [h.out, ← Nat.add_assoc, take_next (flat_get h3 hk)]
        · rw [if_neg hk] at hst
          cases hst
    | leave t =>
      simp only [asked, left, writes, Nat.add_zero, List.append_nil, Nat.zero_add]
      simp only [step] at hst
      cases hpc : s0.pc t with
      | idle => rw [hpc] at hst; cases hst
      | wait n m => rw [hpc] at hst; cases hst
      | has m k =>
        simp only [hpc] at hst
        by_cases hk : k = 3
        · rw [if_pos hk] at hst
          simp only [Option.some.injEq] at hst
          subst hst
          obtain ⟨h1, h2, h3, h4⟩ := h.holder hpc
          refine ⟨τ, 0, ?_, by omega⟩
          have hne : ∀ k, L + 1 ≤ k → k < A.length → τ k ≠ t := by
            intro k a b e
            have := h.inj k L (by omega) b (Nat.le_refl _) h1 (by rw [e, h2])
            omega
          refine ⟨h1, h.next, ?_, fun _ => rfl, ?_, ?_, ?_, ?_, ?_⟩
          · show (s0.now + 1) % 2 ^ 32 = _
            rw [h.now, Nat.mod_add_mod]
          · intro hL
            obtain ⟨m', h5, h6⟩ := h.rest (L + 1) (by omega) hL
            refine ⟨m', h5, .inl ⟨rfl, ?_⟩⟩
            show upd s0.pc t _ _ = _
            rw [upd_other _ _ (hne _ (Nat.le_refl _) hL)]
            exact h6
          · intro k a b
            show ∃ m', A[k]? = some m' ∧ upd s0.pc t _ _ = _
            rw [upd_other _ _ (hne _ (by omega) b)]
            exact h.rest k (by omega) b
          · intro u hu
            have hu : upd s0.pc t _ u ≠ .idle := hu
            by_cases e : u = t
            · rw [e, upd_same] at hu
              exact absurd rfl hu
            · rw [upd_other _ _ e] at hu
              obtain ⟨k, a, b, c⟩ := h.back u hu
              refine ⟨k, ?_, b, c⟩
              apply Classical.byContradiction
              intro hc
              have : k = L := by omega
              rw [this, h2] at c
              exact e c.symm
          · intro k k' a b c d
            exact h.inj k k' (by omega) b (by omega) d
          · show s0.out = _
            rw [h.out]
            congr 1
            omega
        · rw [if_neg hk] at hst
          cases hst

/-- **C74.** On the standard error output the messages are whole and one after the other, in the order of their tickets:
what has been written is the beginning of the three parts of the first, the three parts of the second, and so on.  There are
at no time 2^32 threads that log. -/
theorem C74_stderr (es : List Ev) (s : St) (hr : run init es = some s) (hf : Few es) :
    s.out = ((asked es).flatMap parts).take (writes es) := by
  obtain ⟨τ, j, h, hw⟩ := inv_run es s hr hf
  rw [h.out, hw]

/-- **C74.** While a message is not done, the thread whose turn it is can go on. -/
theorem C74_stderr_goes (es : List Ev) (s : St) (hr : run init es = some s) (hf : Few es)
    (hn : left es < (asked es).length) : ∃ t, step s (.enter t) ≠ none ∨ step s (.write t) ≠ none ∨ step s (.leave t) ≠ none := by
  obtain ⟨τ, j, h, _⟩ := inv_run es s hr hf
  refine ⟨τ (left es), ?_⟩
  obtain ⟨m, _, h5 | h5⟩ := h.first hn
  · left
    simp only [step, h5.2, h.now, if_true]
    nofun
  · right
    by_cases hj : j < 3
    · left
      simp only [step, h5.2, if_pos hj]
      nofun
    · right
      have : j = 3 := by omega
      simp only [step, h5.2, if_pos this]
      nofun

/-- Two threads at the same time. -/
def both : List Ev := [.ticket 5 10, .ticket 6 20, .enter 5, .write 5, .write 5, .write 5, .leave 5, .enter 6, .write 6]

theorem both_run : (run init both).map (·.out) = some [(10, 0), (10, 1), (10, 2), (20, 0)] := by decide +kernel

theorem both_few : Few both := by
  intro fs h
  have h1 : ∀ gs : List Ev, (asked gs).length ≤ gs.length := by
    intro gs
    induction gs with
    | nil => exact Nat.le_refl _
    | cons a gs ih => cases a <;> simp [asked] <;> omega
  have := h1 fs
  have := h.length_le
  simp only [both, List.length_cons, List.length_nil] at this
  omega

end Verif.Log.Ticket
