import Verif.Wake.Inv

/-! The invariant of C67 is kept. -/

namespace Verif.Wake

variable {K : Par} {σ σ' : St}

/-- Only the thread has moved, and what was to be written still is. -/
theorem invP_of {p : Bool} (h : InvP K σ p) (hP : σ'.P p = σ.P p)
    (hc : σ.pc = .ended → σ'.pc = .ended) (hpend : Pend σ p → Pend σ' p)
    (hago : ∀ t, Ago K σ p t → Ago K σ' p t) : InvP K σ' p := by
  obtain ⟨h1, h2, h3, h4, h5, h6, h7, h8, h9, h10, h11⟩ := h
  refine ⟨?_, ?_, ?_, ?_, ?_, ?_, ?_, ?_, ?_, ?_, ?_⟩ <;> rw [hP] <;> try assumption
  · exact fun q => hc (h1 q)
  · rcases h8 with q | q | q | q
    · exact .inl q
    · exact .inr (.inl q)
    · exact .inr (.inr (.inl q))
    · exact .inr (.inr (.inr (hpend q)))
  · exact fun t ht => hago t (h10 t ht)

theorem inv_change {q : Bool} (h : Inv K σ) :
    Inv K { σ with P := upd σ.P q { σ.P q with chg := (σ.P q).chg + 1 } } := by
  obtain ⟨h1, h2, h3, h4, h5, h6, h7, h8, h9⟩ := h
  refine ⟨h1, h2, h3, h4, h5, h6, h7, h8, fun p => ?_⟩
  by_cases e : p = q
  · subst e
    obtain ⟨g1, g2, g3, g4, g5, g6, g7, g8, g9, g10, g11⟩ := h9 p
    constructor <;> simp only [upd, if_pos] <;> first | assumption | omega
  · exact invP_of (h9 p) (by simp [upd, e]) id id (fun _ h => h)

theorem inv_poll {q rdy : Bool} (h : Inv K σ) {x : Poller} (hx : pollStep (σ.P q) rdy = some x) :
    Inv K { σ with P := upd σ.P q x } := by
  obtain ⟨h1, h2, h3, h4, h5, h6, h7, h8, h9⟩ := h
  refine ⟨h1, h2, h3, h4, h5, h6, h7, h8, fun p => ?_⟩
  by_cases e : p = q
  · subst e
    obtain ⟨g1, g2, g3, g4, g5, g6, g7, g8, g9, g10, g11⟩ := h9 p
    unfold pollStep at hx
    (repeat' split at hx) <;> cases hx <;>
      (constructor <;> simp only [upd, if_pos] <;> first | assumption | grind)
  · exact invP_of (h9 p) (by simp [upd, e]) id id (fun _ h => h)

theorem inv_nudge (h : Inv K σ) (hs : nudge σ = some σ') : Inv K σ' := by
  obtain ⟨h1, h2, h3, h4, h5, h6, h7, h8, h9⟩ := h
  unfold nudge at hs
  split at hs
  · cases hs
  split at hs
  · cases hs
    exact ⟨h1, h2, h3, h4, h5, h6, h7, h8, fun p =>
      invP_of (h9 p) rfl id id (fun _ h => h)⟩
  rename_i hst hmax
  cases hs
  refine ⟨?_, ?_, ?_, ?_, h5, h6, ?_, ?_, fun p => ?_⟩
  · show σ.loc ≤ σ.req + 1; omega
  · show σ.dlv ≤ σ.req + 1; omega
  · intro s; simp only; split <;> grind
  · intro s; simp only; split <;> grind
  · simp only; split <;> grind
  · show σ.req + 1 ≤ intMax; omega
  · obtain ⟨g1, g2, g3, g4, g5, g6, g7, g8, g9, g10, g11⟩ := h9 p
    refine ⟨?_, g2, g3, g4, g5, g6, Nat.le_refl _, ?_, g9, ?_, g11⟩
    · intro hc; simp [g1 hc]
    · refine .inr (.inr (.inr ?_))
      refine .inr (.inr (.inr (.inr (.inr (.inl ?_)))))
      show σ.loc ≠ σ.req + 1; omega
    · intro t ht
      have := g10 t ht
      revert this
      simp only [Ago]
      cases σ.pc <;> simp

theorem inv_write {q : Bool} (h : Inv K σ) (hw : write K σ q = some σ') (hpc : σ.pc ≠ .ended) :
    σ' = { σ with P := σ'.P } ∧ (∀ p, p ≠ q → σ'.P p = σ.P p) ∧ (σ'.P q).pipe ≠ [] ∧
      σ'.P q = { σ.P q with pipe := (σ'.P q).pipe, log := σ.clk :: (σ.P q).log } ∧
      (σ'.P q).pipe.length ≤ K.cap := by
  unfold write at hw
  split at hw
  · cases hw
    refine ⟨rfl, ?_, ?_, ?_, ?_⟩
    · intro p hp; simp [upd, hp]
    · simp [upd]
    · simp [upd]
    · simp [upd]; omega
  · cases hw

theorem inv_w1 (h : Inv K σ) (hpc : σ.pc = .w1) (hw : write K σ false = some σ') :
    Inv K { σ' with pc := .w2 } := by
  obtain ⟨e1, e2, e3, e4, e5⟩ := inv_write h hw (by simp [hpc])
  generalize hP : σ'.P = P at *
  subst e1
  obtain ⟨h1, h2, h3, h4, h5, h6, h7, h8, h9⟩ := h
  refine ⟨h1, h2, by simp, by simp, h5, h6, by grind, h8, fun p => ?_⟩
  have ht := e2 true (by simp)
  cases p with
  | false =>
    obtain ⟨g1, g2, g3, g4, g5, g6, g7, g8, g9, g10, g11⟩ := h9 false
    have hc : (σ.P false).closed = false := by
      cases q : (σ.P false).closed with
      | false => rfl
      | true => have := g1 q; rw [hpc] at this; cases this
    simp only at e3 e4 e5
    constructor <;> simp only
    · intro q; rw [e4] at q; simp [hc] at q
    · rw [e4]; exact g2
    · rw [e4]; exact g3
    · rw [e4]; exact g4
    · intro _ q; exact absurd q e3
    · rw [e4]; exact g6
    · rw [e4]; exact g7
    · exact .inr (.inr (.inl e3))
    · rw [e4]
      refine spaced_cons g9 ?_
      intro a ha
      have := g10 a ha
      simpa [Ago, hpc] using this
    · intro t ht
      rw [e4] at ht
      simp only [List.head?_cons, Option.some.injEq] at ht
      subst ht
      simp [Ago]
    · exact e5
  | true =>
    refine invP_of (h9 true) ht (by simp [hpc]) ?_ ?_
    · intro _; simp [Pend]
    · intro t h; simpa [Ago, hpc] using h

theorem inv_w2 (h : Inv K σ) (hpc : σ.pc = .w2) (hw : write K σ true = some σ') :
    Inv K { σ' with pc := .top, last := some σ'.clk, at_ := none } := by
  obtain ⟨e1, e2, e3, e4, e5⟩ := inv_write h hw (by simp [hpc])
  generalize hP : σ'.P = P at *
  subst e1
  obtain ⟨h1, h2, h3, h4, h5, h6, h7, h8, h9⟩ := h
  refine ⟨h1, h2, by simp, by simp, by simp, by simp, by grind, h8, fun p => ?_⟩
  have ht := e2 false (by simp)
  cases p with
  | true =>
    obtain ⟨g1, g2, g3, g4, g5, g6, g7, g8, g9, g10, g11⟩ := h9 true
    have hc : (σ.P true).closed = false := by
      cases q : (σ.P true).closed with
      | false => rfl
      | true => have := g1 q; rw [hpc] at this; cases this
    simp only at e3 e4 e5
    constructor <;> simp only
    · intro q; rw [e4] at q; simp [hc] at q
    · rw [e4]; exact g2
    · rw [e4]; exact g3
    · rw [e4]; exact g4
    · intro _ q; exact absurd q e3
    · rw [e4]; exact g6
    · rw [e4]; exact g7
    · exact .inr (.inr (.inl e3))
    · rw [e4]
      refine spaced_cons g9 ?_
      intro a ha
      have := g10 a ha
      simpa [Ago, hpc] using this
    · intro t ht
      rw [e4] at ht
      simp only [List.head?_cons, Option.some.injEq] at ht
      subst ht
      exact ⟨_, rfl, Nat.le_refl _⟩
    · exact e5
  | false =>
    refine invP_of (h9 false) ht (by simp [hpc]) ?_ ?_
    · intro hp
      simp only [Pend, hpc] at hp ⊢
      simpa using hp
    · intro t h
      simp only [Ago, hpc] at h
      exact ⟨_, rfl, by simpa using h⟩

theorem inv_wake {bad : Bool} (h : Inv K σ) (hs : wake K bad σ = some σ') : Inv K σ' := by
  unfold wake at hs
  split at hs
  case h_6 hpc =>
    cases hw : write K σ false with
    | none => rw [hw] at hs; cases hs
    | some τ => rw [hw] at hs; cases hs; exact inv_w1 h hpc hw
  case h_7 hpc =>
    cases hw : write K σ true with
    | none => rw [hw] at hs; cases hs
    | some τ => rw [hw] at hs; cases hs; exact inv_w2 h hpc hw
  all_goals
    obtain ⟨h1, h2, h3, h4, h5, h6, h7, h8, h9⟩ := h
    (repeat' split at hs) <;> cases hs
  all_goals
    refine ⟨by grind, by grind, by grind, by grind, by grind, by grind, by grind, by grind,
      fun p => invP_of (h9 p) rfl (by grind) ?_ ?_⟩
    · simp only [Pend]; grind
    · intro t ht
      simp only [Ago] at ht ⊢
      grind

theorem inv_timeout (h : Inv K σ) (hs : timeout σ = some σ') : Inv K σ' := by
  unfold timeout at hs
  obtain ⟨h1, h2, h3, h4, h5, h6, h7, h8, h9⟩ := h
  (repeat' split at hs) <;> cases hs
  refine ⟨by grind, by grind, by grind, by grind, by grind, by grind, by grind, by grind,
      fun p => invP_of (h9 p) rfl (by grind) ?_ ?_⟩
  · simp only [Pend]; grind
  · intro t ht
    simp only [Ago] at ht ⊢
    grind

theorem inv_tick {n : Nat} (h : Inv K σ) : Inv K { σ with clk := σ.clk + n } := by
  obtain ⟨h1, h2, h3, h4, h5, h6, h7, h8, h9⟩ := h
  refine ⟨h1, h2, h3, h4, h5, by grind, h7, h8, fun p => invP_of (h9 p) rfl id id ?_⟩
  intro t ht
  simp only [Ago] at ht ⊢
  revert ht
  cases σ.pc <;> simp
  · omega
  · split <;> omega

theorem inv_step {e : Ev} (h : Inv K σ) (hs : step K σ e = some σ') : Inv K σ' := by
  unfold step at hs
  split at hs
  · cases hs
  cases e with
  | change p => cases hs; exact inv_change h
  | nudge => exact inv_nudge h hs
  | spur =>
    obtain ⟨h1, h2, h3, h4, h5, h6, h7, h8, h9⟩ := h
    simp only at hs
    (repeat' split at hs) <;> cases hs
    all_goals
      refine ⟨h1, h2, by grind, by grind, by grind, by grind, by grind, by grind,
        fun p => invP_of (h9 p) rfl (by grind) ?_ ?_⟩
      · simp only [Pend]; grind
      · intro t ht
        simp only [Ago] at ht ⊢
        grind
  | tick n => cases hs; exact inv_tick h
  | timeout => exact inv_timeout h hs
  | wake bad => exact inv_wake h hs
  | poll p r =>
    simp only [Option.map_eq_some_iff] at hs
    obtain ⟨x, hx, rfl⟩ := hs
    exact inv_poll h hx
  | stop =>
    cases hs
    obtain ⟨h1, h2, h3, h4, h5, h6, h7, h8, h9⟩ := h
    refine ⟨h1, h2, h3, h4, h5, h6, by grind, h8, fun p => invP_of (h9 p) rfl id ?_ (fun _ h => h)⟩
    simp only [Pend]; grind
  | close q =>
    simp only at hs
    split at hs
    · rename_i hpc
      cases hs
      obtain ⟨h1, h2, h3, h4, h5, h6, h7, h8, h9⟩ := h
      refine ⟨h1, h2, h3, h4, h5, h6, h7, h8, fun p => ?_⟩
      by_cases e : p = q
      · subst e
        obtain ⟨g1, g2, g3, g4, g5, g6, g7, g8, g9, g10, g11⟩ := h9 p
        constructor <;> simp only [upd, if_pos] <;> first | assumption | grind
      · exact invP_of (h9 p) (by simp [upd, e]) id id (fun _ h => h)
    · cases hs
  | cease q =>
    simp only at hs
    split at hs
    · rename_i hc
      cases hs
      obtain ⟨h1, h2, h3, h4, h5, h6, h7, h8, h9⟩ := h
      refine ⟨h1, h2, h3, h4, h5, h6, h7, h8, fun p => ?_⟩
      by_cases e : p = q
      · subst e
        obtain ⟨g1, g2, g3, g4, g5, g6, g7, g8, g9, g10, g11⟩ := h9 p
        constructor <;> simp only [upd, if_pos] <;> first | assumption | grind
      · exact invP_of (h9 p) (by simp [upd, e]) id id (fun _ h => h)
    · cases hs

theorem inv_reach (h : Reach K σ) : Inv K σ := by
  induction h with
  | init => exact inv_init K
  | step e _ hs ih => exact inv_step ih hs

theorem ended_ts (h : Reach K σ) : σ.pc = .ended → σ.ts = true := by
  induction h with
  | init => simp [init]
  | step e _ hs ih =>
    unfold step at hs
    split at hs
    · cases hs
    cases e <;> simp only [nudge, timeout, wake, write, Option.map_eq_some_iff] at hs <;>
      (repeat' split at hs) <;> grind

end Verif.Wake
