import Verif.Wake.Props

/-! C67: what is not the case. -/

namespace Verif.Wake

theorem reach_run {K : Par} {σ σ' : St} {es : List Ev} (h : Reach K σ) (hr : run K σ es = some σ') :
    Reach K σ' := by
  induction es generalizing σ with
  | nil => cases hr; exact h
  | cons e es ih =>
    rw [run] at hr
    split at hr
    · cases hr
    · rename_i τ hτ
      exact ih (.step e h hτ) hr

/-- Both media threads wait for packets, the thread waits for a request. -/
def quiet : List Ev :=
  [.poll false true, .poll false true, .poll true true, .poll true true, .wake false]

/-- C67. The sockets of a session that is deleted are taken out of the sets without a request to look
(rtpp_session.c:300). Such a change is not noticed: everything is at rest, and the media thread has
not seen it, so the sockets stay open until something else happens. -/
theorem C67_deleted_counterexample (K : Par) :
    ∃ σ, run K init (quiet ++ [.change false, .change true]) = some σ ∧ Up σ ∧ σ.ts = false ∧
      Still K σ ∧ ∀ p, (σ.P p).seen < (σ.P p).chg := by
  refine ⟨_, rfl, ?_, rfl, ?_, ?_⟩
  · refine ⟨by simp, rfl, ?_⟩
    intro p; cases p <;> rfl
  · intro n e he
    cases e with
    | timeout => rfl
    | wake b => cases b <;> rfl
    | poll p r =>
      have : r = true := he
      subst this
      cases p <;> rfl
    | _ => cases he
  · intro p; cases p <;> decide

/-- C67. Where the deadline of the wait is refused (`C43_mtimespec_counterexample`), the thread goes
round with the mutex held: whoever asks the media threads to look again waits for ever, though
changes have been made. Only the end of the server helps. -/
theorem C67_stuck_counterexample {K : Par} (hi : 0 < K.ival) (hc : 0 < K.cap) :
    (∃ σ, run K init [.nudge, .wake false, .wake false, .wake false, .change false, .nudge, .wake false,
        .wake true] = some σ ∧ σ.pc = .stuck ∧ σ.ts = false ∧ ¬ Noticed σ false) ∧
    ∀ σ, Reach K σ → σ.pc = .stuck → σ.ts = false → step K σ .nudge = none ∧
      ∀ e σ', e ≠ .stop → step K σ e = some σ' → σ'.pc = .stuck ∧ σ'.ts = false := by
  constructor
  · simp [run, step, nudge, wake, write, init, poller0, upd, intMax, hi, hc, Noticed]
  · intro σ _ h1 h2
    constructor
    · simp [step, nudge, h1]
    · intro e σ' he hs
      unfold step at hs
      split at hs
      · cases hs
      cases e <;> simp only [nudge, timeout, wake, h1, h2, Option.map_eq_some_iff] at hs <;>
        (repeat' split at hs) <;> grind

theorem nudges {K : Par} (n : Nat) (hn : (n : Int) ≤ intMax) :
    ∃ σ, run K init (List.replicate n .nudge) = some σ ∧ σ.req = n ∧ σ.pc = .top ∧ σ.ub = false := by
  have gen : ∀ (n : Nat) (σ : St), σ.req + n ≤ intMax → σ.pc = .top → σ.ub = false →
      ∃ σ', run K σ (List.replicate n .nudge) = some σ' ∧ σ'.req = σ.req + n ∧ σ'.pc = .top ∧
        σ'.ub = false := by
    intro n
    induction n with
    | zero => intro σ _ h1 h2; exact ⟨σ, rfl, by simp, h1, h2⟩
    | succ n ih =>
      intro σ hm h1 h2
      obtain ⟨τ, hs, t1, t2, t3⟩ : ∃ τ, step K σ .nudge = some τ ∧ τ.req = σ.req + 1 ∧ τ.pc = .top ∧
          τ.ub = false := by
        unfold step
        rw [if_neg (by simp [h2])]
        simp only [nudge, h1]
        rw [if_neg (by simp), if_neg (by omega)]
        exact ⟨_, rfl, rfl, rfl, h2⟩
      obtain ⟨σ', a, b, c, d⟩ := ih τ (by omega) t2 t3
      refine ⟨σ', ?_, by omega, c, d⟩
      rw [List.replicate_succ, run, hs]
      exact a
  obtain ⟨σ, a, b, c, d⟩ := gen n init (by simpa [init] using hn) rfl rfl
  exact ⟨σ, a, by simpa [init] using b, c, d⟩

/-- C67. The requests are counted in an `int`: the 2147483648th one overflows it. -/
theorem C67_overflow_counterexample (K : Par) :
    ∃ σ, run K init (List.replicate 2147483647 .nudge) = some σ ∧ σ.ub = false ∧
      ∃ σ', step K σ .nudge = some σ' ∧ σ'.ub = true := by
  obtain ⟨σ, a, b, c, d⟩ := nudges (K := K) 2147483647 (by simp [intMax])
  refine ⟨σ, a, d, { σ with ub := true }, ?_, rfl⟩
  unfold step
  rw [if_neg (by simp [d])]
  simp only [nudge, c]
  rw [if_neg (by simp), if_pos (by rw [b]; rfl)]

end Verif.Wake
