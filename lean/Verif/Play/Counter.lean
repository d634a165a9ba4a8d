import Verif.Play.Facts

/-! C65: what the code does not guarantee. -/

namespace Verif.Play

/-- A prompt is played to a party that cannot be sent to yet. -/
def waiting : List Ev := [.play 0, .cmd, .open (some true), .regT true]

/-- A NOPLAY command looks for the player while another thread, which has just learnt the address of
the party, moves it from one table to the other. -/
def lost : List Ev := waiting ++ [.noplay 0, .cmd, .addr 0 true, .cmd, .cmd, .moved 0]

/-- C65 without the exclusions is false: the NOPLAY command has returned, and the prompt is still
being played. -/
theorem C65_stopped_counterexample :
    ∃ es, Any (run init es) ∧ (run init es).cmd = .idle ∧ Settled (run init es) 0 ∧
      (∃ fs, es = fs ++ [.moved 0] ∧ (run init fs).cmd = .idle) ∧ Playing (run init es) 0 0 := by
  refine ⟨lost, any_run _ .init, by decide +kernel, ⟨by decide +kernel, by decide +kernel, ?_⟩,
    ⟨waiting ++ [.noplay 0, .cmd, .addr 0 true, .cmd, .cmd], rfl, by decide +kernel⟩,
    .inl (by decide +kernel), ?_⟩
  · intro u k h
    have : (run init lost).cmd = .idle := by decide +kernel
    rw [this] at h; cases h
  · intro r h
    have : (run init lost).plr = .top := by decide +kernel
    rw [this] at h; cases h

/-- The same with a PLAY command in the place of NOPLAY. -/
def twice : List Ev :=
  waiting ++ [.play 0, .cmd, .addr 0 true, .cmd, .cmd, .moved 0, .open (some true), .regT true]

/-- Two prompts are played to one stream. -/
theorem C65_one_counterexample :
    ∃ es u v, u ≠ v ∧ Playing (run init es) u 0 ∧ Playing (run init es) v 0 := by
  have hp : (run init twice).plr = .top := by decide +kernel
  refine ⟨twice, 0, 1, by decide, ⟨.inl (by decide +kernel), ?_⟩, ⟨.inl (by decide +kernel), ?_⟩⟩ <;>
  · intro r h
    rw [hp] at h; cases h

/-- The two prompts end. -/
def orphan : List Ev :=
  twice ++ [.plr .go, .plr .go, .plr .eof, .plr .go, .plr .go, .plr .eof, .plr .go, .plr .go]

/-- After that nothing is played to the stream, it has no player, and yet the media of the opposite
party is held back, whatever happens next. -/
theorem C65_held_counterexample :
    ∃ es, (run init es).cmd = .idle ∧ ((run init es).st 0).uid = none ∧
      (run init es).act = [] ∧ (run init es).ina = [] ∧
      ∀ fs, 1 ≤ ((run (run init es) fs).st 0).drops := by
  refine ⟨orphan, by decide +kernel, by decide +kernel, by decide +kernel, by decide +kernel, ?_⟩
  have ha : (run init orphan).act = [] := by decide +kernel
  have hi : (run init orphan).ina = [] := by decide +kernel
  have hc : (run init orphan).cmd = .idle := by decide +kernel
  have hl : ((run init orphan).st 0).lk = .free := by decide +kernel
  have hd : ((run init orphan).st 0).drops = 1 := by decide +kernel
  have hp : (run init orphan).plr = .top := by decide +kernel
  obtain ⟨hA, h⟩ := any_inv (any_run orphan .init)
  have h1 : CInv (fun t => if t = 0 then 1 else 0) (run init orphan) := by
    refine ⟨h.ab, h.nd, h.hand, fun s => ?_⟩
    by_cases e : s = 0
    · subst e
      rw [ha, hi, hc, hd]
      simp [cnt, npB, lkB, hl]
    · have := h.cn s
      simp only [e, if_false]
      exact this
  intro fs
  simpa using held hA h1 0 fs

/-- A PLAY command whose player cannot be registered. -/
def refused : List Ev := [.play 0, .cmd, .open (some true), .regT false]

/-- A failed PLAY leaves the stream with the number of a player that does not exist, and NOPLAY does
not clear it. -/
theorem C65_agrees_counterexample :
    ∃ es u, (run init es).cmd = .idle ∧ ((run init es).st 0).uid = some u ∧
      (run init es).act = [] ∧ (run init es).ina = [] ∧
      ((run init (es ++ [.noplay 0, .cmd, .cmd, .cmd])).cmd = .idle ∧
       ((run init (es ++ [.noplay 0, .cmd, .cmd, .cmd])).st 0).uid = some u) :=
  ⟨refused, 0, by decide +kernel, by decide +kernel, by decide +kernel, by decide +kernel,
    by decide +kernel, by decide +kernel⟩

/-- The session is deleted while its player sends: the player thread is left with the last reference
to the stream. -/
def selfLock : List Ev :=
  [.addr 0 true, .play 0, .cmd, .open (some true), .regT true, .plr .go, .plr .go, .unregS 0,
   .release 0, .plr .later, .plr .go]

/-- The player thread then waits for a mutex that it holds itself, whatever happens next. -/
theorem C65_progress_counterexample :
    ∃ es p, (run init es).plr = p ∧ p.holds = true ∧ p.due .go = true ∧
      ∀ fs, (run (run init es) fs).plr = p := by
  have hp : (run init selfLock).plr = .killA 0 none [] := by decide +kernel
  refine ⟨selfLock, .killA 0 none [], hp, rfl, rfl, fun fs => ?_⟩
  exact run_keeps (P := fun σ => σ.plr = .killA 0 none [])
    (fun σ σ' e h hs => (stuck_kill ⟨_, _, _, h⟩ e hs).trans h) fs hp

/-- The media of stream 0 is copied to stream 1. A packet of the prompt played to 0 is due when a
PLAY command for stream 1 is about to register its player. -/
def crossed : List Ev :=
  [.addr 0 true, .addr 1 true, .play 0, .cmd, .open (some true), .regT true, .plr .go, .plr .go,
   .play 1, .cmd, .open (some true), .plr (.send 1)]

/-- The player thread and the command thread then wait for each other, whatever happens next. The
execution keeps to the exclusions of the partial theorems. -/
theorem C65_deadlock_counterexample :
    ∃ es p, Reach (run init es) ∧ (run init es).plr = p ∧ p.holds = true ∧
      (run init es).cmd = .plR 1 1 ∧
      ∀ fs, (run (run init es) fs).plr = p ∧ (run (run init es) fs).cmd = .plR 1 1 := by
  have hp : (run init crossed).plr = .lock 1 0 0 [] := by decide +kernel
  have hc : (run init crossed).cmd = .plR 1 1 := by decide +kernel
  have h0 : Locked (run init crossed) 1 1 :=
    ⟨⟨0, 0, [], hp⟩, hc, by decide +kernel, by decide +kernel⟩
  refine ⟨crossed, .lock 1 0 0 [], reach_run .init (by decide +kernel), hp, rfl, hc, fun fs => ?_⟩
  have := run_keeps (P := fun σ => Locked σ 1 1 ∧ σ.plr = .lock 1 0 0 [])
    (fun σ σ' e h hs => ⟨(locked_step h.1 hs).1, (locked_step h.1 hs).2.trans h.2⟩) fs ⟨h0, hp⟩
  exact ⟨this.2, this.1.2.1⟩

/-- A player becomes active between the look of the player thread at the table and its going to
sleep. -/
def asleep : List Ev :=
  [.addr 0 true, .play 0, .cmd, .open (some true), .plr .go, .regT true, .plr .go]

/-- The player thread sleeps though there is a player, until another one becomes active. -/
theorem C65_awake_counterexample :
    ∃ es, Reach (run init es) ∧ (run init es).act ≠ [] ∧ (run init es).plr = .wait ∧
      ∀ fs, (∀ e ∈ fs, e ≠ .regT true ∧ ∀ s, e ≠ .moved s) →
        (run (run init es) fs).plr = .wait := by
  refine ⟨asleep, reach_run .init (by decide +kernel), by decide +kernel, by decide +kernel, ?_⟩
  · have hw : (run init asleep).plr = .wait := by decide +kernel
    generalize run init asleep = σ at hw
    intro fs
    induction fs generalizing σ with
    | nil => intro _; exact hw
    | cons e fs ih =>
      intro he
      have hh := he e (List.mem_cons_self ..)
      have ht : ∀ e ∈ fs, e ≠ .regT true ∧ ∀ s, e ≠ .moved s :=
        fun x hx => he x (List.mem_cons_of_mem _ hx)
      rw [run]
      cases hs : step σ e with
      | none => exact ih _ hw ht
      | some σ' => exact ih _ (asleep_step hw hh.1 hh.2 hs) ht

end Verif.Play
