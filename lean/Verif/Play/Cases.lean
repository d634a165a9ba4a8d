import Verif.Play.Props
import Verif.Play.Counter

/-! Concrete cases that meet the hypotheses of the theorems of C65. -/

namespace Verif.Play

/-- Two streams are played to, one of them waits for its party, which turns up later; one prompt is
stopped, the other ends, the sessions are deleted. -/
def story : List Ev :=
  [.addr 0 true, .play 0, .cmd, .open (some true), .regT true,
   .play 1, .cmd, .open (some true), .regT true,
   .plr .go, .plr .go, .plr (.send 0), .plr .go, .plr .later, .plr .go,
   .addr 1 true, .moved 1, .plr .go, .plr .go, .plr (.send 1), .plr .go, .plr .eof, .plr .go,
   .plr .go, .plr .later, .plr .go, .noplay 0, .cmd, .cmd, .cmd]

/-- C65_stopped_partial: the last step of NOPLAY. -/
example : Silent (run init (story ++ [.cmd])) 0 := by
  have hr : Reach (run init story) := reach_run .init (by decide +kernel)
  obtain ⟨σ', hs⟩ : ∃ σ', step (run init story) .cmd = some σ' :=
    Option.isSome_iff_exists.mp (by decide +kernel)
  have hc : (run init story).cmd = .npC 0 0 false := by decide +kernel
  have he : run init (story ++ [.cmd]) = σ' := by
    have : ∀ (es : List Ev) (σ : St), run σ (es ++ [.cmd]) = (step (run σ es) .cmd).getD (run σ es) := by
      intro es
      induction es with
      | nil => intro σ; rfl
      | cons e es ih => intro σ; exact ih _
    rw [this, hs]; rfl
  rw [he]
  have h2 : ¬ σ'.cmd.stopping 0 := by
    have : σ'.cmd = .idle := by rw [← he]; decide +kernel
    rw [this]; exact id
  exact C65_stopped_partial hr (okB_ok (by decide +kernel)) hs (by rw [hc]; rfl) h2

/-- C65_agrees_partial, both ways: stream 0 is played to. -/
def both : List Ev := story.take 17

example : Reach (run init both) := reach_run .init (by decide +kernel)
example : (run init both).act = [(1, 1), (0, 0)] := by decide +kernel
example : Settled (run init both) 1 := by
  refine ⟨by decide +kernel, by decide +kernel, fun u k h => ?_⟩
  have : (run init both).cmd = .idle := by decide +kernel
  rw [this] at h; cases h
/-- C65_one_partial: two streams, two players. -/
example : Playing (run init both) 1 1 ∧ Playing (run init both) 0 0 := by
  have hp : (run init both).plr = .top := by decide +kernel
  refine ⟨⟨.inl (by decide +kernel), ?_⟩, ⟨.inl (by decide +kernel), ?_⟩⟩ <;>
  · intro r h
    rw [hp] at h; cases h

/-- C65_started_partial: sendable and not. -/
example : (run init (story.take 4)).cmd = .plR 0 0 ∧
    (step (run init (story.take 4)) (.regT true)).isSome = true := by decide +kernel
example : (run init (story.take 8)).cmd = .plR 1 1 ∧
    (step (run init (story.take 8)) (.regT true)).isSome = true := by decide +kernel

/-- C65_waiting_partial. -/
example : (run init (story.take 9)).ina = [(1, 1)] ∧ okRun init (story.take 9) = true := by
  decide +kernel

/-- C65_gone_partial: the session is deleted while its prompt is played. -/
example : ((run init (both ++ [.unregS 1, .release 1, .dtor 1, .dtor 1])).st 1).dt = 3 ∧
    (run init (both ++ [.unregS 1, .release 1, .dtor 1, .dtor 1])).act = [(0, 0)] ∧
    okRun init (both ++ [.unregS 1, .release 1, .dtor 1, .dtor 1]) = true := by decide +kernel

/-- C65_progress_partial: the player thread in the middle of a callback. -/
example : (run init (both ++ [.plr .go, .plr .go])).plr = .body 1 1 [(0, 0)] ∧
    okRun init (both ++ [.plr .go, .plr .go]) = true := by decide +kernel

/-- C65_silent_stays_partial: after NOPLAY, with things going on elsewhere. -/
example : NoPlay 0 (run init (story ++ [.cmd]))
    (run (run init (story ++ [.cmd])) [.addr 0 false, .play 1, .cmd]) := by
  refine .step .cmd (.step (.play 1) (.step (.addr 0 false) .refl trivial (by decide) rfl)
    trivial (by decide) rfl) (okB_ok (by decide +kernel)) (by decide) rfl

/-- C65_awake_partial: a player that becomes active in time. -/
example : Calm (run init [.addr 0 true, .play 0, .cmd, .open (some true), .plr .go, .plr .go,
    .regT true]) := by
  refine .step (.regT true) (.step (.plr .go) (.step (.plr .go) (.step (.open (some true))
    (.step .cmd (.step (.play 0) (.step (.addr 0 true) .init ?_ rfl) ?_ rfl) ?_ rfl)
    ?_ rfl) ?_ rfl) ?_ rfl) ?_ rfl <;> intro h <;> first | cases h; done | skip
  all_goals exact ⟨by decide, by simp⟩

/-- C65_held_back. -/
example : ((run init both).st 1).drops = 1 ∧ ((run init both).st 0).drops = 1 := by decide +kernel

end Verif.Play
