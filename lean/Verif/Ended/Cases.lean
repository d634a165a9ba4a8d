import Verif.Ended.Props

/-!
# C82: cases
-/

namespace Verif.Ended

/-- The packets of a stream, at 10, 12 and 19. -/
example : [⟨10, 110⟩, ⟨12, 112⟩, ⟨19, 119⟩].foldl reg cnt0 = ⟨3, ⟨10, 110⟩, ⟨19, 119⟩, 7⟩ := by decide

/-- The state after a run, if it can happen. -/
def after (s : St) : List Act → Option St
  | [] => some s
  | a :: l => (step s a).bind fun s' => after s' l

theorem run_after (h l : List Act) (s s' : St) (hr : Run h s) (e : after s l = some s') : Run (h ++ l) s' := by
  induction l generalizing h s with
  | nil => cases e; simpa using hr
  | cons a l ih =>
    simp only [after] at e
    cases hs : step s a with
    | none => rw [hs] at e; cases e
    | some t =>
      rw [hs] at e
      have := ih (h ++ [a]) t (.snoc hr hs) e
      simpa using this

def rtp0 : Strm := ⟨false, false⟩

/-- Two sessions: one completed, with media from one side only, of which one packet comes while it is being taken down; and one that stands. -/
def story : List Act :=
  [.create 1 100, .complete 1, .packet 1 rtp0 ⟨101, 1⟩, .create 2 150, .packet 1 rtp0 ⟨103, 3⟩, .destroy 1 200, .packet 1 rtp0 ⟨201, 5⟩,
   .destroy 1 0, .destroy 1 0, .packet 1 rtp0 ⟨202, 6⟩, .destroy 1 0, .destroy 1 0, .destroy 1 0, .destroy 1 0, .destroy 1 0, .destroy 1 0, .destroy 1 0]

example : (after st0 story).map (fun s => [s.created, s.completed, s.destroyed, s.nortp, s.owrtp, s.nortcp, s.owrtcp]) =
    some [2, 1, 1, 0, 1, 1, 0] := by decide
example : (after st0 story).map (fun s => (s.duration, s.recs.map fun r => r.cnt rtp0)) =
    some (100, [⟨3, ⟨101, 1⟩, ⟨201, 5⟩, 98⟩]) := by decide

/-- The run meets the conditions of the theorems. -/
example : ∃ s, Run story s ∧ Clock story ∧ (∀ id x, s.sess id = some x → x.pc = none) ∧ s.recs.length = 1 := by
  obtain ⟨s, hs⟩ : ∃ s, after st0 story = some s := by
    cases h : after st0 story with
    | none => exact absurd h (by intro h; cases h)
    | some s => exact ⟨s, rfl⟩
  have hp : (after st0 story).map (fun s => (s.ids, s.ids.map fun id => (s.sess id).map (·.pc), s.recs.length)) =
      some ([2, 1], [some none, none], 1) := by decide
  rw [hs] at hp
  simp only [Option.map_some, Option.some.injEq, Prod.mk.injEq] at hp
  have hr := run_after [] story st0 s .nil hs
  refine ⟨s, hr, ?_, ?_, hp.2.2⟩
  · intro id k t ht
    simp [story] at ht
    rcases ht with ⟨_, _, rfl⟩ | ⟨_, _, rfl⟩ | ⟨_, _, rfl⟩ | ⟨_, _, rfl⟩ <;> decide
  · intro id x hx
    have hid : id ∈ s.ids := by
      by_contra hn
      rw [((run_inv hr).given id hn).1] at hx; cases hx
    rw [hp.1] at hid
    have h2 := hp.2.1
    rw [hp.1] at h2
    simp at h2
    simp at hid
    rcases hid with rfl | rfl
    · obtain ⟨a, ha, hb⟩ := h2.1
      rw [hx] at ha
      cases ha
      exact hb
    · rw [h2.2] at hx; cases hx

end Verif.Ended
