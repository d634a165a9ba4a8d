import Verif.Copy.Props
import Verif.Copy.Sys

/-! C66: what is not the case. -/

namespace Verif.Copy

/-- Everyone can be sent to, and the other processors let everything pass. -/
def open_ : World := { snd := fun _ => true, oth := fun _ _ => .pass }

/-- Sessions 0 and 1 are copied to each other, and session 2 to session 0. -/
def looped : List Op :=
  [.copy ⟨0, 0, false, 1, false⟩ .no, .copy ⟨1, 1, false, 0, false⟩ .no,
   .copy ⟨2, 2, false, 0, false⟩ .no]

/-- The same copy, asked for twice. -/
def twice : List Op := [.copy ⟨0, 0, false, 1, false⟩ .no, .copy ⟨1, 0, false, 1, false⟩ .no]

/-- C66. Copies that lead back are not refused: two sessions copied to each other, and a third one
copied to one of them. What the parties of the two send is stopped at once, but a packet of the
third, or one of a prompt played in one of them (rtpp_proc_servers.c:144), goes round between them
for ever, whatever the depth of the stack. -/
theorem C66_terminates_counterexample (d : Nat) (o : Strm) :
    (run init looped).ab = false ∧
      handleat open_ (run init looped).m d ⟨2, false, false⟩ o 0 = none ∧
      handleat open_ (run init looped).m d ⟨0, false, true⟩ o (ordPlay + 1) = none := by
  refine ⟨by decide, ?_⟩
  have hround : ∀ (d : Nat) (y o : Strm) (st : Nat),
      (y = ⟨0, false, true⟩ ∨ y = ⟨1, false, false⟩) → 8 ≤ st → st ≤ 8 →
      handleat open_ (run init looped).m d y o st = none := by
    intro d
    induction d with
    | zero => intros; rfl
    | succ d ih =>
      intro y o st hy h1 h2
      have : st = 8 := by omega
      subst this
      rcases hy with e | e <;> subst e
      · rw [handleat]
        have := ih ⟨1, false, false⟩ ⟨1, false, true⟩ 8 (.inr rfl) h1 h2
        have hm : (run init looped).m ⟨0, false, true⟩ =
            [⟨7, .fwd 1 false true true, .stop⟩, ⟨7, .fwd 2 false true true, .stop⟩,
             ⟨8, .ext 0, .other 0⟩,
             ⟨8, .fwd 0 false true false, .copy ⟨1, false, false⟩ ⟨1, false, true⟩⟩,
             ⟨12, .ext 1, .relay⟩] := by decide
        rw [hm]
        simp [loop, open_, ordPlay] at this ⊢
        simp [this]
      · rw [handleat]
        have := ih ⟨0, false, true⟩ ⟨0, false, false⟩ 8 (.inl rfl) h1 h2
        have hm : (run init looped).m ⟨1, false, false⟩ =
            [⟨7, .fwd 0 false false true, .stop⟩, ⟨8, .ext 0, .other 0⟩,
             ⟨8, .fwd 1 false false false, .copy ⟨0, false, true⟩ ⟨0, false, false⟩⟩,
             ⟨12, .ext 1, .relay⟩] := by decide
        rw [hm]
        simp [loop, open_, ordPlay] at this ⊢
        simp [this]
  refine ⟨?_, hround d _ _ _ (.inl rfl) (Nat.le_refl _) (Nat.le_refl _)⟩
  cases d with
  | zero => rfl
  | succ d =>
    have := hround d ⟨0, false, true⟩ ⟨0, false, false⟩ 8 (.inl rfl) (Nat.le_refl _) (Nat.le_refl _)
    have hm : (run init looped).m ⟨2, false, false⟩ =
        [⟨8, .ext 0, .other 0⟩,
         ⟨8, .fwd 2 false false false, .copy ⟨0, false, true⟩ ⟨0, false, false⟩⟩,
         ⟨12, .ext 1, .relay⟩] := by decide
    rw [handleat, hm]
    simp [loop, open_, ordPlay] at this ⊢
    simp [this]

/-- C66. A copy asked for twice is made twice: the party of the target gets every packet two times. -/
theorem C66_copied_counterexample :
    (handleat open_ (run init twice).m 5 ⟨0, false, false⟩ ⟨0, false, true⟩ 0).map
        (fun r => r.2.count (.sent ⟨1, false, false⟩)) = some 2 := by decide

end Verif.Copy
