import Verif.Dtimer.Props

/-!
# Concrete cases for C88
-/

namespace Verif.Dtimer

/-- An active connection: connect, a timeout, an answer; the handshake goes on. -/
def exH : List Ev :=
  [.recv (.step false true false true) true, .fire false true true, .take 0, .mode true false true true]

/-- Case for `C88_retransmitted_partial` and `C88_one_partial`. -/
example : Lucky exH ∧ Calm exH ∧ (run exH).rdc = .connecting ∧ (run exH).wants = true ∧ (run exH).ttp = some 1 ∧
    (run exH).queue = [1] := by
  refine ⟨⟨.inl rfl, rfl, trivial⟩, ⟨.inr (.inr (by decide)), trivial⟩, by decide⟩

/-- The passive side may fail to allocate: it is dead then. -/
example : Lucky [.recv (.step false true false true) false] ∧
    (run [.recv (.step false true false true) false]).rdc = .dead := ⟨⟨.inr (by decide), trivial⟩, by decide⟩

/-- The handshake is over: up, and no timer. -/
example : (run (.recv (.step false false true true) true :: exH)).rdc = .up ∧
    (run (.recv (.step false false true true) true :: exH)).queue = [] := by decide

/-- Case for `C88_after`: the task has been taken when the connection is ended. -/
example : (run (.bye :: .take 1 :: exH)).flight = some 1 ∧ refs (run (.bye :: .take 1 :: exH)) = 1 ∧
    refs (run (.fire false true true :: .bye :: .take 1 :: exH)) = 0 := by decide

end Verif.Dtimer
