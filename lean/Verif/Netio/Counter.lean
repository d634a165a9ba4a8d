import Verif.Netio.Props

/-! # C71: what goes wrong at the end -/

namespace Verif.Netio

def ends (d : Bool) (es : List Ev) (P : St → Bool) : Bool :=
  match run (init d) es with
  | some (.ok st) => P st
  | _ => false

theorem ends_spec {d : Bool} {es : List Ev} {P : St → Bool} (h : ends d es P = true) :
    ∃ st, run (init d) es = some (.ok st) ∧ P st = true := by
  simp only [ends] at h
  split at h
  next st hs => exact ⟨st, hs, h⟩
  · cases h

/-- A packet is handed over right after the order to stop, and the thread takes both at once. -/
def behind : List Ev :=
  [.sopen 7 false, .onew [1, 2], .stop, .hand 0 0 0 true, .sput 0, .take, .go .ok, .destroy]

/-- An item that the thread has taken together with the order to stop is neither sent nor released: the
packet is not freed and its socket stays open for good, though nobody else knows of them, and the
queue is gone. -/
theorem C71_lost_counterexample : ∃ st, run (init false) behind = some (.ok st) ∧ st.gone = true ∧ st.log = [] ∧
    pending st = [] ∧ (∃ o, st.objs[0]? = some o ∧ o.ext = 0 ∧ o.refs = 1) ∧
    (∃ k, st.socks[0]? = some k ∧ k.ext = 0 ∧ k.refs = 1) ∧ st.fdt 7 = some 0 := by
  obtain ⟨st, h, hp⟩ := ends_spec (d := false) (es := behind) (P := fun st => decide (st.gone = true ∧ st.log = [] ∧
    pending st = [] ∧ st.objs[0]? = some (⟨[1, 2], 1, 0, [0]⟩ : Obj) ∧ st.socks[0]? = some (⟨7, 1, 0, false⟩ : Sock) ∧ st.fdt 7 = some 0))
    (by decide +kernel)
  obtain ⟨h1, h2, h3, h4, h5, h6⟩ := of_decide_eq_true hp
  exact ⟨st, h, h1, h2, h3, ⟨_, h4, rfl, rfl⟩, ⟨_, h5, rfl, rfl⟩, h6⟩

/-- Handed over a bit later, the same packet is released, unsent. -/
example : ends false [.sopen 7 false, .onew [1, 2], .stop, .take, .hand 0 0 0 true, .sput 0, .go .ok, .destroy, .destroy]
    (fun st => decide (st.gone = true ∧ st.log = [] ∧ st.fdt 7 = none)) = true := by decide +kernel

end Verif.Netio
