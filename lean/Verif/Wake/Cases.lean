import Verif.Wake.Counter

/-! Concrete cases for C67. -/

namespace Verif.Wake

def K0 : Par := ⟨10, 2⟩

/-- Two changes, each with a request; the second request comes too early and has to wait. -/
def busy : List Ev :=
  quiet ++ [.change false, .change true, .nudge, .wake false, .wake false, .wake false, .wake false,
    .poll true true, .poll false true, .change false, .tick 3, .nudge, .wake false]

def σ0 : St := (run K0 init busy).getD init

example : (run K0 init busy).isSome = true ∧ σ0.pc = .top ∧ σ0.at_ = some 10 ∧ σ0.ts = false ∧
    (σ0.P false).cov = 2 ∧ (σ0.P false).seen = 0 := by decide

theorem σ0_reach : Reach K0 σ0 := by
  have : run K0 init busy = some σ0 := by
    unfold σ0
    cases h : run K0 init busy with
    | none => have : (run K0 init busy).isSome = true := by decide
              rw [h] at this; cases this
    | some σ => rfl
  exact reach_run .init this

theorem σ0_up : Up σ0 := by
  refine ⟨by decide, by decide, ?_⟩
  intro p; cases p <;> decide

/-- C67_delivered_partial. -/
example : ∃ es σ', (∀ e ∈ es, e.idle) ∧ run K0 σ0 es = some σ' ∧ Still K0 σ' ∧ ∀ p, Noticed σ' p :=
  C67_delivered_partial σ0_reach σ0_up (by decide) (by decide)

/-- C67_settles_partial, C67_rate: a run to the end. -/
def settle : List Ev :=
  [.wake false, .tick 9, .timeout, .wake false, .wake false, .wake false, .poll false true,
   .poll false true, .poll false true, .poll false true, .poll false true, .poll false true, .poll false true, .poll true true,
   .poll true true, .poll true true, .poll true true, .poll true true, .poll true true, .poll true true]

example : ∃ σ, run K0 σ0 settle = some σ ∧ (σ.P false).log = [12, 0] ∧ left σ = 2 ∧
    settle.countP Ev.inner ≤ left σ0 ∧ (σ.P false).seen = 2 ∧ σ.pc = .wait false := by
  refine ⟨_, rfl, ?_⟩
  decide

/-- C67_soon. -/
example : 10 ≤ σ0.clk + K0.ival := C67_soon σ0_reach (by decide)

/-- C67_stops, C67_ends. -/
def ending : List Ev :=
  quiet ++ [.nudge, .wake false, .wake false, .wake false, .stop, .nudge, .wake false, .wake false,
    .poll true true, .poll true true, .poll true true, .poll true true, .poll false true,
    .poll false true, .poll false true, .poll false true]

example : ∃ σ, run K0 init ending = some σ ∧ σ.fin = true ∧ σ.pc = .ended ∧
    (∀ p, (σ.P p).closed = false) := by
  refine ⟨_, rfl, by decide, by decide, ?_⟩
  intro p; cases p <;> decide

example : ∃ σ, run K0 init (ending ++ [.close true, .change true, .cease true, .poll true true,
    .poll true true, .poll true true, .poll true true]) = some σ ∧ (σ.P true).pc = .ended ∧
    (σ.P true).seen = 1 := by
  refine ⟨_, rfl, ?_⟩
  decide

end Verif.Wake
