import Verif.Wake.Spec

/-! The invariant of C67. -/

namespace Verif.Wake

/-- The thread will write to the socket of `p`. -/
def Pend (σ : St) (p : Bool) : Prop :=
  σ.pc = .ended ∨ σ.pc = .stuck ∨ σ.ts = true ∨ σ.pc = .w1 ∨ (σ.pc = .w2 ∧ p = true) ∨
    σ.loc ≠ σ.req ∨ (σ.at_ ≠ none ∧ (σ.pc = .top ∨ ∃ s, σ.pc = .waitT s))

/-- The latest write to the socket of `p`, if any, was that long ago. -/
def Ago (K : Par) (σ : St) (p : Bool) (t : Nat) : Prop :=
  match σ.pc with
  | .w1 => t + K.ival ≤ σ.clk
  | .w2 => if p then t + K.ival ≤ σ.clk else t ≤ σ.clk
  | _ => ∃ l, σ.last = some l ∧ t ≤ l

structure InvP (K : Par) (σ : St) (p : Bool) : Prop where
  closed : (σ.P p).closed = true → σ.pc = .ended
  ceased : (σ.P p).ts = true → (σ.P p).closed = true
  sync : (σ.P p).pc = .sync true → (σ.P p).ts = true
  ended : (σ.P p).pc = .ended → (σ.P p).ts = true
  ready : (σ.P p).pc = .proc true → (σ.P p).pipe = [] → (σ.P p).closed = true
  seen : (σ.P p).seen ≤ (σ.P p).chg
  cov : (σ.P p).cov ≤ (σ.P p).chg
  noticed : (σ.P p).cov ≤ (σ.P p).seen ∨ (σ.P p).pc ≠ .poll ∨ (σ.P p).pipe ≠ [] ∨ Pend σ p
  spaced : Spaced K.ival (σ.P p).log
  ago : ∀ t, (σ.P p).log.head? = some t → Ago K σ p t
  cap : (σ.P p).pipe.length ≤ K.cap

structure Inv (K : Par) (σ : St) : Prop where
  le : σ.loc ≤ σ.req
  dlv : σ.dlv ≤ σ.req
  wait : ∀ s, σ.pc = .wait s → σ.at_ = none ∧ (s = false → σ.loc = σ.req)
  waitT : ∀ s, σ.pc = .waitT s → σ.at_ ≠ none
  at_ : ∀ t, σ.at_ = some t → ∃ l, σ.last = some l ∧ t = l + K.ival
  last : ∀ l, σ.last = some l → l ≤ σ.clk
  fin : σ.fin = true → σ.ts = true ∧ σ.pc ≠ .wait false ∧ σ.pc ≠ .waitT false
  max : σ.req ≤ intMax
  P : ∀ p, InvP K σ p

theorem spaced_cons {d t : Nat} {l : List Nat} (h : Spaced d l)
    (hh : ∀ a, l.head? = some a → a + d ≤ t) : Spaced d (t :: l) := by
  cases l with
  | nil => trivial
  | cons a l => exact ⟨hh a rfl, h⟩

theorem inv_init (K : Par) : Inv K init := by
  refine ⟨by simp [init], by simp [init], ?_, ?_, ?_, ?_, ?_, by simp [init, intMax], fun p => ?_⟩
  all_goals try (intro _ h; simp [init] at h)
  · intro h; simp [init] at h
  · constructor <;> simp [init, poller0, Spaced]

end Verif.Wake
