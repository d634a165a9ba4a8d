import Verif.Rwlock.Model
import Verif.Util.Tot

/-! Helper lemmas for C33. -/

namespace Verif.Rwlock

open Verif.Util

def ind (p : Pc) (t : Thr) : Nat := if t.pc = p then 1 else 0

/-- Number of threads at `p`. -/
def State.n (s : State) (p : Pc) : Nat := tot (ind p) s.ths

def bit (o : Option Nat) : Nat := match o with | none => 0 | some _ => 1

structure Inv (s : State) : Prop where
  nr : s.nreaders = s.n .rWait + s.n .rRel + s.n .rHold + s.n .upFail
  nw : s.nwriters = s.n .wRel + s.n .wWait + s.n .wHold + s.n .uwCnt + s.n .upOk
  c : bit s.cnt = s.n .rWait + s.n .rRel + s.n .wRel + s.n .uwRel + s.n .urWl + s.n .urRel + s.n .upFail + s.n .upOk
  w : (s.n .rRel + s.n .rHold + s.n .upFail + s.n .urWl = 0 ∧ bit s.wl = s.n .wHold + s.n .upOk) ∨
    (s.n .rRel + s.n .rHold + s.n .upFail + s.n .urWl ≠ 0 ∧ bit s.wl = s.n .wHold + s.n .upOk + 1)
  rw : s.n .rWait ≠ 0 → s.nreaders = 1
  ur : s.n .urWl ≠ 0 → s.nreaders = 0

theorem bit_none : bit none = 0 := rfl
theorem bit_some (i : Nat) : bit (some i) = 1 := rfl
theorem bit_le (o : Option Nat) : bit o ≤ 1 := by cases o <;> simp [bit]

theorem inv_init (k : Nat) : Inv (init k) := by
  have h : ∀ p, p ≠ Pc.idle → (init k).n p = 0 := by
    intro p hp
    exact tot_replicate _ _ (by simp [ind, Ne.symm hp]) _
  have e := fun p => h p
  constructor <;> (try rw [e .rWait (by simp)]) <;> (try rw [e .rRel (by simp)]) <;> (try rw [e .rHold (by simp)]) <;>
    (try rw [e .upFail (by simp)]) <;> (try rw [e .wRel (by simp)]) <;> (try rw [e .wWait (by simp)]) <;>
    (try rw [e .wHold (by simp)]) <;> (try rw [e .uwCnt (by simp)]) <;> (try rw [e .upOk (by simp)]) <;>
    (try rw [e .uwRel (by simp)]) <;> (try rw [e .urWl (by simp)]) <;> (try rw [e .urRel (by simp)]) <;> simp [init, bit]

/-- All counters after one thread moved from `p` to `q`. -/
theorem n_set {s s' : State} {i : Nat} {t t' : Thr} (h : s.ths[i]? = some t) (hs : s'.ths = s.ths.set i t') (p : Pc) :
    s'.n p + ind p t = s.n p + ind p t' := by
  unfold State.n
  rw [hs]
  exact tot_set (ind p) s.ths i t t' h

/-- The counters, with the indicators computed. -/
theorem move {s s' : State} {i : Nat} {t : Thr} {q : Pc} {r : List Bool} (h : s.ths[i]? = some t)
    (hs : s'.ths = s.ths.set i ⟨q, r⟩) (p : Pc) :
    s'.n p + (if t.pc = p then 1 else 0) = s.n p + (if q = p then 1 else 0) := n_set h hs p

theorem inv_move {s s' : State} {i : Nat} {t : Thr} {q : Pc} {r : List Bool} (hi : Inv s) (h : s.ths[i]? = some t)
    (hs : s'.ths = s.ths.set i ⟨q, r⟩)
    (H : ∀ (f g : Pc → Nat), (∀ p, g p + (if t.pc = p then 1 else 0) = f p + (if q = p then 1 else 0)) →
      (s.nreaders = f .rWait + f .rRel + f .rHold + f .upFail) →
      (s.nwriters = f .wRel + f .wWait + f .wHold + f .uwCnt + f .upOk) →
      (bit s.cnt = f .rWait + f .rRel + f .wRel + f .uwRel + f .urWl + f .urRel + f .upFail + f .upOk) →
      ((f .rRel + f .rHold + f .upFail + f .urWl = 0 ∧ bit s.wl = f .wHold + f .upOk) ∨
        (f .rRel + f .rHold + f .upFail + f .urWl ≠ 0 ∧ bit s.wl = f .wHold + f .upOk + 1)) →
      (f .rWait ≠ 0 → s.nreaders = 1) → (f .urWl ≠ 0 → s.nreaders = 0) →
      (s'.nreaders = g .rWait + g .rRel + g .rHold + g .upFail) ∧
      (s'.nwriters = g .wRel + g .wWait + g .wHold + g .uwCnt + g .upOk) ∧
      (bit s'.cnt = g .rWait + g .rRel + g .wRel + g .uwRel + g .urWl + g .urRel + g .upFail + g .upOk) ∧
      ((g .rRel + g .rHold + g .upFail + g .urWl = 0 ∧ bit s'.wl = g .wHold + g .upOk) ∨
        (g .rRel + g .rHold + g .upFail + g .urWl ≠ 0 ∧ bit s'.wl = g .wHold + g .upOk + 1)) ∧
      (g .rWait ≠ 0 → s'.nreaders = 1) ∧ (g .urWl ≠ 0 → s'.nreaders = 0)) : Inv s' := by
  obtain ⟨h1, h2, h3, h4, h5, h6⟩ := H s.n s'.n (move h hs) hi.nr hi.nw hi.c hi.w hi.rw hi.ur
  exact ⟨h1, h2, h3, h4, h5, h6⟩

/-- Expand the counter equations and finish by arithmetic. -/
macro "counters" : tactic => `(tactic| (
  intro f g e h1 h2 h3 h4 h5 h6
  have e1 := e .rWait; have e2 := e .rRel; have e3 := e .rHold; have e4 := e .upFail
  have e5 := e .wRel; have e6 := e .wWait; have e7 := e .wHold; have e8 := e .uwCnt
  have e9 := e .upOk; have e10 := e .uwRel; have e11 := e .urWl; have e12 := e .urRel
  clear e
  simp only [‹Thr.pc _ = _›, reduceCtorEq, if_true, if_false, bit_none, bit_some] at *
  refine ⟨?_, ?_, ?_, ?_, ?_, ?_⟩ <;> first | omega | simp))

theorem bit_free {o : Option Nat} (h : ¬ o ≠ none) : bit o = 0 := by
  cases o with
  | none => rfl
  | some x => exact absurd (by simp) h

set_option maxHeartbeats 2000000 in
theorem inv_step {s s' : State} {i : Nat} {a : Act} (hi : Inv s) (h : step s i a = some s') : Inv s' := by
  unfold step at h
  cases ht : s.ths[i]? with
  | none => simp [ht] at h
  | some t =>
    simp only [ht] at h
    have b1 := bit_le s.cnt
    have b2 := bit_le s.wl
    split at h <;> (try (split at h)) <;> (try (split at h)) <;> (try cases h) <;>
      (try (have hc := bit_free ‹¬ s.cnt ≠ none›)) <;> (try (have hw := bit_free ‹¬ s.wl ≠ none›)) <;>
      (try (refine inv_move hi ht rfl ?_))
    all_goals counters

theorem inv_exec : ∀ (l : List (Nat × Act)) {s s' : State}, Inv s → exec s l = some s' → Inv s'
  | [], s, s', hi, h => by simp only [exec, Option.some.injEq] at h; exact h ▸ hi
  | (i, a) :: l, s, s', hi, h => by
    simp only [exec] at h
    cases e : step s i a with
    | none => rw [e] at h; cases h
    | some s1 => rw [e] at h; exact inv_exec l (inv_step hi e) h

end Verif.Rwlock
