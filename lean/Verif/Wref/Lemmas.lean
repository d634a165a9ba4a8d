import Verif.Wref.Model
import Verif.Util.Tot

/-! Helper lemmas for C05. -/

namespace Verif.Wref

open Verif.Util

/-- The thread is inside `getref`. -/
def Pc.isGet : Pc → Bool
  | .gUndo => true
  | .gTry => true
  | .gTryUndo => true
  | .gOk => true
  | .gFail => true
  | _ => false

/-- Number of references to the target owned by all threads. -/
def refs (s : State) : Nat := (s.ths.map (·.held)).sum

/-- Number of successful `getref` calls so far. -/
def successes (s : State) : Nat := (s.ths.map (fun t => t.res.count true)).sum

/-- Readers do not overlap: `getref` starts only when no thread is inside `getref`. -/
def Serial (s : State) (a : Act) : Prop :=
  a = .getref → s.ths.all (fun t => !t.pc.isGet) = true

instance (s : State) (a : Act) : Decidable (Serial s a) := by
  unfold Serial; infer_instance

def SerialRun (s : State) : List (Nat × Act) → Prop
  | [] => True
  | (i, a) :: rest => Serial s a ∧ ∀ s', step s i a = some s' → SerialRun s' rest

instance decSerialRun : (s : State) → (l : List (Nat × Act)) → Decidable (SerialRun s l)
  | _, [] => isTrue trivial
  | s, (i, a) :: rest => by
    unfold SerialRun
    have : Decidable (∀ s', step s i a = some s' → SerialRun s' rest) :=
      match h : step s i a with
      | none => isTrue (fun s' hs => by cases hs)
      | some s'' =>
        match decSerialRun s'' rest with
        | isTrue hr => isTrue (fun s' hs => by cases hs; exact hr)
        | isFalse hr => isFalse (fun hf => hr (hf s'' rfl))
    exact instDecidableAnd

def fH (t : Thr) : Nat := t.held
def fG (t : Thr) : Nat := if t.pc.isGet then 1 else 0
def fTU (t : Thr) : Nat := match t.pc with | .gTryUndo => 1 | _ => 0
def fO (t : Thr) : Nat := match t.pc with
  | .gUndo => 1 | .gTry => 1 | .gOk => 1 | .gFail => 1 | _ => 0
def fD (t : Thr) : Nat := match t.pc with | .dInval => 1 | .dFree => 1 | _ => 0
def fS (t : Thr) : Nat := t.res.count true

def PcOk (s : State) (t : Thr) : Prop :=
  match t.pc with
  | .idle => True
  | .gUndo => s.invDone = true
  | .gTry => s.invDone = false
  | .gTryUndo => s.invDone = false ∧ s.dead = true
  | .gOk => 0 < t.held
  | .gFail => True
  | .dInval => s.dead = true ∧ s.invDone = false ∧ s.freed = false
  | .dFree => s.dead = true ∧ s.invDone = true ∧ s.freed = false

structure Inv (s : State) : Prop where
  ub : s.ub = false
  one : tot fG s.ths ≤ 1
  wc : s.wcnt = (if s.invDone then 0 else 1) + (tot fG s.ths : Int)
  freedInv : s.freed = true → s.invDone = true
  invDead : s.invDone = true → s.dead = true
  alive : s.dead = false → 1 ≤ tot fH s.ths ∧ s.cnt = (tot fH s.ths : Int) - 1 ∧
    tot fTU s.ths = 0 ∧ tot fD s.ths = 0
  deadI : s.dead = true → tot fH s.ths = 0 ∧ s.cnt = (tot fTU s.ths : Int) - 1 ∧
    tot fD s.ths ≤ 1
  pc : ∀ (j : Nat) (u : Thr), s.ths[j]? = some u → PcOk s u

theorem inv_init (h k : Nat) : Inv (init h k) := by
  have hc : ∀ (f : Thr → Nat), f ⟨0, .idle, []⟩ = 0 →
      tot f (init h k).ths = f ⟨h + 1, .idle, []⟩ := by
    intro f hf
    have := tot_replicate f _ hf k
    simp only [init, tot_cons]
    omega
  have h1 := hc fH rfl
  have h2 := hc fG rfl
  have h3 := hc fTU rfl
  have h4 := hc fD rfl
  simp only [fH, fG, fTU, fD, Pc.isGet, Bool.false_eq_true, if_false] at h1 h2 h3 h4
  constructor
  · rfl
  · omega
  · rw [h2]; rfl
  · intro h; cases h
  · intro h; cases h
  · intro _; rw [h1, h3, h4]; simp [init]
  · intro h; cases h
  · intro j u hu
    have := List.mem_of_getElem? hu
    simp only [init, List.mem_cons, List.mem_replicate] at this
    rcases this with rfl | ⟨_, rfl⟩ <;> simp [PcOk]

theorem sums {s : State} {i : Nat} {t : Thr} (t' : Thr) (h : s.ths[i]? = some t) :
    tot fH (s.ths.set i t') + t.held = tot fH s.ths + t'.held ∧
    tot fG (s.ths.set i t') + fG t = tot fG s.ths + fG t' ∧
    tot fTU (s.ths.set i t') + fTU t = tot fTU s.ths + fTU t' ∧
    tot fD (s.ths.set i t') + fD t = tot fD s.ths + fD t' :=
  ⟨tot_set fH _ _ _ _ h, tot_set fG _ _ _ _ h, tot_set fTU _ _ _ _ h, tot_set fD _ _ _ _ h⟩

theorem sums2 {s : State} {i j : Nat} {t u : Thr} (hne : j ≠ i) (h : s.ths[i]? = some t)
    (hu : s.ths[j]? = some u) :
    t.held + u.held ≤ tot fH s.ths ∧ fG t + fG u ≤ tot fG s.ths ∧
    fTU t + fTU u ≤ tot fTU s.ths ∧ fD t + fD u ≤ tot fD s.ths :=
  ⟨tot_two fH _ _ _ _ _ (Ne.symm hne) h hu, tot_two fG _ _ _ _ _ (Ne.symm hne) h hu,
    tot_two fTU _ _ _ _ _ (Ne.symm hne) h hu, tot_two fD _ _ _ _ _ (Ne.symm hne) h hu⟩

theorem split_get (t : Thr) : fTU t + fO t = fG t := by
  obtain ⟨h, p, r⟩ := t
  cases p <;> rfl

set_option hygiene false in
macro "wstep" t':term : tactic => `(tactic| (
  simp only [Option.some.injEq] at hst
  subst hst
  simp only [PcOk] at htok
  have hS := sums (t' := $t') ht
  have hg1 := tot_ge fG _ _ _ ht
  have hg2 := tot_ge fTU _ _ _ ht
  have hg3 := tot_ge fD _ _ _ ht
  have hg4 := tot_ge fH _ _ _ ht
  have hg5 := tot_ge fO _ _ _ ht
  simp only [fO, fG, fTU, fD, fH, Pc.isGet, Bool.false_eq_true, if_false, if_true, Nat.add_zero]
    at hS hg1 hg2 hg3 hg4 hg5
  rcases hdd : s.dead with _ | _ <;> rcases hvv : s.invDone with _ | _ <;>
    rcases hff : s.freed with _ | _ <;>
    simp only [hdd, hvv, hff, forall_const, reduceCtorEq, false_imp_iff, true_and, and_true,
      and_false, false_and, Bool.false_eq_true, if_true, if_false] at hA hD htok hW hFI hID
  all_goals (
    refine ⟨?_, ?_, ?_, ?_, ?_, ?_, ?_, ?_⟩
    · simp only [hff, hub] <;> grind
    · simp only <;> omega
    · simp only [hvv] <;> grind
    · simp only [hvv, hff] <;> grind
    · simp only [hvv, hdd] <;> grind
    · simp only [hdd] <;> grind
    · simp only [hdd] <;> grind
    · intro j u hu
      have hu' : (s.ths.set i $t')[j]? = some u := hu
      clear hu
      rcases get_set hu' with ⟨_, rfl⟩ | ⟨hne, hu2⟩
      · simp only [PcOk, hdd, hvv, hff] <;> grind
      · have h2 := sums2 hne ht hu2
        have h3 := hi.pc j u hu2
        obtain ⟨uh, up, ur⟩ := u
        cases up <;> simp only [PcOk, fG, fTU, fD, Pc.isGet, Bool.false_eq_true, if_false,
          if_true, hdd, hvv, hff] at h2 h3 ⊢ <;> first | done | omega | grind)))

theorem inv_step {s s' : State} {i : Nat} {a : Act} (hi : Inv s) (hser : Serial s a)
    (hst : step s i a = some s') : Inv s' := by
  unfold step at hst
  cases ht : s.ths[i]? with
  | none => rw [ht] at hst; cases hst
  | some t =>
    rw [ht] at hst
    simp only at hst
    have htok := hi.pc i t ht
    obtain ⟨held, pc, res⟩ := t
    have hA := hi.alive
    have hD := hi.deadI
    have hW := hi.wc
    have hFI := hi.freedInv
    have hID := hi.invDead
    have hub := hi.ub
    have h1 := hi.one
    have hTG := tot_add fTU fO fG split_get s.ths
    cases pc with
    | idle =>
      cases a with
      | getref =>
        have hz : tot fG s.ths = 0 := by
          have := hser rfl
          rw [List.all_eq_true] at this
          apply tot_zero
          intro u hu
          have := this u hu
          simp only [fG]
          simp at this
          simp [this]
        by_cases hw : s.wcnt = 0
        · simp only [hw, if_true] at hst
          wstep ⟨held, .gUndo, res⟩
        · simp only [hw, if_false] at hst
          wstep ⟨held, .gTry, res⟩
      | incref =>
        simp only at hst
        split at hst
        · cases hst
        · wstep ⟨held + 1, .idle, res⟩
      | decref =>
        simp only at hst
        split at hst
        · cases hst
        · split at hst
          · wstep ⟨held - 1, .dInval, res⟩
          · wstep ⟨held - 1, .idle, res⟩
      | _ => cases hst
    | gUndo =>
      cases a with
      | cont => wstep ⟨held, .idle, false :: res⟩
      | _ => cases hst
    | gTry =>
      cases a with
      | cont =>
        simp only at hst
        split at hst
        · wstep ⟨held, .gTryUndo, res⟩
        · wstep ⟨held + 1, .gOk, res⟩
      | _ => cases hst
    | gTryUndo =>
      cases a with
      | cont => wstep ⟨held, .gFail, res⟩
      | _ => cases hst
    | gOk =>
      cases a with
      | cont => wstep ⟨held, .idle, true :: res⟩
      | _ => cases hst
    | gFail =>
      cases a with
      | cont => wstep ⟨held, .idle, false :: res⟩
      | _ => cases hst
    | dInval =>
      cases a with
      | cont =>
        simp only at hst
        split at hst
        · wstep ⟨held, .dFree, res⟩
        · cases hst; exact hi
      | spurious => cases hst; exact hi
      | _ => cases hst
    | dFree =>
      cases a with
      | cont => wstep ⟨held, .idle, res⟩
      | _ => cases hst

theorem inv_exec {s' : State} : ∀ (sched : List (Nat × Act)) (s : State), Inv s →
    SerialRun s sched → exec s sched = some s' → Inv s'
  | [], _, hi, _, hx => by cases hx; exact hi
  | (i, a) :: rest, s, hi, hal, hx => by
    unfold exec at hx
    cases hst : step s i a with
    | none => rw [hst] at hx; cases hx
    | some s1 =>
      rw [hst] at hx
      exact inv_exec rest s1 (inv_step hi hal.1 hst) (hal.2 s1 hst) hx

/-- Once invalidated, a step neither revokes the invalidation nor completes a successful
`getref`. -/
theorem after_step {s s' : State} {i : Nat} {a : Act} (hi : Inv s) (hv : s.invDone = true)
    (hst : step s i a = some s') : s'.invDone = true ∧ successes s' = successes s := by
  have hsum : ∀ (t t' : Thr), s.ths[i]? = some t → t'.res.count true = t.res.count true →
      tot fS (s.ths.set i t') = tot fS s.ths := by
    intro t t' ht hc
    have := tot_set fS _ _ t t' ht
    simp only [fS] at this
    rw [hc] at this
    exact Nat.add_right_cancel this
  unfold step at hst
  cases ht : s.ths[i]? with
  | none => rw [ht] at hst; cases hst
  | some t =>
    rw [ht] at hst
    simp only at hst
    have htok := hi.pc i t ht
    have hg4 := tot_ge fH _ _ _ ht
    obtain ⟨held, pc, res⟩ := t
    have hD := hi.deadI (hi.invDead hv)
    cases pc <;> cases a <;> simp only [reduceCtorEq] at hst
    case gOk.cont =>
      simp only [PcOk] at htok
      simp only [fH] at hg4
      omega
    all_goals first
      | (cases hst; exact ⟨hv, rfl⟩)
      | (cases hst; exact ⟨hv, hsum _ _ ht (by simp)⟩)
      | (cases hst; exact ⟨rfl, hsum _ _ ht (by simp)⟩)
      | (split at hst
         · first
            | (cases hst; done)
            | (cases hst; exact ⟨hv, hsum _ _ ht (by simp)⟩)
            | (cases hst; exact ⟨rfl, hsum _ _ ht (by simp)⟩)
         · first
            | (cases hst; exact ⟨hv, rfl⟩)
            | (cases hst; exact ⟨hv, hsum _ _ ht (by simp)⟩)
            | (split at hst <;> (cases hst; exact ⟨hv, hsum _ _ ht (by simp)⟩)))

theorem after_exec {s' : State} : ∀ (sched : List (Nat × Act)) (s : State), Inv s →
    SerialRun s sched → s.invDone = true → exec s sched = some s' → successes s' = successes s
  | [], _, _, _, _, hx => by cases hx; rfl
  | (i, a) :: rest, s, hi, hal, hv, hx => by
    unfold exec at hx
    cases hst : step s i a with
    | none => rw [hst] at hx; cases hx
    | some s1 =>
      rw [hst] at hx
      obtain ⟨h1, h2⟩ := after_step hi hv hst
      rw [after_exec rest s1 (inv_step hi hal.1 hst) (hal.2 s1 hst) h1 hx, h2]

end Verif.Wref
