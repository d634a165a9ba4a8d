import Verif.Refcnt.Model

/-!
# Vocabulary for C03/C04
-/

namespace Verif.Refcnt

variable {D : Type}

/-- Number of references owned by all threads together. -/
def refs (s : State D) : Nat := (s.ths.map (·.held)).sum

/-- No thread is inside one of the functions. -/
def Quiet (s : State D) : Prop := ∀ t ∈ s.ths, t.pc = .idle

/-- The thread is running destructors. -/
def Pc.isFin : Pc D → Bool
  | .finRead => true
  | .fin _ => true
  | _ => false

/-- The thread is inside a conditional acquire. -/
def Pc.isTry : Pc D → Bool
  | .tryStore => true
  | .tryStore2 => true
  | .tryAdd => true
  | .tryUndo => true
  | _ => false

/-- The thread is in the middle of the object's very first acquire. -/
def Pc.isFirstShare : Pc D → Bool
  | .incStore2 => true
  | _ => false

/-- The thread is about to run the destructor that frees the memory. -/
def Pc.isLastFin : Pc D → Bool
  | .fin 1 => true
  | _ => false

/-- The schedule contains no conditional acquire. -/
def NoTry (sched : List (Nat × Act D)) : Prop := ∀ e ∈ sched, e.2 ≠ .tryincref

/-- The extra discipline under which conditional acquires are safe: one starts only when
the object has already been shared and is not freed and no other one is in flight, and the
memory is not freed while one is in flight. -/
def Allowed (s : State D) (i : Nat) (a : Act D) : Prop :=
  (match a with
    | .tryincref => s.shared = true ∧ s.freed = false ∧
        s.ths.all (fun t => !t.pc.isTry && !t.pc.isFirstShare) = true
    | _ => True) ∧
  (match s.ths[i]? with
    | some t => t.pc.isLastFin = true → s.ths.all (fun t => !t.pc.isTry) = true
    | none => True)

instance (s : State D) (i : Nat) (a : Act D) : Decidable (Allowed s i a) := by
  unfold Allowed
  have h1 : Decidable (match a with
    | .tryincref => s.shared = true ∧ s.freed = false ∧
        s.ths.all (fun t => !t.pc.isTry && !t.pc.isFirstShare) = true
    | _ => True) := by cases a <;> simp only <;> infer_instance
  have h2 : Decidable (match s.ths[i]? with
    | some t => t.pc.isLastFin = true → s.ths.all (fun t => !t.pc.isTry) = true
    | none => True) := by cases s.ths[i]? <;> simp only <;> infer_instance
  exact instDecidableAnd

/-- Every step of the schedule is allowed. -/
def AllowedRun (s : State D) : List (Nat × Act D) → Prop
  | [] => True
  | (i, a) :: rest => Allowed s i a ∧ ∀ s', step s i a = some s' → AllowedRun s' rest

instance decAllowedRun : (s : State D) → (l : List (Nat × Act D)) → Decidable (AllowedRun s l)
  | _, [] => isTrue trivial
  | s, (i, a) :: rest => by
    unfold AllowedRun
    have : Decidable (∀ s', step s i a = some s' → AllowedRun s' rest) :=
      match h : step s i a with
      | none => isTrue (fun s' hs => by cases hs)
      | some s'' =>
        match decAllowedRun s'' rest with
        | isTrue hr => isTrue (fun s' hs => by cases hs; exact hr)
        | isFalse hr => isFalse (fun hf => hr (hf s'' rfl))
    exact instDecidableAnd

end Verif.Refcnt
