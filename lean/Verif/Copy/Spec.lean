import Verif.Copy.Model

/-! Vocabulary of C66. -/

namespace Verif.Copy

/-- The processor ends the way of the packet through the list: it takes or drops it. -/
def Stops (W : World) (i : Strm) (p : Proc) : Prop :=
  match p.kind with
  | .copy _ _ => False
  | .stop => True
  | .relay => True
  | .other n => W.oth n i ≠ .pass

/-- The processors are in order. -/
def Sorted (m : Mgrs) : Prop := ∀ x, (m x).Pairwise (fun p q => p.order ≤ q.order)

/-- Copies are made, and packets relayed, only behind the processors of order `PPROC_ORD_PLAY`. -/
def Late (m : Mgrs) : Prop :=
  ∀ x p, p ∈ m x → (p.kind = .relay ∨ ∃ i o, p.kind = .copy i o) → ordPlay < p.order

/-- Copies never lead back: every copy goes from a session to one of lower rank. -/
def Acyclic (r : Nat → Nat) (m : Mgrs) : Prop :=
  ∀ x p, p ∈ m x → ∀ i o, p.kind = .copy i o → r i.sess < r x.sess

/-- The references to the packet, counted along what happens; `none` if it is touched when there is
none left. -/
def refs : Nat → List Ev → Option Nat
  | n, [] => some n
  | 0, _ :: _ => none
  | n + 1, e :: l =>
    match e with
    | .copied _ => refs (n + 2) l
    | .seen _ _ => refs (n + 1) l
    | .sent _ | .kept _ | .freed _ => refs n l

/-- The managers once the copy is in effect. -/
def installed (m : Mgrs) (x : Cp) : Mgrs := (regAll m none 0 x.regs).1

/-- An operation during which memory is not short. -/
def Op.fine : Op → Prop
  | .copy _ f => f = .no
  | .kill _ ok => ∀ c n, ok c n = true
  | _ => True

/-- No registration of the copy fails half way. -/
def Op.whole : Op → Prop
  | .copy _ (.reg _) => False
  | _ => True

/-- The operation makes a copy to session `b`. -/
def Op.copiesTo (b : Nat) : Op → Bool
  | .copy x _ => x.b == b
  | _ => false

/-- The operation destroys session `b`. -/
def Op.kills (b : Nat) : Op → Bool
  | .kill y _ => y == b
  | _ => false

/-- The numbers of the copies made. -/
def nums : List Op → List Nat
  | [] => []
  | .copy x _ :: os => x.c :: nums os
  | _ :: os => nums os

end Verif.Copy
