import Verif.Queue.Model

/-!
# Specification of the queue: a list
-/

namespace Verif.Queue.Spec

/-- Contents, oldest first, and the greatest length. -/
structure S where
  items : List Nat
  max : Nat

def step (s : S) : Op → S × Out
  | .put x =>
    if s.max ≠ 4294967295 ∧ s.max ≤ s.items.length then (s, .put false)
    else ({ s with items := s.items ++ [x] }, .put true)
  | .get => ({ s with items := s.items.drop 1 }, .items (s.items.take 1))
  | .getMany n => ({ s with items := s.items.drop n }, .items (s.items.take n))
  | .getMatching p => ({ s with items := s.items.eraseP p }, .items (s.items.find? p).toList)
  | .setMax m => ({ s with max := m % 4294967296 }, .unit)
  | .length => (s, .len s.items.length)

def run (s : S) : List Op → S × List Out
  | [] => (s, [])
  | o :: os => let (s', r) := step s o
    let (s'', rs) := run s' os
    (s'', r :: rs)

/-- The caller owns an item it puts: it is not in the queue. -/
def Owned (s : S) : List Op → Prop
  | [] => True
  | o :: os => (∀ x, o = .put x → x ∉ s.items) ∧ Owned (step s o).1 os

/-- Items accepted, in order. -/
def accepted : List Op → List Out → List Nat
  | .put x :: os, .put true :: rs => x :: accepted os rs
  | _ :: os, _ :: rs => accepted os rs
  | _, _ => []

/-- Items handed out, in order. -/
def taken : List Out → List Nat
  | [] => []
  | .items l :: rs => l ++ taken rs
  | _ :: rs => taken rs

end Verif.Queue.Spec
