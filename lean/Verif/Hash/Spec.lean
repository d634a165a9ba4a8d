import Verif.Hash.Model

/-!
# Specification: a multimap as a plain list of items in insertion order

No buckets, no hashes, no resizing.  Only the call/result vocabulary (`Op`, `Out`,
`MVal`) is shared with the model.
-/

namespace Verif.Hash.Spec

/-- An item: handle, key, value. -/
structure Item (K V : Type) where
  id : Nat
  key : K
  val : V

/-- The abstract table: live items, oldest first, and the next handle. -/
structure MM (K V : Type) where
  items : List (Item K V)
  next : Nat

variable {K V : Type} [DecidableEq K]

/-- The values stored under a key, oldest first. -/
def vals (m : MM K V) (k : K) : List V :=
  (m.items.filter (fun x => decide (x.key = k))).map (·.val)

/-- Delete the item with a given handle. -/
def erase (m : MM K V) (id : Nat) : MM K V :=
  { m with items := m.items.filter (fun x => x.id != id) }

/-- Visit a list of items, deleting and stopping as the callback says. -/
def visit {S} (f : V → S → S × MVal) (m : MM K V) (s : S) : List (Item K V) → MM K V × S
  | [] => (m, s)
  | x :: xs =>
    let r := f x.val s
    let m' := if r.2.del then erase m x.id else m
    if r.2.brk then (m', r.1) else visit f m' r.1 xs

/-- One call on the multimap.  Misuse (removing a handle that is not live, or with a
different key) has no specified behaviour (`ub`); a duplicate in a table created to
abort on duplicates aborts. -/
def step (nodups dupAbrt : Bool) (m : MM K V) : Op K V → Except Fault (MM K V × Out V)
  | .append k v _ =>
    if nodups && m.items.any (fun x => decide (x.key = k)) then
      if dupAbrt then .error .abort else .ok (m, .handle none false)
    else .ok (⟨m.items ++ [⟨m.next, k, v⟩], m.next + 1⟩,
              .handle (some m.next) (decide (m.items = [])))
  | .remove k id =>
    if m.items.any (fun x => x.id == id && decide (x.key = k)) then .ok (erase m id, .unit)
    else .error .ub
  | .removeByKey k =>
    match m.items.find? (fun x => decide (x.key = k)) with
    | none => .ok (m, .removed none false)
    | some x => .ok (erase m x.id, .removed (some x.val) (decide ((erase m x.id).items = [])))
  | .find k => .ok (m, .value (vals m k).head?)
  | .length => .ok (m, .len m.items.length)
  | .foreachKey k f =>
    let r := visit f m [] (m.items.filter (fun x => decide (x.key = k)))
    .ok (r.1, .seen r.2)

/-- Run a history. -/
def run (nodups dupAbrt : Bool) (m : MM K V) :
    List (Op K V) → Except Fault (MM K V × List (Out V))
  | [] => .ok (m, [])
  | op :: ops =>
    match step nodups dupAbrt m op with
    | .error e => .error e
    | .ok (m', o) =>
      match run nodups dupAbrt m' ops with
      | .error e => .error e
      | .ok (m'', os) => .ok (m'', o :: os)

/-- The empty multimap. -/
def empty : MM K V := ⟨[], 0⟩

end Verif.Hash.Spec
