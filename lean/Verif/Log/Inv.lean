import Verif.Log.Spec
import Mathlib.Data.List.Induction

/-! # The linked lists, and what holds in every state -/

namespace Verif.Log

theorem upd_same {α : Type} (f : Nat → α) (i : Nat) (a : α) : upd f i a i = a := if_pos rfl

theorem upd_other {α : Type} (f : Nat → α) {i j : Nat} (a : α) (h : j ≠ i) : upd f i a j = f j := if_neg h

/-- The items of a linked list. -/
def Chain (nx : Nat → Option Nat) : Option Nat → List Nat → Prop
  | h, [] => h = none
  | h, i :: l => h = some i ∧ Chain nx (nx i) l

theorem chain_none {nx : Nat → Option Nat} {l : List Nat} (h : Chain nx none l) : l = [] := by
  cases l with
  | nil => rfl
  | cons i l => exact absurd h.1 (by nofun)

theorem chain_some {nx : Nat → Option Nat} {i : Nat} {l : List Nat} (h : Chain nx (some i) l) :
    ∃ l', l = i :: l' ∧ Chain nx (nx i) l' := by
  cases l with
  | nil => exact absurd h (by nofun)
  | cons j l =>
    have := h.1
    cases this
    exact ⟨l, rfl, h.2⟩

theorem chain_upd {nx : Nat → Option Nat} {i : Nat} {a : Option Nat} {l : List Nat} :
    ∀ {h : Option Nat}, i ∉ l → Chain nx h l → Chain (upd nx i a) h l := by
  induction l with
  | nil => intro h _ hc; exact hc
  | cons j l ih =>
    intro h hi hc
    have hj : j ≠ i := fun e => hi (by rw [e]; exact List.mem_cons_self)
    refine ⟨hc.1, ?_⟩
    rw [upd_other _ _ hj]
    exact ih (fun e => hi (List.mem_cons_of_mem _ e)) hc.2

theorem chain_snoc {nx : Nat → Option Nat} {i t : Nat} {l : List Nat} :
    ∀ {h : Option Nat}, i ∉ l → l.Nodup → l.getLast? = some t → Chain nx h l →
      Chain (upd (upd nx i none) t (some i)) h (l ++ [i]) := by
  induction l with
  | nil => intro h _ _ hl _; cases hl
  | cons j l ih =>
    intro h hi hn hl hc
    refine ⟨hc.1, ?_⟩
    have hji : j ≠ i := fun e => hi (by rw [e]; exact List.mem_cons_self)
    have hil : i ∉ l := fun e => hi (List.mem_cons_of_mem _ e)
    cases l with
    | nil =>
      simp only [List.getLast?_singleton, Option.some.injEq] at hl
      subst hl
      rw [upd_same]
      refine ⟨rfl, ?_⟩
      rw [upd_other _ _ (Ne.symm hji), upd_same]
      rfl
    | cons k l =>
      have hl' : (k :: l).getLast? = some t := by
        rw [← hl, List.getLast?_cons_cons]
      have ht : t ∈ k :: l := List.mem_of_getLast? hl'
      have hjt : j ≠ t := fun e => (List.nodup_cons.mp hn).1 (by rw [e]; exact ht)
      rw [upd_other _ _ hjt, upd_other _ _ hji]
      exact ih hil (List.nodup_cons.mp hn).2 hl' hc.2

/-- Where an item is. -/
inductive Loc where
  | free
  | queue
  | thr (t : Nat)
  | wk
  | ex
  | dead
  deriving DecidableEq

def Pr.item : Pr → Option Nat
  | .idle => none
  | .got i _ => some i
  | .filled i => some i

def Wk.item : Wk → Option Nat
  | .has i => some i
  | .did i => some i
  | _ => none

def Ex.item : Ex → Option Nat
  | .got i => some i
  | .filled i => some i
  | _ => none

/-- What the thread of the queue will make of an item. -/
def view (c : Cell) : Option Msg :=
  match c.ty with
  | .write => some c.msg
  | .exit => none

/-- The item that the thread of the queue has yet to deal with. -/
def inHand (s : St) : List (Option Msg) :=
  match s.wk with
  | .has i => [view (s.cell i)]
  | _ => []

/-- The message of a thread and what it holds. -/
def held (c : Nat → Cell) : Pr → Option Msg → Prop
  | .idle, m => m = none
  | .got _ r, m => r.user ≠ none ∧ m = some (msgOf r)
  | .filled i, m => m ≠ none ∧ view (c i) = m

/-- Where the items are. -/
structure Places (s : St) (F Q : List Nat) (ow : Nat → Loc) : Prop where
  cF : Chain s.next s.free F
  cQ : Chain s.next s.queue Q
  nF : F.Nodup
  nQ : Q.Nodup
  tail : Q ≠ [] → s.tail = Q.getLast?
  mF : ∀ i, i ∈ F ↔ i < 64 ∧ ow i = .free
  mQ : ∀ i, i ∈ Q ↔ i < 64 ∧ ow i = .queue
  mT : ∀ t i, (s.pr t).item = some i ↔ i < 64 ∧ ow i = .thr t
  mW : ∀ i, s.wk.item = some i ↔ i < 64 ∧ ow i = .wk
  mX : ∀ i, s.ex.item = some i ↔ i < 64 ∧ ow i = .ex
  mD : ∀ i, i < 64 → ow i = .dead → s.wk = .ended

/-- The end of the log. -/
structure Ends (s : St) (p : Seen) : Prop where
  todo : s.todo = if s.joined then 0 else 1
  ex : s.joined = true → s.ex = .no ∧ s.wk = .ended
  before : s.joined = false → s.ex ≠ .join → none ∉ p.put
  after : s.wk = .ended → ∃ P R, p.put = P ++ none :: R ∧ p.did = P.length + 1 ∧ none ∉ P
  fill : ∀ i, s.ex = .filled i → (s.cell i).ty = .exit
  live : none ∈ p.put.take p.did → s.wk = .ended

structure Inv (s : St) (p : Seen) : Prop where
  places : ∃ F Q ow, Places s F Q ow ∧ F.length = p.avail ∧ inHand s ++ Q.map (fun i => view (s.cell i)) = p.put.drop p.did
  did : p.did ≤ p.put.length
  out : s.out = (p.put.take p.did).filterMap id
  hold : ∀ t, held s.cell (s.pr t) (p.hold t)
  drops : s.dropped = p.drops
  ends : Ends s p

end Verif.Log
