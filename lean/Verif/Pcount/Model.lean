import Verif.Basic

/-!
# Model of the drop counters (`src/rtpp_pcount.c`)

Any number of threads run `rtpp_pcount_reg_drop` at once; each access to an atomic variable is an event.  A relaxed
load of a slot may return the initial null pointer although a location has been stored since (`stale`); a
compare-and-exchange sees the current value.  Locations are numbers (a null location fails the assertion at line 130 and
is left out).  The counters are unbounded (`unsigned long` in the code).
-/

namespace Verif.Pcount

/-- `TOP_DROPS_SIZE`, rtpp_pcount.c:54. -/
def size : Nat := 4

/-- `struct rtpp_pcount_loc`, rtpp_pcount.c:56-59. -/
structure Slot where
  ptr : Option Nat
  cnt : Nat
  deriving DecidableEq, Repr

inductive Pc where
  /-- About to load the pointer of slot `i`, line 135. -/
  | load (i : Nat)
  /-- About to compare and exchange, line 137. -/
  | cas (i : Nat)
  /-- About to count in slot `i`, line 143. -/
  | count (i : Nat)
  | done
  deriving DecidableEq, Repr

structure Thr where
  loc : Nat
  pc : Pc
  deriving DecidableEq, Repr

structure St where
  ndropped : Nat
  slots : List Slot
  thrs : List Thr
  /-- Ghost: for each packet done with, its location and the slot it was counted in. -/
  attr : List (Nat × Option Nat)
  deriving DecidableEq, Repr

/-- `rtpp_pcount_ctor`, rtpp_pcount.c:81-101. -/
def St.init : St := ⟨0, List.replicate size ⟨none, 0⟩, [], []⟩

inductive Ev where
  /-- A call with location `loc` (line 129). -/
  | drop (loc : Nat)
  | load (th : Nat) (stale : Bool)
  | cas (th : Nat)
  | count (th : Nat)
  deriving DecidableEq, Repr

/-- `for (int i = 0; i < TOP_DROPS_SIZE; i++)`, line 131: on to slot `i`, or out of the loop. -/
def enter (s : St) (th : Nat) (t : Thr) (i : Nat) : St :=
  if i < size then { s with thrs := s.thrs.set th { t with pc := .load i } }
  else { s with thrs := s.thrs.set th { t with pc := .done }, attr := (t.loc, none) :: s.attr }

/-- The pointer seen, lines 136-142. -/
def saw (s : St) (th : Nat) (t : Thr) (i : Nat) : Option Nat → St
  | none => { s with thrs := s.thrs.set th { t with pc := .cas i } }
  | some p => if p ≠ t.loc then enter s th t (i + 1) else { s with thrs := s.thrs.set th { t with pc := .count i } }

/-- Events that make no sense leave the state as it is. -/
def step (s : St) : Ev → St
  | .drop loc => { s with ndropped := s.ndropped + 1, thrs := s.thrs ++ [⟨loc, .load 0⟩] }
  | .load th stale =>
    match s.thrs[th]? with
    | some t => match t.pc with
      | .load i => match s.slots[i]? with
        | some sl => saw s th t i (if stale then none else sl.ptr)
        | none => s
      | _ => s
    | none => s
  | .cas th =>
    match s.thrs[th]? with
    | some t => match t.pc with
      | .cas i => match s.slots[i]? with
        | some sl => match sl.ptr with
          | none => { s with slots := s.slots.set i { sl with ptr := some t.loc }, thrs := s.thrs.set th { t with pc := .count i } }
          | some _ => { s with thrs := s.thrs.set th { t with pc := .load i } }
        | none => s
      | _ => s
    | none => s
  | .count th =>
    match s.thrs[th]? with
    | some t => match t.pc with
      | .count i => match s.slots[i]? with
        | some sl => { s with slots := s.slots.set i { sl with cnt := sl.cnt + 1 }, thrs := s.thrs.set th { t with pc := .done }, attr := (t.loc, some i) :: s.attr }
        | none => s
      | _ => s
    | none => s

def run (s : St) (es : List Ev) : St := es.foldl step s

/-- `rtpp_pcount_log_drops`, rtpp_pcount.c:148-166, with nothing else going on. -/
def report : List Slot → List (Nat × Nat)
  | [] => []
  | s :: ss => match s.ptr with
    | none => []
    | some p => if s.cnt = 0 then report ss else (p, s.cnt) :: report ss

end Verif.Pcount
