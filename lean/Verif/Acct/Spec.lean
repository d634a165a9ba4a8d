import Verif.Acct.Model
import Verif.Acct.RowSpec

/-! # What is to be in the accounting files, told from the history alone -/

namespace Verif.Acct

/-- The process that an event belongs to, if it is one of the module or the end of the process. -/
def Ev.proc : Ev → Option Nat
  | .ctor p | .begin p _ | .stat p _ | .close p | .open p _ | .olock p _ | .ofstat p _ | .head p _ | .ounlock p
  | .lock p _ | .write p _ | .unlock p | .dtor p | .die p => some p
  | _ => none

/-- The rows handed to the module of a process. -/
def handed (p : Nat) (es : List Ev) : List (List UInt8) :=
  es.filterMap fun
    | .begin q w => if q = p then some w else none
    | _ => none

/-- The row that each process is at, and the rows written so far, by whom, in the order of writing. -/
structure Hist where
  cur : Nat → List UInt8
  out : List (Nat × List UInt8)

def Hist.step (h : Hist) : Ev → Hist
  | .begin p w => { h with cur := fun x => if x = p then w else h.cur x }
  | .write p .whole => { h with out := h.out ++ [(p, h.cur p)] }
  | _ => h

def hist (es : List Ev) : Hist := es.foldl Hist.step ⟨fun _ => [], []⟩

/-- The rows written, by whom. -/
def written (es : List Ev) : List (Nat × List UInt8) := (hist es).out

/-- Nothing is written in part, the names are always written, and nobody empties a file. -/
def Ev.Tidy : Ev → Prop
  | .head _ r => r = .whole
  | .write _ r => ∀ n, r ≠ .part n
  | .trunc _ => False
  | _ => True

/-- The calls by which a new file is locked and looked at succeed. -/
def Ev.Safe : Ev → Prop
  | .olock _ ok => ok = true
  | .ofstat _ ok => ok = true
  | _ => True

/-- All calls succeed, except that a file cannot be looked up by its name; the module is not destroyed and the process
goes on. -/
def Ev.Fine : Ev → Prop
  | .open _ r => r ≠ none
  | .olock _ ok => ok = true
  | .ofstat _ ok => ok = true
  | .head _ r => r = .whole
  | .lock _ ok => ok = true
  | .write _ r => r = .whole
  | .dtor _ => False
  | .die _ => False
  | _ => True

/-- The row that a process has yet to write. -/
def Pc.left : Pc → List (List UInt8)
  | .stat w => [w]
  | .close (some w) => [w]
  | .open (some w) => [w]
  | .olock (some w) => [w]
  | .ofstat (some w) _ => [w]
  | .head (some w) _ => [w]
  | .ounlock (some w) _ _ => [w]
  | .lock w => [w]
  | .write w _ => [w]
  | _ => []

/-- The module has something to do. -/
def Pc.active : Pc → Bool
  | .off | .dead | .idle => false
  | _ => true

/-- Steps of the module. -/
def Ev.module : Ev → Bool
  | .stat _ _ | .close _ | .open _ _ | .olock _ _ | .ofstat _ _ | .head _ _ | .ounlock _ | .lock _ _ | .write _ _
  | .unlock _ => true
  | _ => false

/-- All files are below two gigabytes. -/
def Small (s : St) : Prop := ∀ d ∈ s.files, d.length < 2 ^ 31

end Verif.Acct
