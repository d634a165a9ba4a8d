import Verif.Basic

/-!
# Model of the perfect hash of names (`src/rtpp_pearson.c`, `src/rtpp_pearson_perfect.c`)

Names are the bytes of C strings before the terminator.  `random()` is a parameter: the list of the values it will
return, of which the low byte is used.  The search for a table loops until it succeeds; a run that uses up the list
without success is `none` ("still searching").  Index arithmetic is on bytes where the code's is.
-/

namespace Verif.Pearson

abbrev Table := UInt8 → UInt8

def Table.set (t : Table) (i v : UInt8) : Table := fun j => if j = i then v else t j

/-- One round of `rtpp_pearson_shuffle`, rtpp_pearson.c:43-46: the next free slot that comes up, and what is left of
the random values. -/
def pick (t : Table) : List Nat → Option (UInt8 × List Nat)
  | [] => none
  | r :: rs =>
    let rval := UInt8.ofNat r
    if t rval ≠ 0 then pick t rs else some (rval, rs)

/-- The loop of `rtpp_pearson_shuffle`, rtpp_pearson.c:42-47, with `n` values to go, `i` being next. -/
def fill (t : Table) (i : Nat) : Nat → List Nat → Option (Table × List Nat)
  | 0, rs => some (t, rs)
  | n + 1, rs => match pick t rs with
    | none => none
    | some (slot, rs') => fill (t.set slot (UInt8.ofNat i)) (i + 1) n rs'

/-- `rtpp_pearson_shuffle`, rtpp_pearson.c:35-48. -/
def shuffle (rs : List Nat) : Option (Table × List Nat) := fill (fun _ => 0) 1 255 rs

/-- `rtpp_pearson_hash8`, rtpp_pearson.c:50-59 (`ep` is NULL in the calls modelled). -/
def hash8 (t : Table) (s : List UInt8) : UInt8 := s.foldl (fun res c => t (res ^^^ c)) (t 0)

/-- The loop of `compute_perfect_hash`, rtpp_pearson_perfect.c:68-75: `none` means a collision (`goto again`). -/
def index (t : Table) : Nat → List (List UInt8) → Table → Option Table
  | _, [], om => some om
  | i, s :: ss, om =>
    let hval := hash8 t s
    if om hval ≠ 0 then none else index t (i + 1) ss (om.set hval (UInt8.ofNat (i + 1)))

/-- `compute_perfect_hash`, rtpp_pearson_perfect.c:57-76, with at most `fuel` attempts (more attempts than random values
are pointless). -/
def search (names : List (List UInt8)) : Nat → List Nat → Option (Table × Table)
  | 0, _ => none
  | fuel + 1, rs => match shuffle rs with
    | none => none
    | some (t, rs') => match index t 0 names (fun _ => 0) with
      | some om => some (t, om)
      | none => search names fuel rs'

def build (names : List (List UInt8)) (rs : List Nat) : Option (Table × Table) := search names (rs.length + 1) rs

/-- `rtpp_pearson_perfect_hash`, rtpp_pearson_perfect.c:97-114.  Asking for a name beyond the last yields NULL (`getdstat`,
rtpp_stats.c:156-167), and comparing with it is undefined. -/
def lookup (names : List (List UInt8)) (h : Table × Table) (s : List UInt8) : Except Fault (Option Nat) :=
  let rval := h.2 (hash8 h.1 s)
  if rval = 0 then .ok none
  else match names[rval.toNat - 1]? with
    | none => .error .ub
    | some sval => .ok (if s = sval then some (rval.toNat - 1) else none)

end Verif.Pearson
