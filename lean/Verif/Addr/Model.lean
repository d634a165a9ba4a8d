import Verif.Str.Mem
import Verif.Str.Num

/-!
# Model of the address and label scanners (`src/rtpp_network.c`) and of `bindarg_parse` (`src/rtpp_bindargs.c`)

Strings live in a byte array `mem` that is read through `Str.rd`; a pointer is an index.  `isdigit` and `isxdigit` are
those of the C locale (a byte of 128 or more is neither; that the code passes it as a negative `char` is not modelled).
-/

namespace Verif.Addr
open Verif.Str

def isXdigit (c : UInt8) : Bool := isDigit c || (65 ≤ c && c ≤ 70) || (97 ≤ c && c ≤ 102)

/-- The characters skipped by the loop at rtpp_network.c:336-339. -/
def inV4 (c : UInt8) : Bool := isDigit c || c == 46
/-- The characters skipped by the loop at rtpp_network.c:343-346. -/
def inV6 (c : UInt8) : Bool := isXdigit c || c == 58

/-- `for (; *str != '\0'; str++) if (!p(*str)) break;`: where `str` ends. -/
def scan (p : UInt8 → Bool) (mem : List UInt8) (i : Nat) : Except Fault Nat :=
  match h : mem[i]? with
  | none => .error .ub
  | some c => if c ≠ 0 ∧ p c then scan p mem (i + 1) else .ok i
termination_by mem.length - i
decreasing_by
  have := (List.getElem?_eq_some_iff.1 h).1
  omega

/-- `strchr(str, ch)` for `ch ≠ '\0'`. -/
def strchr (mem : List UInt8) (i : Nat) (ch : UInt8) : Except Fault (Option Nat) :=
  match scan (· != ch) mem i with
  | .error f => .error f
  | .ok j =>
    match rd mem j with
    | .error f => .error f
    | .ok c => .ok (if c = ch then some j else none)

/-- What `extractaddr` and `extractlabel` hand out. -/
structure Part where
  len : Nat
  beg : Nat
  fin : Nat
  v6 : Bool
  deriving DecidableEq, Repr

/-- `extractaddr`, rtpp_network.c:328-359; `none` is `-1`. -/
def extractaddr (mem : List UInt8) (str : Nat) : Except Fault (Option Part) :=
  match rd mem str with
  | .error f => .error f
  | .ok c =>
    if c ≠ 91 then
      match scan inV4 mem str with
      | .error f => .error f
      | .ok e => .ok (if str = e then none else some ⟨e - str, str, e, false⟩)
    else
      match scan inV6 mem (str + 1) with
      | .error f => .error f
      | .ok e =>
        match rd mem e with
        | .error f => .error f
        | .ok d =>
          if d ≠ 93 then .ok none
          else .ok (if str + 1 = e then none else some ⟨e - (str + 1), str + 1, e + 1, true⟩)

/-- `extractlabel`, rtpp_network.c:361-375. -/
def extractlabel (mem : List UInt8) (str : Nat) : Except Fault (Option Part) :=
  match rd mem str with
  | .error f => .error f
  | .ok c =>
    if c ≠ 123 then .ok none
    else
      match strchr mem (str + 1) 125 with
      | .error f => .error f
      | .ok none => .ok none
      | .ok (some t) => .ok (if t = str + 1 then none else some ⟨t - (str + 1), str + 1, t, false⟩)

/-- `bindarg_parse`, rtpp_bindargs.c:44-61: the memory with the separators overwritten, and pointers to the label, the
advertised address and the host. -/
def bindarg (mem : List UInt8) (barg : Nat) : Except Fault (List UInt8 × Option Nat × Option Nat × Nat) :=
  match strchr mem barg 64 with
  | .error f => .error f
  | .ok cp =>
    match (match cp with
      | none => .ok (mem, none, barg)
      | some cp =>
        match wr mem cp 0 with
        | .error f => .error f
        | .ok mem => .ok (mem, some barg, cp + 1) : Except Fault (List UInt8 × Option Nat × Nat)) with
    | .error f => .error f
    | .ok (mem, label, barg) =>
      match strchr mem barg 61 with
      | .error f => .error f
      | .ok none => .ok (mem, label, none, barg)
      | .ok (some cp) =>
        match wr mem cp 0 with
        | .error f => .error f
        | .ok mem => .ok (mem, label, some (cp + 1), barg)

end Verif.Addr
