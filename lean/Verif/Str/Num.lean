import Verif.Basic

/-!
# Model of the numeric parsers (src/rtpp_util.c:363-425)

A C string is the list of its characters without the terminating NUL.  `strtol` (base 10, C locale,
64-bit `long`) is modelled after its standard description: optional white space, an optional sign, as many digits
as possible; no conversion if there is no digit; out of range values are replaced by the nearest
`long` and reported through `errno`.
-/

namespace Verif.Str

def isSpace (c : UInt8) : Bool := c = 32 ∨ (9 ≤ c.toNat ∧ c.toNat ≤ 13)
def isDigit (c : UInt8) : Bool := 48 ≤ c.toNat ∧ c.toNat ≤ 57

/-- Value of a string of digits. -/
def digitsVal (l : List UInt8) : Nat := l.foldl (fun a c => 10 * a + (c.toNat - 48)) 0

/-- Sign: number of characters and whether it is negative. -/
def signOf : List UInt8 → Nat × Bool
  | c :: _ => if c = 45 then (1, true) else if c = 43 then (1, false) else (0, false)
  | [] => (0, false)

structure Strtol where
  val : Int
  erange : Bool
  /-- `endptr - nptr` -/
  used : Nat
  deriving DecidableEq, Repr

def longMax : Int := 9223372036854775807
def longMin : Int := -9223372036854775808

/-- `strtol(s, &cp, 10)`. -/
def strtol (s : List UInt8) : Strtol :=
  let ws := (s.takeWhile isSpace).length
  let sg := signOf (s.drop ws)
  let ds := (s.drop (ws + sg.1)).takeWhile isDigit
  if ds = [] then ⟨0, false, 0⟩
  else
    let v : Int := if sg.2 then -(digitsVal ds : Int) else digitsVal ds
    let used := ws + sg.1 + ds.length
    if v > longMax then ⟨longMax, true, used⟩
    else if v < longMin then ⟨longMin, true, used⟩
    else ⟨v, false, used⟩

/-- Conversion of `long` to a 32-bit `int` (as done by gcc and clang: modulo 2^32). -/
def toInt (v : Int) : Int := (v + 2147483648) % 4294967296 - 2147483648

inductive Rv (α : Type) where
  | ok (v : α)
  | notInt
  | outRange
  deriving DecidableEq, Repr

/-- `*cp`: the character after the used ones, NUL at the end. -/
def charAt (s : List UInt8) (i : Nat) : UInt8 := s.getD i 0

/-- `atoi_safe_sep`, rtpp_util.c:363-378: the value and the position of `*next`. -/
def atoiSafeSep (s : List UInt8) (sep : UInt8) : Rv (Int × Nat) :=
  let r := strtol s
  if r.used = 0 ∨ charAt s r.used ≠ sep then .notInt
  else .ok (toInt r.val, r.used + 1)

/-- `atoi_safe`, rtpp_util.c:380-385. -/
def atoiSafe (s : List UInt8) : Rv Int :=
  match atoiSafeSep s 0 with
  | .ok (v, _) => .ok v
  | .notInt => .notInt
  | .outRange => .outRange

/-- `atoi_saferange`, rtpp_util.c:387-400. -/
def atoiSaferange (s : List UInt8) (min max : Int) : Rv Int :=
  match atoiSafe s with
  | .ok v => if v < min ∨ (max ≥ min ∧ v > max) then .outRange else .ok v
  | _ => .notInt

/-- `strtol_saferange`, rtpp_util.c:402-425: the value and the position of `*next`. -/
def strtolSaferange (s : List UInt8) (min max : Int) : Rv (Int × Nat) :=
  let r := strtol s
  if r.used = 0 then .notInt
  else if r.erange then .outRange
  else if r.val < min ∨ (max ≥ min ∧ r.val > max) then .outRange
  else .ok (r.val, r.used)

end Verif.Str
