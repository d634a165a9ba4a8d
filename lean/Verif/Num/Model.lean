import Verif.Basic
import Mathlib.Algebra.Order.Floor.Defs
import Mathlib.Algebra.Order.Floor.Ring
import Mathlib.Data.Rat.Floor

/-!
# Model of the recursive filter (`src/rtpp_math.c`) and of the time conversions (`src/rtpp_time.c`)

Floating point numbers are modelled as rationals (no NaN, no infinities).  What a floating point operation rounds to is a
parameter `rn : ℚ → ℚ` wherever it matters.
-/

namespace Verif.Num

/-- `struct recfilter`, rtpp_math.h. -/
structure Filt where
  lastval : ℚ
  minval : ℚ
  maxval : ℚ
  a : ℚ
  b : ℚ
  peak : Bool
  deriving DecidableEq, Repr

/-- `recfilter_init`, rtpp_math.c:63-79 (with `1.0 - fcoef` exact). -/
def Filt.init (fcoef initval : ℚ) (peak : Bool) : Filt :=
  if peak then ⟨initval, initval, initval, 1 - fcoef, fcoef, true⟩
  else ⟨initval, 0, 0, 1 - fcoef, fcoef, false⟩

/-- The new `lastval`, lines 36 and 51: two products and a sum, each rounded. -/
def Filt.next (rn : ℚ → ℚ) (f : Filt) (x : ℚ) : ℚ := rn (rn (f.a * x) + rn (f.b * f.lastval))

/-- `recfilter_apply`, rtpp_math.c:32-45. -/
def Filt.apply (rn : ℚ → ℚ) (f : Filt) (x : ℚ) : Filt :=
  let f := { f with lastval := f.next rn x }
  if f.peak then
    let f := if f.lastval > f.maxval then { f with maxval := f.lastval } else f
    if f.lastval < f.minval then { f with minval := f.maxval } else f
  else f

/-- `recfilter_apply_int`, rtpp_math.c:47-60. -/
def Filt.applyInt (rn : ℚ → ℚ) (f : Filt) (x : ℤ) : Filt :=
  let f := { f with lastval := f.next rn x }
  if f.peak then
    let f := if f.lastval > f.maxval then { f with maxval := f.lastval } else f
    if f.lastval < f.minval then { f with minval := f.lastval } else f
  else f

def Filt.run (rn : ℚ → ℚ) (f : Filt) : List ℚ → Filt
  | [] => f
  | x :: xs => Filt.run rn (f.apply rn x) xs

def Filt.runInt (rn : ℚ → ℚ) (f : Filt) : List ℤ → Filt
  | [] => f
  | x :: xs => Filt.runInt rn (f.applyInt rn x) xs

/-! ## Times -/

/-- C's `round`: to the nearest integer, halves away from zero; for arguments that are not negative. -/
def cround (x : ℚ) : ℤ := ⌊x + 1 / 2⌋

/-- A time in two parts. -/
structure Tm where
  sec : ℤ
  frac : ℤ
  deriving DecidableEq, Repr

/-- `dtime2mtimespec`, rtpp_time.c:62-68, for times that are not negative.  The difference of a floating point number and
its integer part is exact; the product is rounded. -/
def mtimespec (rn : ℚ → ℚ) (d : ℚ) : Tm :=
  let sec := ⌊d⌋
  ⟨sec, cround (rn (1000000000 * (d - sec)))⟩

/-- `dtime2timeval`, rtpp_time.c:70-80. -/
def timeval (rn : ℚ → ℚ) (d : ℚ) : Tm :=
  let sec := ⌊d⌋
  let usec := cround (rn (1000000 * (d - sec)))
  if usec = 1000000 then ⟨sec + 1, 0⟩ else ⟨sec, usec⟩

end Verif.Num
