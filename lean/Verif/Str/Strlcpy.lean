import Verif.Str.Mem

/-!
# Model of `strlcpy` (src/rtpp_util.c:518-541)

`dst` and `src` are different arrays.
-/

namespace Verif.Str

/-- The copying loop, rtpp_util.c:526-529: `do { if ((*d++ = *s++) == 0) break; } while (--n != 0)`,
entered with `n + 1`.  Result: destination, `d`, `s`, `n`. -/
def lcpLoop (src : List UInt8) : Nat → List UInt8 → Nat → Nat → Except Fault (List UInt8 × Nat × Nat × Nat)
  | n, dst, d, s =>
    match rd src s with
    | .error e => .error e
    | .ok c => match wr dst d c with
      | .error e => .error e
      | .ok dst' =>
        if c = 0 then .ok (dst', d + 1, s + 1, n + 1)
        else match n with
          | 0 => .ok (dst', d + 1, s + 1, 0)
          | n + 1 => lcpLoop src n dst' (d + 1) (s + 1)

/-- `while (*s++) ;`, rtpp_util.c:536: position after the terminating NUL. -/
def skipStr (src : List UInt8) (s : Nat) : Except Fault Nat :=
  if h : s < src.length then
    if src[s] = 0 then .ok (s + 1) else skipStr src (s + 1)
  else .error .ub
termination_by src.length - s

/-- `strlcpy`, rtpp_util.c:518-541: destination and return value. -/
def strlcpy (dst src : List UInt8) (siz : Nat) : Except Fault (List UInt8 × Int) :=
  let r := match siz with
    | 0 => Except.ok (dst, 0, 0, 0)
    | 1 => .ok (dst, 0, 0, 0)
    | n + 2 => lcpLoop src n dst 0 0
  match r with
  | .error e => .error e
  | .ok (dst1, d, s, n) =>
    if n = 0 then
      match (if siz ≠ 0 then wr dst1 d 0 else .ok dst1) with
      | .error e => .error e
      | .ok dst2 => match skipStr src s with
        | .error e => .error e
        | .ok s' => .ok (dst2, s' - 1)
    else .ok (dst1, (s : Int) - 1)

end Verif.Str
