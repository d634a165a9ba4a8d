import Verif.Str.Mem

/-!
# Model of `url_quote` and `url_unquote` (src/rtpp_util.c)

`int` lengths are natural numbers.
-/

namespace Verif.Str

/-- `hex2char[c]`, rtpp_util.c:283-292, together with the test `c > 127`, rtpp_util.c:308;
`none` is -1. -/
def hexVal (c : UInt8) : Option Nat :=
  if 48 ≤ c.toNat ∧ c.toNat ≤ 57 then some (c.toNat - 48)
  else if 65 ≤ c.toNat ∧ c.toNat ≤ 70 then some (c.toNat - 55)
  else if 97 ≤ c.toNat ∧ c.toNat ≤ 102 then some (c.toNat - 87)
  else none

/-- The loop of `url_unquote2`, rtpp_util.c:303-326.  `same`: source and destination are the same
array (`url_unquote`).  Result: the return value (`none` is -1) and the destination. -/
def unqLoop (same : Bool) (src dst : List UInt8) (len cp ocp : Nat) (outlen : Int) :
    Except Fault (Option Int × List UInt8) :=
  if _h : cp < len then
    match rd src cp with
    | .error e => .error e
    | .ok c =>
      if c = 37 then
        if cp + 2 > len then .ok (none, dst)
        else match rd src (cp + 1) with
          | .error e => .error e
          | .ok c1 =>
            if c1.toNat > 127 then .ok (none, dst)
            else match rd src (cp + 2) with
              | .error e => .error e
              | .ok c2 =>
                match hexVal c1, hexVal c2 with
                | some x, some y =>
                  match wr dst ocp (UInt8.ofNat (16 * x + y)) with
                  | .error e => .error e
                  | .ok dst' => unqLoop same (if same then dst' else src) dst' len (cp + 3) (ocp + 1) (outlen - 2)
                | _, _ => .ok (none, dst)
      else
        match wr dst ocp (if c = 43 then 32 else c) with
        | .error e => .error e
        | .ok dst' => unqLoop same (if same then dst' else src) dst' len (cp + 1) (ocp + 1) outlen
  else .ok (some outlen, dst)
termination_by len - cp

/-- `url_unquote2`, rtpp_util.c:294-327. -/
def unquote2 (ibuf obuf : List UInt8) (len : Nat) : Except Fault (Option Int × List UInt8) :=
  unqLoop false ibuf obuf len 0 0 len

/-- `url_unquote`, rtpp_util.c:329-334. -/
def unquote (buf : List UInt8) (len : Nat) : Except Fault (Option Int × List UInt8) :=
  unqLoop true buf buf len 0 0 len

/-- The characters copied verbatim, rtpp_util.c:344-346. -/
def plainQ (c : UInt8) : Bool :=
  (65 ≤ c.toNat ∧ c.toNat ≤ 90) ∨ (97 ≤ c.toNat ∧ c.toNat ≤ 122) ∨ (48 ≤ c.toNat ∧ c.toNat ≤ 57) ∨
  c = 45 ∨ c = 95 ∨ c = 46 ∨ c = 126

/-- `hex[n]`, rtpp_util.c:338. -/
def hexDigit (n : Nat) : UInt8 := UInt8.ofNat (if n < 10 then 48 + n else 55 + n)

/-- The loop of `url_quote`, rtpp_util.c:343-360, over the remaining input. -/
def quoteLoop (olen : Nat) : List UInt8 → List UInt8 → Nat → Except Fault (Option Nat × List UInt8)
  | [], dst, out => .ok (some out, dst)
  | c :: cs, dst, out =>
    if plainQ c then
      if olen - out = 0 then .ok (none, dst)
      else match wr dst out c with
        | .error e => .error e
        | .ok dst' => quoteLoop olen cs dst' (out + 1)
    else if olen - out < 3 then .ok (none, dst)
    else match wr dst out 37 with
      | .error e => .error e
      | .ok d1 => match wr d1 (out + 1) (hexDigit (c.toNat / 16)) with
        | .error e => .error e
        | .ok d2 => match wr d2 (out + 2) (hexDigit (c.toNat % 16)) with
          | .error e => .error e
          | .ok d3 => quoteLoop olen cs d3 (out + 3)

/-- `url_quote`, rtpp_util.c:336-361 (the input is the first `ilen` bytes of `ibuf`). -/
def quote (input obuf : List UInt8) (olen : Nat) : Except Fault (Option Nat × List UInt8) :=
  quoteLoop olen input obuf 0

end Verif.Str
