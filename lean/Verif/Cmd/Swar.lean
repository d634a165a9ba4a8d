import Verif.Str.Mem

/-!
# Model of `rtpp_strsplit` (src/rtpp_util.c:545-577)

Words are 64-bit vectors, arrays are byte lists; the byte order is little-endian.
-/

namespace Verif.Cmd

/-- Number with the given base-256 digits, least significant first. -/
def pack : List Nat → Nat
  | [] => 0
  | b :: l => b + 256 * pack l

/-- The lowest `k` base-256 digits. -/
def unpack : Nat → Nat → List Nat
  | 0, _ => []
  | k + 1, n => n % 256 :: unpack k (n / 256)

/-- `*(uint64_t *)p` -/
def toWord (l : List UInt8) : BitVec 64 := BitVec.ofNat 64 (pack (l.map UInt8.toNat))
def ofWord (w : BitVec 64) : List UInt8 := (unpack 8 w.toNat).map UInt8.ofNat

/-- `populate`, rtpp_util.c:545. -/
def populate (n : BitVec 64) : BitVec 64 := ~~~(0 : BitVec 64) / 255 * n

/-- `haszero`, rtpp_util.c:546-547. -/
def haszero (v : BitVec 64) : BitVec 64 :=
  ~~~((((v &&& populate 0x7f) + populate 0x7f) ||| v) ||| populate 0x7f)

/-- The mask of a word, rtpp_util.c:566-570. -/
def maskWord (ww : BitVec 64) : BitVec 64 :=
  [populate 9, populate 10, populate 13, populate 32].foldl
    (fun ow sep => ow &&& ~~~(haszero (ww ^^^ sep) / 0x80 * 0xff)) (populate 0xff)

/-- Access to a whole word. -/
def rdW (a : List UInt8) (i : Nat) : Except Fault (BitVec 64) :=
  if i + 8 ≤ a.length then .ok (toWord ((a.drop i).take 8)) else .error .ub
def wrW (a : List UInt8) (i : Nat) (w : BitVec 64) : Except Fault (List UInt8) :=
  if i + 8 ≤ a.length then .ok (a.take i ++ ofWord w ++ a.drop (i + 8)) else .error .ub

/-- The loop of `rtpp_strsplit`, rtpp_util.c:564-576. -/
def splitLoop (dlen i : Nat) (ibuf mbuf : List UInt8) : Except Fault (List UInt8 × List UInt8) :=
  if _h : i < dlen then
    match rdW ibuf i with
    | .error e => .error e
    | .ok ww => match wrW mbuf i (maskWord ww) with
      | .error e => .error e
      | .ok mbuf' => match wrW ibuf i (ww &&& maskWord ww) with
        | .error e => .error e
        | .ok ibuf' => splitLoop dlen (i + 8) ibuf' mbuf'
  else .ok (ibuf, mbuf)
termination_by dlen - i

/-- `rtpp_strsplit`, rtpp_util.c:549-577 (with its debug assertion, line 559). -/
def strsplit (ibuf mbuf : List UInt8) (dlen blen : Nat) : Except Fault (List UInt8 × List UInt8) :=
  if blen ≥ dlen ∧ blen % 8 = 0 then splitLoop dlen 0 ibuf mbuf else .error .abort

end Verif.Cmd
