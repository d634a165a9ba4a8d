import Verif.Util.Dec
import Verif.Str.Mem

/-!
# Model of the RTCP report printer (`modules/acct_rtcp_hep/rtcp2json.c`, `rtcp.h`)

The packet is the array of its bytes.  Bit fields are laid out as gcc does on a little-endian machine, from the least significant bit of
a byte upwards; so `rtcp_rr_t` (rtcp.h:91-102), which has no variant for the byte order, too.  All fields of a report are read before
the first part of it is printed (the code reads them as it prints).  The output buffer is what `rtpp_sbuf.c` implements (C36): a text, the size
of the allocated block, and the outcomes of `realloc` to come.
-/

namespace Verif.Rtcp

open Str

/-- The characters of a format string. -/
def asc (s : String) : List UInt8 := s.toList.map fun c => UInt8.ofNat c.toNat

/-- `struct rtpp_sbuf`; `allocs`: outcomes of the next calls of `realloc` (success when there are no more). -/
structure Out where
  text : List UInt8
  alen : Nat
  allocs : List Bool
  deriving DecidableEq, Repr

/-- `RSW_REST`, rtcp2json.c:117-130, for the formatted text `w`, with `rtpp_sbuf_write` (rtpp_sbuf.c:40-59) and `rtpp_sbuf_extend`
(109-133); `false`: return -1.  `alen` is an `int`. -/
def put (o : Out) (w : List UInt8) : Except Fault (Out × Bool) :=
  if _h0 : o.alen ≤ o.text.length then .error .abort
  else if _h1 : w.length < o.alen - o.text.length then .ok ({ o with text := o.text ++ w }, true)
  else if o.alen * 2 ≥ 2147483648 then .error .ub
  else match o.allocs with
    | false :: as => .ok ({ o with allocs := as }, false)
    | as => put { o with alen := o.alen * 2, allocs := as.tail } w
termination_by o.text.length + w.length + 1 - o.alen
decreasing_by
  all_goals omega

/-- Several parts one after another. -/
def puts (o : Out) : List (List UInt8) → Except Fault (Out × Bool)
  | [] => .ok (o, true)
  | w :: ws =>
    match put o w with
    | .error e => .error e
    | .ok (o', false) => .ok (o', false)
    | .ok (o', true) => puts o' ws

/-- `ntohl` of the word at `i`. -/
def rd32 (buf : List UInt8) (i : Nat) : Except Fault Nat := do
  let a ← rd buf i
  let b ← rd buf (i + 1)
  let c ← rd buf (i + 2)
  let d ← rd buf (i + 3)
  return ((a.toNat * 256 + b.toNat) * 256 + c.toNat) * 256 + d.toNat

/-- `RTCP_GET_LOST`, rtcp.h:106, of the bytes with `lost_sb`, `lost_b2`, `lost_b1` and `lost_b0`: the conditional operator binds more loosely
than the multiplication. -/
def getLost (b5 b6 b7 : UInt8) : Int :=
  let sb := b5.toNat % 2
  let b2 := b5.toNat / 2
  if sb ≠ 0 then -1 else 1 * ((b2 * 65536 + b6.toNat * 256 + b7.toNat : Nat) : Int)

/-- Lines 183-190 and 209-216 for the report block at `i`. -/
def block (buf : List UInt8) (i : Nat) : Except Fault (List UInt8) := do
  let ssrc ← rd32 buf i
  let fraction ← rd buf (i + 4)
  let b5 ← rd buf (i + 5)
  let b6 ← rd buf (i + 6)
  let b7 ← rd buf (i + 7)
  let seq ← rd32 buf (i + 8)
  let jitter ← rd32 buf (i + 12)
  let lsr ← rd32 buf (i + 16)
  let dlsr ← rd32 buf (i + 20)
  return asc "  {\n   \"source_ssrc\": " ++ Dec.dec ssrc ++ (asc ",\n   \"fraction_lost\": " ++ Dec.dec fraction.toNat ++
    (asc ",\n   \"packets_lost\": " ++ Dec.decI (getLost b5 b6 b7) ++ (asc ",\n   \"highest_seq_no\": " ++ Dec.dec seq ++
    (asc ",\n   \"ia_jitter\": " ++ Dec.dec jitter ++ (asc ",\n   \"lsr\": " ++ Dec.dec lsr ++ (asc ",\n   \"dlsr\": " ++ Dec.dec dlsr ++
    asc "\n  }\n"))))))

/-- Lines 180-191 and 206-217: the blocks from `i` on, `n` of them; `first`: no comma in front. -/
def blocks (buf : List UInt8) (i : Nat) : Nat → Bool → Except Fault (List (List UInt8))
  | 0, _ => .ok []
  | n + 1, first => do
    let b ← block buf i
    let r ← blocks buf (i + 24) n false
    return (if first then [b] else [asc "  ,\n", b]) ++ r

/-- Lines 169-177: the sender information of the report at `r`. -/
def sender (buf : List UInt8) (r : Nat) : Except Fault (List UInt8) := do
  let sec ← rd32 buf (r + 8)
  let frac ← rd32 buf (r + 12)
  let ts ← rd32 buf (r + 16)
  let psent ← rd32 buf (r + 20)
  let osent ← rd32 buf (r + 24)
  return asc " \"sender_information\": {\n  \"ntp_timestamp_sec\": " ++ Dec.dec sec ++ (asc ",\n  \"ntp_timestamp_usec\": " ++ Dec.dec frac ++
    (asc ",\n  \"rtp_timestamp\": " ++ Dec.dec ts ++ (asc ",\n  \"packets\": " ++ Dec.dec psent ++ (asc ",\n  \"octets\": " ++ Dec.dec osent ++
    asc "\n },\n"))))

/-- Lines 169-195 (`sr`) and 201-221: what is printed for the report at `r` with `count` blocks. -/
def report (buf : List UInt8) (r : Nat) (sr : Bool) (count : Nat) : Except Fault (List (List UInt8)) := do
  let ssrc ← rd32 buf (r + 4)
  let head := asc "{\n \"ssrc\": " ++ Dec.dec ssrc ++ asc ",\n"
  let info ← if sr then (do let t ← sender buf r; return [t]) else pure []
  let bs ← blocks buf (r + if sr then 28 else 8) count true
  return [head] ++ info ++ [asc " \"type\": " ++ Dec.dec (if sr then 200 else 201) ++ asc ",\n"] ++
    (if count > 0 then [asc " \"report_blocks\": [\n"] ++ bs ++ [asc " ],\n"] else []) ++
    [asc " \"report_count\": " ++ Dec.dec count ++ asc "\n", asc "}"]

/-- The smallest length of a report, lines 167 and 199: `24 * (count - 1)` is computed in `size_t`.  `base` is the size of the header and
of the fixed part with one block. -/
def least (base count : Nat) : Nat := (base + 24 * ((count + 18446744073709551615) % 18446744073709551616)) % 18446744073709551616

/-- The header of the packet at `r`: version, count, type, `bincr` (lines 149, 163, 165). -/
def header (buf : List UInt8) (r : Nat) : Except Fault (Nat × Nat × Nat × Nat) := do
  let a ← rd buf r
  let t ← rd buf (r + 1)
  let h ← rd buf (r + 2)
  let l ← rd buf (r + 3)
  return (a.toNat / 64, a.toNat % 32, t.toNat, 4 * (h.toNat * 256 + l.toNat + 1))

/-- Lines 159-285: the packets from `r` on, `len` bytes left.  Result: the output and the return value. -/
def loop (buf : List UInt8) (o : Out) (r : Nat) (len : Int) : Except Fault (Out × Int) :=
  if _hl : len ≤ 0 then .ok (o, len)
  else if len < 4 then .ok (o, -1)
  else match _hh : header buf r with
    | .error e => .error e
    | .ok (_, count, pt, bincr) =>
      if pt = 200 ∨ pt = 201 then
        if len < bincr ∨ bincr < least (if pt = 200 then 52 else 32) count then .ok (o, -1)
        else match report buf r (pt = 200) count with
          | .error e => .error e
          | .ok ws =>
            match puts o ws with
            | .error e => .error e
            | .ok (o', false) => .ok (o', -1)
            | .ok (o', true) => loop buf o' (r + bincr) (len - bincr)
      else loop buf o (r + bincr) (len - bincr)
termination_by len.toNat
decreasing_by
  all_goals
    simp only [header, bind, Except.bind, pure, Except.pure] at _hh
    repeat (split at _hh <;> first | (cases _hh; done) | skip)
    simp only [Except.ok.injEq, Prod.mk.injEq] at _hh
    omega

/-- `rtcp2json`, lines 136-286. -/
def rtcp2json (o : Out) (buf : List UInt8) : Except Fault (Out × Int) :=
  if buf.length < 4 then .ok (o, -1)
  else match header buf 0 with
    | .error e => .error e
    | .ok (v, _, _, _) => if v ≠ 2 then .ok (o, -1) else loop buf o 0 buf.length

end Verif.Rtcp
