import Verif.Basic

/-!
# Model of the RTP packet code: `src/rtp.c`, `src/rtp.h`, `src/rtp_packet.c`

A datagram is the list of received bytes.  Reading a byte outside of it is undefined
behaviour (in C the buffer is larger, but its remaining contents are stale data of an earlier
packet, so such a read is treated as a fault).
-/

namespace Verif.Rtp

/-- Checked read of one byte. -/
def rd (b : List UInt8) (i : Nat) : Except Fault Nat :=
  match b[i]? with
  | none => .error .ub
  | some x => .ok x.toNat

/-- Checked read of a big-endian 16-bit field (`ntohs`). -/
def rd16 (b : List UInt8) (i : Nat) : Except Fault Nat := do
  return (← rd b i) * 256 + (← rd b (i + 1))

/-- Checked read of a big-endian 32-bit field (`ntohl`). -/
def rd32 (b : List UInt8) (i : Nat) : Except Fault Nat := do
  return (← rd16 b i) * 65536 + (← rd16 b (i + 2))

/-- Payload types with special treatment, rtp.h:35-57. -/
def PCMU : Nat := 0
def GSM : Nat := 3
def G723 : Nat := 4
def PCMA : Nat := 8
def G722 : Nat := 9
def G729 : Nat := 18

/-- `enum rtp_parser_err_t`, rtp.h:115-126, without the success code. -/
inductive PErr where
  | ptooshrt
  | ihdrver
  | ptooshrtxs
  | ptooshrtxh
  | ptooshrtps
  | ptooshrtp
  | ips
  | isrtcp
  deriving DecidableEq, Repr

/-- `struct rtp_info`, rtp_info.h:32-41.  `nsamples = none` is `RTP_NSAMPLES_UNKNOWN`;
`rtp_profile` is represented by the payload type indexing the profile table. -/
structure Info where
  dataSize : Nat
  dataOffset : Nat
  nsamples : Option Nat
  ts : Nat
  seq : Nat
  ssrc : Nat
  appendable : Bool
  pt : Nat
  deriving DecidableEq, Repr, Inhabited

/-- `g723_len`, rtp.c:66-86; `none` is `RTP_NSAMPLES_UNKNOWN`. -/
def g723Len (ch : Nat) : Option Nat :=
  match ch % 4 with
  | 2 => some 4
  | 0 => some 24
  | 1 => some 20
  | _ => none

/-- `g723_samples`, rtp.c:88-100: `buf` is the packet, `off` the payload offset. -/
def g723Samples (buf : List UInt8) (off maxlen pos samples : Nat) : Except Fault (Option Nat) :=
  if _h : pos < maxlen then
    match rd buf (off + pos) with
    | .error e => .error e
    | .ok ch =>
      match hn : g723Len ch with
      | none => .ok none
      | some n => g723Samples buf off maxlen (pos + n) (samples + 240)
  else .ok (some samples)
termination_by maxlen - pos
decreasing_by
  have : 0 < n := by
    unfold g723Len at hn
    split at hn <;> cases hn <;> omega
  omega

/-- `rtp_calc_samples`, rtp.c:102-126. -/
def calcSamples (codec nbytes : Nat) (buf : List UInt8) (off : Nat) : Except Fault (Option Nat) :=
  if codec = PCMU ∨ codec = PCMA then .ok (some nbytes)
  else if codec = G729 then .ok (some (nbytes / 10 * 80 + (if nbytes % 10 = 0 then 0 else 80)))
  else if codec = GSM then .ok (some (160 * (nbytes / 33)))
  else if codec = G723 then g723Samples buf off nbytes 0 0
  else if codec = G722 then .ok (some nbytes)
  else .ok none

/-- The second half of `rtp_packet_parse_raw`, rtp.c:323-343: the payload boundaries are known,
the fixed fields are extracted. -/
def parseTail (buf : List UInt8) (off padding : Nat) : Except Fault (Except PErr Info) := do
  let size := buf.length
  if size < off + padding then return .error .ptooshrtp
  let dataSize := size - off - padding
  let ts ← rd32 buf 4
  let seq ← rd16 buf 2
  let ssrc ← rd32 buf 8
  let b1 ← rd buf 1
  let pt := b1 % 128
  if dataSize = 0 then
    return .ok ⟨dataSize, off, none, ts, seq, ssrc, true, pt⟩
  let ns ← calcSamples pt dataSize buf off
  let appendable := !(decide (pt = G729) && decide (dataSize % 10 ≠ 0))
  return .ok ⟨dataSize, off, ns, ts, seq, ssrc, appendable, pt⟩

/-- The padding check of `rtp_packet_parse_raw`, rtp.c:312-321. -/
def parsePad (buf : List UInt8) (off : Nat) (p : Bool) : Except Fault (Except PErr Info) := do
  let size := buf.length
  if size < off then return .error .ptooshrtxh
  if p then
    if off = size then return .error .ptooshrtps
    let padding ← rd buf (size - 1)
    if padding = 0 then return .error .ips
    parseTail buf off padding
  else parseTail buf off 0

/-- `rtp_packet_parse_raw`, rtp.c:280-344.  The header bit-fields (rtp.h:80-106) are taken
from the bytes as on a little-endian machine: first byte version(2) P(1) X(1) CC(4), second
byte M(1) PT(7). -/
def parseRaw (buf : List UInt8) : Except Fault (Except PErr Info) := do
  let size := buf.length
  if size < 12 then return .error .ptooshrt
  let b0 ← rd buf 0
  let version := b0 / 64
  let p := decide (b0 / 32 % 2 = 1)
  let x := decide (b0 / 16 % 2 = 1)
  let cc := b0 % 16
  if version ≠ 2 then return .error .ihdrver
  let off := 12 + cc * 4
  if x then
    if size < off + 4 then return .error .ptooshrtxs
    let len ← rd16 buf (off + 2)
    parsePad buf (off + (4 + len * 4)) p
  else parsePad buf off p

/-- `rtp_packet_is_rtcp`, rtp_packet.c:163-177 (RTCP_PT_SR 200, RTCP_PR_SNM 213). -/
def isRtcp (buf : List UInt8) : Except Fault Bool := do
  if buf.length < 2 then return false
  let b0 ← rd buf 0
  let b1 ← rd buf 1
  return decide (b0 / 64 % 4 = 2) && decide (200 ≤ b1) && decide (b1 ≤ 213)

/-- `rtp_packet_is_stun`, rtp_packet.c:187-196 (STUN_MAGIC 0x2112A442). -/
def isStun (buf : List UInt8) : Except Fault Bool := do
  if buf.length < 20 then return false
  let m ← rd32 buf 4
  return decide (m = 0x2112A442)

/-- `rtp_packet_is_dtls`, rtp_packet.c:204-215. -/
def isDtls (buf : List UInt8) : Except Fault Bool := do
  if buf.length < 13 then return false
  let b ← rd buf 0
  return decide (19 < b) && decide (b < 64)

/-- `rtp_packet_parse`, rtp_packet.c:137-158, for a packet that was not parsed before. -/
def parse (buf : List UInt8) : Except Fault (Except PErr Info) := do
  if ← isRtcp buf then return .error .isrtcp
  parseRaw buf

/-- `ts_less`, rtp.h:146, on 32-bit operands. -/
def tsLess (a b : BitVec 32) : Bool := decide ((a - b).toNat > 2 ^ 31)

/-- `SEQ_DIST`, rtp.h:138-139, on 16-bit operands (promoted to `int`). -/
def seqDist (s1 s2 : Nat) : Nat := if s2 ≥ s1 then s2 - s1 else s2 + 65536 - s1

/-- Replace one byte. -/
def poke (b : List UInt8) (i : Nat) (v : Nat) : List UInt8 := b.set i (UInt8.ofNat v)

/-- `rtp_packet_set_seq`, rtp_packet.c:121-127: the header bytes and the parsed copy. -/
def setSeq (buf : List UInt8) (i : Info) (seq : Nat) : List UInt8 × Info :=
  (poke (poke buf 2 (seq / 256)) 3 (seq % 256), { i with seq := seq })

/-- `rtp_packet_set_ts`, rtp_packet.c:129-135. -/
def setTs (buf : List UInt8) (i : Info) (ts : Nat) : List UInt8 × Info :=
  (poke (poke (poke (poke buf 4 (ts / 16777216)) 5 (ts / 65536 % 256)) 6 (ts / 256 % 256)) 7
    (ts % 256), { i with ts := ts })

end Verif.Rtp
