import Verif.Rtp.Model

/-!
# Model of the packet resizer, `src/rtp_resizer.c` (and the chunk finders of `src/rtp.c`)

A packet buffer (`data.buf`, `MAX_RPKT_LEN` = 8192 bytes, rtp_packet.h:37) is represented by the
bytes before `data_offset` (`hdr`) and the bytes from there to the end of the buffer (`body`);
`data_offset` never changes once a packet is parsed.  `memcpy`/`memmove` outside of the buffer and
negative sizes are `Fault.ub`, a failed `assert` is `Fault.abort`.

The doubly linked queue is a `List` (head first).  Reference counts are not modelled here.
Clock readings enter as arbitrary numbers: `dtime * 8000.0` is an argument.  (In C the conversion
of a double that exceeds 2^32 to `uint32_t` is formally undefined; the model reduces modulo 2^32,
as x86-64 does.)
-/

namespace Verif.Resizer

open Verif.Rtp (PCMU PCMA GSM G723 G722 G729 g723Len rd poke)

/-- `MAX_RPKT_LEN`, rtp_packet.h:37. -/
def cap : Nat := 8192

/-- `struct rtp_packet` (rtp_packet.h:39-69) with its `struct rtp_info` (rtp_info.h). -/
structure Pkt where
  hdr : List UInt8
  body : List UInt8
  /-- `pkt->size` -/
  size : Nat
  ts : Nat
  seq : Nat
  ssrc : Nat
  /-- `data.header.pt`; also kept as `parsed->rtp_profile`; never changed by this code. -/
  pt : Nat
  /-- `parsed->nsamples` (known: packets with an unknown number are not accepted) -/
  ns : Nat
  /-- `parsed->data_size` -/
  ds : Nat
  /-- `parsed->appendable` -/
  app : Bool
  deriving DecidableEq, Repr

/-- The payload as described by the parsed header. -/
def Pkt.payload (p : Pkt) : List UInt8 := p.body.take p.ds

/-- The bytes that are sent: `sendto(…, pkt->data.buf, pkt->size)`. -/
def Pkt.wire (p : Pkt) : List UInt8 := (p.hdr ++ p.body).take p.size

/-- `ts_less`, rtp.h:146, on unsigned 32-bit values given as naturals. -/
def tsl (a b : Nat) : Bool := Rtp.tsLess (BitVec.ofNat 32 a) (BitVec.ofNat 32 b)

/-- 32-bit unsigned arithmetic. -/
def u32 (n : Nat) : Nat := n % 4294967296
def sub32 (a b : Nat) : Nat := (a + 4294967296 - b % 4294967296) % 4294967296

/-- `memcpy`/`memmove` of `bytes` to offset `at_` of a region. -/
def wr (body : List UInt8) (at_ : Nat) (bytes : List UInt8) : Except Fault (List UInt8) :=
  if at_ + bytes.length ≤ body.length then
    .ok (body.take at_ ++ bytes ++ body.drop (at_ + bytes.length))
  else .error .ub

/-- Reading `n` bytes at offset `off` of a region. -/
def rdn (body : List UInt8) (off n : Nat) : Except Fault (List UInt8) :=
  if off + n ≤ body.length then .ok ((body.drop off).take n) else .error .ub

/-- `min_nsamples`, rtp_resizer.c:70-83. -/
def minNsamples (pt : Nat) : Nat :=
  if pt = GSM then 160 else if pt = G723 then 240 else 80

/-- `struct rtp_packet_chunk`, rtp.h:131-135; `none` is `whole_packet_matched`. -/
structure Chunk where
  bytes : Nat
  ns : Nat
  deriving DecidableEq, Repr

/-- The loop of `rtp_packet_chunk_find_g723`, rtp.c:185-190: returns position and samples. -/
def g723Walk (body : List UInt8) (ds samples pos found : Nat) : Except Fault (Nat × Nat) :=
  if _h : pos < ds ∧ samples > found then
    match rd body pos with
    | .error e => .error e
    | .ok ch =>
      match hn : g723Len ch with
      | none => .error .abort
      | some n => g723Walk body ds samples (pos + n) (found + 240)
  else .ok (pos, found)
termination_by ds - pos
decreasing_by
  have : 0 < n := by
    unfold g723Len at hn
    split at hn <;> cases hn <;> omega
  omega

/-- Number of frames of `k` samples covering `m` samples, as computed in rtp.c:141, 157, 174. -/
def framesUp (m k : Nat) : Nat := m / k + (if m % k = 0 then 0 else 1)

/-- `rtp_packet_first_chunk_find`, rtp.c:209-242, with the per-codec functions rtp.c:128-200. -/
def chunkFind (p : Pkt) (m : Nat) : Except Fault (Option Chunk) :=
  if ¬ (p.ns > m) then .error .abort
  else if p.pt = PCMU ∨ p.pt = PCMA then .ok (some ⟨m, m⟩)
  else if p.pt = G729 then
    if framesUp m 80 * 80 ≥ p.ns then .ok none
    else .ok (some ⟨framesUp m 80 * 10, framesUp m 80 * 80⟩)
  else if p.pt = GSM then
    if framesUp m 160 * 160 ≥ p.ns then .ok none
    else .ok (some ⟨framesUp m 160 * 33, framesUp m 160 * 160⟩)
  else if p.pt = G723 then
    if framesUp m 240 * 240 ≥ p.ns then .ok none
    else
      match g723Walk p.body p.ds (framesUp m 240 * 240) 0 0 with
      | .error e => .error e
      | .ok (pos, found) => .ok (some ⟨if pos < p.ds then pos else p.ds, found⟩)
  else if p.pt = G722 then .ok (some ⟨m / 2, m⟩)
  else .ok none

/-- `rtp_packet_set_ts`, rtp_packet.c:129-135. -/
def setTs (p : Pkt) (ts : Nat) : Pkt :=
  { p with
    ts := ts
    hdr := poke (poke (poke (poke p.hdr 4 (ts / 16777216)) 5 (ts / 65536 % 256)) 6
      (ts / 256 % 256)) 7 (ts % 256) }

/-- `rtp_packet_set_seq`, rtp_packet.c:121-127. -/
def setSeq (p : Pkt) (seq : Nat) : Pkt :=
  { p with seq := seq, hdr := poke (poke p.hdr 2 (seq / 256)) 3 (seq % 256) }

/-- `p->data.header.mbt = 0`, rtp_resizer.c:338. -/
def clearMbt (p : Pkt) : Pkt :=
  { p with hdr := poke p.hdr 1 ((p.hdr.getD 1 0).toNat % 128) }

/-- `append_packet`, rtp_resizer.c:236-246. -/
def appendPacket (dst src : Pkt) : Except Fault Pkt :=
  match rdn src.body 0 src.ds with
  | .error e => .error e
  | .ok bytes =>
    match wr dst.body dst.ds bytes with
    | .error e => .error e
    | .ok body => .ok { dst with
        body := body
        ns := dst.ns + src.ns
        ds := dst.ds + src.ds
        size := dst.size + src.ds
        app := src.app }

/-- "Truncate the source packet", rtp_resizer.c:259-265 and 278-284. -/
def truncSrc (src : Pkt) (c : Chunk) : Except Fault Pkt :=
  if src.ns < c.ns ∨ src.ds < c.bytes ∨ src.size < c.bytes then .error .ub
  else
    let s1 := setTs src (u32 (src.ts + c.ns))
    match rdn s1.body c.bytes (src.ds - c.bytes) with
    | .error e => .error e
    | .ok bytes =>
      match wr s1.body 0 bytes with
      | .error e => .error e
      | .ok body => .ok { s1 with
          ns := src.ns - c.ns
          ds := src.ds - c.bytes
          size := src.size - c.bytes
          body := body }

/-- `append_chunk`, rtp_resizer.c:248-266. -/
def appendChunk (dst src : Pkt) (c : Chunk) : Except Fault (Pkt × Pkt) :=
  match rdn src.body 0 c.bytes with
  | .error e => .error e
  | .ok bytes =>
    match wr dst.body dst.ds bytes with
    | .error e => .error e
    | .ok body =>
      match truncSrc src c with
      | .error e => .error e
      | .ok src' => .ok ({ dst with
          body := body
          ns := dst.ns + c.ns
          ds := dst.ds + c.bytes
          size := dst.size + c.bytes }, src')

/-- `rtp_packet_dup(ret, p, RTPP_DUP_HDRONLY)`, rtp_packet.c:50-75, into a zeroed packet:
`size - data_size` bytes are copied from the start of the buffer. -/
def dupHdr (p : Pkt) : Except Fault Pkt :=
  if p.size < p.ds then .error .ub
  else
    let k := p.size - p.ds - p.hdr.length
    .ok { p with
      body := p.body.take k ++ List.replicate (p.body.length - (p.body.take k).length) 0
      size := p.size - p.ds
      ds := 0
      ns := 0 }

/-- `move_chunk`, rtp_resizer.c:268-285. -/
def moveChunk (dst src : Pkt) (c : Chunk) : Except Fault (Pkt × Pkt) :=
  match rdn src.body 0 c.bytes with
  | .error e => .error e
  | .ok bytes =>
    match wr dst.body 0 bytes with
    | .error e => .error e
    | .ok body =>
      match truncSrc src c with
      | .error e => .error e
      | .ok src' => .ok ({ dst with
          body := body
          ns := c.ns
          ds := c.bytes
          size := c.bytes + dst.hdr.length }, src')

/-- `struct rtp_resizer`, rtp_resizer.c:47-68. -/
structure St where
  total : Int
  seq : Option Nat
  ssrc : Option Nat
  lastSent : Option Nat
  tsdelta : Option Nat
  outN : Nat
  maxBuf : Nat
  q : List Pkt
  deriving DecidableEq, Repr

/-- `rtp_resizer_set_ptime`, rtp_resizer.c:125-137. -/
def setPtime (s : St) (ptime : Nat) : St :=
  { s with
    outN := ptime * 8
    maxBuf := if ptime * 8 * 2 < 320 then 320 else ptime * 8 * 2 }

/-- `rtp_resizer_new`, rtp_resizer.c:85-95. -/
def new (ptime : Nat) : St := setPtime ⟨0, none, none, none, none, 0, 0, []⟩ ptime

/-- The insertion loop, rtp_resizer.c:190-220: walk from the tail while the new packet is
earlier. -/
def insertQ (p : Pkt) (q : List Pkt) : List Pkt :=
  let later := q.reverse.takeWhile (fun x => tsl p.ts x.ts)
  let rest := q.reverse.dropWhile (fun x => tsl p.ts x.ts)
  rest.reverse ++ p :: later.reverse

/-- What became of a packet offered to the resizer. -/
inductive EnqOut where
  /-- left with the caller (not RTP, or of unknown duration): it is relayed unchanged -/
  | pass
  /-- dropped: arrived after later audio was sent -/
  | late
  /-- taken over -/
  | taken (p : Pkt)
  deriving DecidableEq, Repr

/-- The parsed packet, rtp_packet.c:137-158; `junk` is the rest of the buffer. -/
def mkPkt (dgram junk : List UInt8) (i : Rtp.Info) (n : Nat) : Pkt :=
  { hdr := dgram.take i.dataOffset
    body := dgram.drop i.dataOffset ++ junk
    size := dgram.length
    ts := i.ts, seq := i.seq, ssrc := i.ssrc, pt := i.pt, ns := n, ds := i.dataSize,
    app := i.appendable }

/-- The clock synchronisation of `rtp_resizer_enqueue`, rtp_resizer.c:172-189;
`now` is `internal_ts`. -/
def syncDelta (s : St) (ts now : Nat) : Nat :=
  match s.tsdelta with
  | none => u32 (sub32 ts now + 40)
  | some d =>
    let ref := u32 (now + d)
    if tsl ref ts then u32 (sub32 ts now + 40)
    else if tsl (u32 (ts + s.outN + 160)) ref then
      sub32 d (sub32 ref (u32 (ts + s.outN + 160)) / 2)
    else d

/-- The SSRC bookkeeping, rtp_resizer.c:154-162. -/
def switchSsrc (s : St) (ssrc : Nat) : St :=
  if s.ssrc = some ssrc then s
  else match s.ssrc with
    | none => { s with ssrc := some ssrc }
    | some _ => { s with ssrc := some ssrc, lastSent := none, tsdelta := none }

/-- The check for late packets, rtp_resizer.c:164. -/
def isLate (s : St) (ts : Nat) : Bool :=
  match s.lastSent with
  | none => false
  | some t => tsl ts t

/-- `rtp_resizer_enqueue`, rtp_resizer.c:139-223. -/
def enqueue (s : St) (dgram junk : List UInt8) (now : Nat) : Except Fault (St × EnqOut) :=
  match Rtp.parse dgram with
  | .error e => .error e
  | .ok (.error _) => .ok (s, .pass)
  | .ok (.ok i) =>
    match i.nsamples with
    | none => .ok (s, .pass)
    | some n =>
      let p := mkPkt dgram junk i n
      let s1 := switchSsrc s p.ssrc
      if isLate s1 p.ts then .ok (s1, .late)
      else
        .ok ({ s1 with
          tsdelta := some (syncDelta s1 p.ts now)
          q := insertQ p s1.q
          total := s1.total + p.ns }, .taken p)

/-- The aggregation loop of `rtp_resizer_get` (rtp_resizer.c:321-412) once there is an output
packet `ret`. -/
def gather (target : Nat) (ret : Pkt) : List Pkt → Except Fault (Pkt × List Pkt)
  | [] => .ok (ret, [])
  | p :: q =>
    if ¬ ret.ns < target then .ok (ret, p :: q)
    else if u32 (ret.ts + ret.ns) ≠ p.ts ∨ ret.pt ≠ p.pt then .ok (ret, p :: q)
    else if target - ret.ns > 0 ∧ target - ret.ns < p.ns then
      match chunkFind p (target - ret.ns) with
      | .error e => .error e
      | .ok none =>
        if ret.size + p.ds > cap then .ok (ret, p :: q)
        else match appendPacket ret p with
          | .error e => .error e
          | .ok r => .ok (r, q)
      | .ok (some c) =>
        if ret.size + c.bytes > cap then .ok (ret, p :: q)
        else match appendChunk ret p c with
          | .error e => .error e
          | .ok (r, p') => .ok (r, p' :: q)
    else if ret.size + p.ds > cap then .ok (ret, p :: q)
    else match appendPacket ret p with
      | .error e => .error e
      | .ok r => if r.app then gather target r q else .ok (r, q)

/-- The output size, rtp_resizer.c:312-318. -/
def targetOf (outN pt : Nat) : Nat :=
  let m := minNsamples pt
  if outN < m then m
  else if outN % m ≠ 0 then outN + (m - outN % m)
  else outN

/-- The aggregation, rtp_resizer.c:321-412: first iteration (`ret == NULL`), then `gather`.
`none`: the allocation of the output packet failed (rtp_resizer.c:333-335). -/
def collect (allocOk : Bool) (target : Nat) (p : Pkt) (q : List Pkt) :
    Except Fault (Option (Pkt × List Pkt)) :=
  if p.ns > target then
    match chunkFind p target with
    | .error e => .error e
    | .ok none => .ok (some (p, q))
    | .ok (some c) =>
      if allocOk = false then .ok none
      else match dupHdr p with
        | .error e => .error e
        | .ok r0 => match moveChunk r0 (clearMbt p) c with
          | .error e => .error e
          | .ok (r, p') => .ok (some (r, p' :: q))
  else if p.app then
    match gather target p q with
    | .error e => .error e
    | .ok r => .ok (some r)
  else .ok (some (p, q))

/-- `rtp_resizer_get`, rtp_resizer.c:287-424; `dt` is `dtime * 8000.0`. -/
def get (s : St) (dt : Nat) (allocOk : Bool) : Except Fault (St × Option Pkt) :=
  match s.q with
  | [] => .ok (s, none)
  | p :: q =>
    if s.total < s.outN ∧ tsl (u32 (dt + s.tsdelta.getD 0)) (u32 (p.ts + s.maxBuf)) then
      .ok (s, none)
    else
      match collect allocOk (targetOf s.outN p.pt) p q with
      | .error e => .error e
      | .ok none => .ok (s, none)
      | .ok (some (r, q')) =>
        let sq := s.seq.getD r.seq
        .ok ({ s with
          q := q'
          total := s.total - r.ns
          seq := some ((sq + 1) % 65536)
          lastSent := some (u32 (r.ts + r.ns)) }, some (setSeq r sq))

end Verif.Resizer
