import Verif.Rtp.Model
import Verif.Analyze.Model

/-!
# Model of loading recordings (`extractaudio/rtpp_loader.c`, `eaud_adhoc.c`, `eaud_pcap.c`, parts of `extractaudio.c`)

A file is the list of its bytes (naturals below 256).  It is mapped into memory: bytes after its end up to the end of the
page read as zero, anything else outside is a fault.  Linux, little endian.  The macros `MYQ_…` are operations on lists.
Floating point is abstract: `T` is the type of times.  Decryption (SRTP) is left out: `crypto` is NULL.  Messages are left
out.
-/

namespace Verif.Eaud
open Verif.Rtp (Info parseRaw)

/-! ## The file -/

/-- The mapping of the file, rtpp_loader.c:102-114. -/
def mapped (b : List Nat) : List Nat := b ++ List.replicate ((b.length + 4095) / 4096 * 4096 - b.length) 0

/-- `n` bytes of the mapping. -/
def rd (b : List Nat) (pos : Int) (n : Nat) : Except Fault (List Nat) :=
  if 0 ≤ pos ∧ pos.toNat + n ≤ (mapped b).length then .ok (((mapped b).drop pos.toNat).take n) else .error .ub

/-- Numbers in memory. -/
def num : List Nat → Nat
  | [] => 0
  | x :: l => x + 256 * num l

/-- Conversion to `int`. -/
def toInt (x : Int) : Int := (x + 2147483648) % 4294967296 - 2147483648

inductive Kind where
  | adhoc
  /-- the data-link type -/
  | pcap (network : Nat)
  deriving DecidableEq, Repr

/-- `rtpp_load`, rtpp_loader.c:78-146, for a file that can be opened and mapped; `none` for NULL. -/
def kind (b : List Nat) : Except Fault (Option Kind) :=
  if b.length = 0 then .ok none
  else
    match rd b 0 24 with
    | .error f => .error f
    | .ok h =>
      if num (h.take 4) ≠ 0xa1b2c3d4 then .ok (some .adhoc)
      else if b.length < 24 then .ok none
      else
        let network := num (h.drop 20)
        if network ≠ 1 ∧ network ≠ 0 then .ok none
        else if num ((h.drop 4).take 2) ≠ 2 ∨ num ((h.drop 6).take 2) ≠ 4 then .ok none
        else .ok (some (.pcap network))

/-! ## Finding the packets -/

/-- Result of `eaud_adhoc_dissect`: the position of the header, the length of the packet, the position of the next one. -/
inductive Adhoc where
  | ok (hdr plen next : Nat)
  | eof (next : Nat)
  | trunk
  deriving DecidableEq, Repr

/-- `eaud_adhoc_dissect`, eaud_adhoc.c:44-68. -/
def adhocDissect (b : List Nat) (pos : Nat) : Except Fault Adhoc :=
  if pos < b.length then
    match rd b (pos + 28 : Nat) 2 with
    | .error f => .error f
    | .ok l =>
      if num l < 12 then adhocDissect b (pos + 30 + num l)
      else if b.length < pos + 30 + num l then .ok .trunk
      else .ok (.ok pos (num l) (pos + 30 + num l))
  else .ok (.eof pos)
termination_by b.length - pos

/-- Result of `eaud_pcap_dissect`: `skip` is `PCP_DSCT_UNKN` with the length of the record, `ok` has the seconds, the
microseconds and `l5_len`. -/
inductive Pcap where
  | ok (sec usec : Nat) (l5len : Int)
  | skip (len : Int)
  | trunk
  deriving DecidableEq, Repr

/-- Length of the headers before the payload: `struct pkt_hdr_pcap_null`, `struct pkt_hdr_pcap_en10t`. -/
def hdrLen (network : Nat) : Nat := if network = 0 then 16 + 4 + 28 else 16 + 14 + 28

/-- `eaud_pcap_dissect`, eaud_pcap.c:53-103. -/
def pcapDissect (b : List Nat) (network : Nat) (pos : Int) : Except Fault Pcap :=
  if (b.length : Int) - pos < hdrLen network then .ok .trunk
  else
    match rd b pos (hdrLen network) with
    | .error f => .error f
    | .ok h =>
      let incl := num ((h.drop 8).take 4)
      let known := if network = 0 then num ((h.drop 16).take 4) = 2 else (h.drop 28).take 2 = [0x08, 0x00]
      if ¬ known then .ok (.skip (toInt (16 + incl)))
      else
        let l5 := toInt (incl + 16 - hdrLen network)
        if l5 < 0 then .ok .trunk
        else .ok (.ok (num (h.take 4)) (num ((h.drop 4).take 4)) l5)

/-! ## Channels -/

/-- What is done with floating point, and the table of payload types. -/
structure Clock (T : Type) where
  /-- a `double` in memory -/
  dbl : List Nat → T
  /-- `ts2dtime` -/
  ts2d : Nat → Nat → T
  lt : T → T → Bool
  /-- the time in units of the clock rate of the payload type -/
  rt : Nat → T → Nat
  rated : Nat → Bool
  audio : Nat → Bool

variable {T J : Type}

/-- `struct packet`, session.h:85-91. -/
structure Packet (T : Type) where
  time : T
  info : Info
  data : List UInt8
  deriving DecidableEq

inductive Origin where
  | b
  | a
  deriving DecidableEq, Repr

/-- `struct channel`. -/
structure Chan (T : Type) where
  pkts : List (Packet T)
  origin : Origin
  deriving DecidableEq

/-- Putting a packet in order, rtpp_loader.c:233-246, 364-377: from the last packet (here the first one of the list)
backwards; `none` for a duplicate. -/
def insertRev (new : Packet T) : List (Packet T) → Option (List (Packet T))
  | [] => some [new]
  | pp :: rest =>
    if pp.info.seq = new.info.seq then none
    else if pp.info.ts < new.info.ts ∨ pp.info.seq < new.info.seq then some (new :: pp :: rest)
    else (insertRev new rest).map (pp :: ·)

def insert (new : Packet T) (l : List (Packet T)) : Option (List (Packet T)) := (insertRev new l.reverse).map List.reverse

/-- `session_lookup`, extractaudio.c:124-137: the position of the channel. -/
def lookup (ssrc : Nat) : List (Chan T) → Except Fault (Option Nat)
  | [] => .ok none
  | c :: rest =>
    match c.pkts with
    | [] => .error .ub
    | p :: _ =>
      if p.info.ssrc = ssrc then .ok (some 0)
      else
        match lookup ssrc rest with
        | .error f => .error f
        | .ok r => .ok (r.map (· + 1))

/-- The loop of `channel_insert`, from the last channel backwards. -/
def chanRev (k : Clock T) (new : Chan T) (t : T) : List (Chan T) → Except Fault (List (Chan T))
  | [] => .ok [new]
  | c :: rest =>
    match c.pkts with
    | [] => .error .ub
    | p :: _ =>
      if k.lt p.time t then .ok (new :: c :: rest)
      else
        match chanRev k new t rest with
        | .error f => .error f
        | .ok l => .ok (c :: l)

/-- `channel_insert`, extractaudio.c:139-159, if memory can be had. -/
def chanInsert (k : Clock T) (l : List (Chan T)) (new : Chan T) : Except Fault (List (Chan T)) :=
  match new.pkts with
  | [] => .error .ub
  | p :: _ => (chanRev k new p.time l.reverse).map List.reverse

/-- Which allocations succeed while a packet is loaded. -/
structure Sys where
  pack : Bool
  jdata : Bool
  chan : Bool
  cnode : Bool

/-- State of a loader: channels, statistics, `pcount`. -/
structure St (T J : Type) where
  chans : List (Chan T)
  an : Analyze.An J
  pcount : Nat

/-- The packet for the statistics. -/
def forStats (k : Clock T) (sys : Sys) (time : T) (data : List UInt8) (i : Info) : Analyze.Pkt :=
  { seq := i.seq, ssrc := i.ssrc, ts := i.ts, marker := decide (128 ≤ (data.getD 1 0).toNat), rated := k.rated i.pt
    audio := k.audio i.pt, rt := k.rt i.pt time, oom := !sys.jdata }

/-- A packet that is worth keeping, rtpp_loader.c:216-248, 346-379. -/
def place (k : Clock T) (sys : Sys) (origin : Origin) (s : St T J) (p : Packet T) : Except Fault (Option (St T J)) :=
  match lookup p.info.ssrc s.chans with
  | .error f => .error f
  | .ok none =>
    if !sys.chan then .ok none
    else if !sys.cnode then .ok none
    else
      match chanInsert k s.chans ⟨[p], origin⟩ with
      | .error f => .error f
      | .ok l => .ok (some { s with chans := l, pcount := s.pcount + 1 })
  | .ok (some n) =>
    match s.chans[n]? with
    | none => .error .ub
    | some c =>
      match insert p c.pkts with
      | none => .ok (some s)
      | some l => .ok (some { s with chans := s.chans.set n { c with pkts := l }, pcount := s.pcount + 1 })

/-- What follows the statistics, rtpp_loader.c:203-214, 334-344. -/
def keep (k : Clock T) (sys : Sys) (origin : Origin) (s : St T J) (p : Packet T) : Analyze.Rval → Except Fault (Option (St T J))
  | .err => .ok none
  | _ => if p.info.nsamples.getD 0 = 0 then .ok (some s) else place k sys origin s p

/-- One packet found in the file, rtpp_loader.c:188-250, 308-381; `none` for the return of -1. -/
def feed (k : Clock T) (fl : Analyze.Fl J) (sys : Sys) (origin : Origin) (s : St T J) (time : T) (data : List UInt8) :
    Except Fault (Option (St T J)) :=
  if !sys.pack then .ok none
  else
    match parseRaw data with
    | .error f => .error f
    | .ok (.error _) => .ok (some s)
    | .ok (.ok i) =>
      match Analyze.update fl s.an (forStats k sys time data i) with
      | .error f => .error f
      | .ok (an, r) => keep k sys origin { s with an := an } ⟨time, i, data⟩ r

def octets (l : List Nat) : List UInt8 := l.map UInt8.ofNat

theorem adhocDissect_next {b : List Nat} {pos h n next : Nat} : adhocDissect b pos = .ok (.ok h n next) → pos < next ∧ next ≤ b.length := by
  induction pos using adhocDissect.induct b with
  | case1 pos hp f hf => intro h; rw [adhocDissect, if_pos hp, hf] at h; cases h
  | case2 pos hp l hl hn ih =>
    intro h
    rw [adhocDissect, if_pos hp, hl] at h
    simp only [hn, if_true] at h
    have := ih h
    omega
  | case3 pos hp l hl hn ht =>
    intro h
    rw [adhocDissect, if_pos hp, hl] at h
    simp only [hn, ht, if_true, if_false] at h
    cases h
  | case4 pos hp l hl hn ht =>
    intro h
    rw [adhocDissect, if_pos hp, hl] at h
    simp only [hn, ht, if_false] at h
    cases h
    omega
  | case5 pos hp =>
    intro h
    rw [adhocDissect, if_neg hp] at h
    cases h

/-- `load_adhoc`, rtpp_loader.c:161-260, from the position on; the channels and the result (`none` for -1).  `sys` says
what happens at the packet at each position. -/
def loadAdhoc (k : Clock T) (fl : Analyze.Fl J) (sys : Nat → Sys) (origin : Origin) (b : List Nat) (pos : Nat) (s : St T J) :
    Except Fault (St T J × Option Nat) :=
  if pos < b.length then
    match _hd : adhocDissect b pos with
    | .error f => .error f
    | .ok .trunk => .ok (s, none)
    | .ok (.eof next) => .ok (s, if next = b.length then some s.pcount else none)
    | .ok (.ok hdr n next) =>
      match rd b (hdr + 20 : Nat) 8, rd b (hdr + 30 : Nat) n with
      | .ok t, .ok d =>
        match feed k fl (sys hdr) origin s (k.dbl t) (octets d) with
        | .error f => .error f
        | .ok none => .ok (s, none)
        | .ok (some s) => loadAdhoc k fl sys origin b next s
      | _, _ => .error .ub
  else .ok (s, if pos = b.length then some s.pcount else none)
termination_by b.length - pos
decreasing_by have := adhocDissect_next _hd; omega

/-- `load_pcap`, rtpp_loader.c:262-391, from the position on; `none` if not finished after so many records. -/
def loadPcap (k : Clock T) (fl : Analyze.Fl J) (sys : Int → Sys) (origin : Origin) (b : List Nat) (network : Nat) :
    Nat → Int → St T J → Except Fault (Option (St T J × Option Nat))
  | 0, _, _ => .ok none
  | fuel + 1, pos, s =>
    if pos < b.length then
      match pcapDissect b network pos with
      | .error f => .error f
      | .ok .trunk => .ok (some (s, none))
      | .ok (.skip n) => loadPcap k fl sys origin b network fuel (pos + n) s
      | .ok (.ok sec usec n) =>
        if n < 12 then loadPcap k fl sys origin b network fuel (pos + hdrLen network + n) s
        else
          match rd b (pos + hdrLen network) n.toNat with
          | .error f => .error f
          | .ok d =>
            match feed k fl (sys pos) origin s (k.ts2d sec usec) (octets d) with
            | .error f => .error f
            | .ok none => .ok (some (s, none))
            | .ok (some s) => loadPcap k fl sys origin b network fuel (pos + hdrLen network + n) s
    else .ok (some (s, if pos = b.length then some s.pcount else none))

/-- `load_session`, extractaudio.c:179-215: a file into the channels found so far; the capture's records are counted from
the end of its header. -/
def load (k : Clock T) (fl : Analyze.Fl J) (sys : Int → Sys) (fuel : Nat) (origin : Origin) (b : List Nat) (chans : List (Chan T)) :
    Except Fault (Option (List (Chan T) × Option Nat)) :=
  match kind b with
  | .error f => .error f
  | .ok none => .ok (some (chans, none))
  | .ok (some .adhoc) =>
    match loadAdhoc k fl (fun p => sys p) origin b 0 ⟨chans, .init fl, 0⟩ with
    | .error f => .error f
    | .ok (s, r) => .ok (some (s.chans, r))
  | .ok (some (.pcap network)) =>
    match loadPcap k fl sys origin b network fuel 24 ⟨chans, .init fl, 0⟩ with
    | .error f => .error f
    | .ok none => .ok none
    | .ok (some (s, r)) => .ok (some (s.chans, r))

end Verif.Eaud
