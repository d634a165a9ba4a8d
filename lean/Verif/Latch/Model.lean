import Verif.Rtp.Model

/-!
# Model of source latching (`src/rtpp_stream.c`)

A media leg: an RTP stream and, possibly, its RTCP companion.  Each operation runs with the stream's mutex held and
is atomic.  Addresses are host and port (the C code compares whole `sockaddr`s; padding and IPv6 scope are taken to
agree).  Time is in microseconds of the monotonic clock; the `double` arithmetic is exact here.  Packet parsing is
`rtp_packet_parse` (`Verif.Rtp`), represented by its result.  Logging, hold status, playback start and the socket are
left out, and so is the in-process packet port (library builds).
-/

namespace Verif.Latch

structure Addr where
  host : Nat
  port : Nat
  deriving DecidableEq, Repr

/-- A received datagram: source and, when it parses as RTP, SSRC and sequence number. -/
structure Pkt where
  src : Addr
  rtp : Option (Nat × Nat)
  deriving DecidableEq, Repr

/-- `enum rtpps_latch_mode`, rtpp_stream.h:50-54. -/
inductive Mode where
  | normal
  | forceOff
  | forceOn
  deriving DecidableEq, Repr

/-- The fields of `struct rtpp_stream_priv` involved, rtpp_stream.c:95-135. -/
structure Strm where
  rtcp : Bool
  asym : Bool
  mode : Mode
  rem : Option Addr
  prev : Option Addr
  untrusted : Bool
  /-- 0: never. -/
  lastUpdate : Int
  latched : Bool
  ssrc : Option Nat
  seq : Nat
  lastSync : Int
  deriving DecidableEq, Repr

/-- `UPDATE_WINDOW`, rtpp_defines.h:48. -/
def window : Int := 10000000
/-- `SEQ_SYNC_IVAL`, rtpp_stream.c:91. -/
def syncIval : Int := 1000000

/-- `__rtpp_stream_fill_addr`, rtpp_stream.c:813-834. -/
def fill1 (s : Strm) (p : Pkt) : Strm :=
  { s with untrusted := true, rem := some p.src,
           latched := if s.prev = none ∨ s.prev ≠ some p.src then true else s.latched }

/-- `_rtpp_stream_latch`, rtpp_stream.c:645-701. -/
def latch (s : Strm) (now : Int) (p : Pkt) : Strm :=
  if s.mode = .forceOn then fill1 s p
  else if s.lastUpdate ≠ 0 ∧ now - s.lastUpdate < window then s
  else if s.rtcp then { s with ssrc := none, latched := true }
  else match p.rtp with
    | some (ssrc, seq) => { s with ssrc := some ssrc, seq := seq, lastSync := now, latched := ssrc ≠ 0 }
    | none => { s with ssrc := none, latched := true }

/-- `_rtpp_stream_latch_sync`, rtpp_stream.c:737-754. -/
def latchSync (s : Strm) (now : Int) (p : Pkt) : Strm :=
  if s.rtcp then s
  else match s.ssrc with
    | none => s
    | some v =>
      if now - s.lastSync < syncIval then s
      else match p.rtp with
        | none => s
        | some (ssrc, seq) => if v ≠ ssrc then s else { s with seq := seq, lastSync := now }

/-- `_rtpp_stream_check_latch_override`, rtpp_stream.c:756-787; `none`: not allowed. -/
def override (s : Strm) (now : Int) (p : Pkt) : Option Strm :=
  if s.rtcp then none
  else match s.ssrc with
    | none => none
    | some v =>
      if s.mode = .forceOn then none
      else match p.rtp with
        | none => none
        | some (ssrc, seq) =>
          if (s.lastUpdate = 0 ∨ now - s.lastUpdate > window) ∧ (ssrc ≠ v ∨ Rtp.seqDist s.seq seq > 536) then none
          else some { s with seq := seq, lastSync := now }

/-- `rtpp_stream_guess_addr` on the RTCP companion, rtpp_stream.c:836-870. -/
def guess (s : Strm) (p : Pkt) : Strm :=
  match s.rem with
  | some a => if a.host = p.src.host then s else guessSet s p
  | none => guessSet s p
where
  guessSet (s : Strm) (p : Pkt) : Strm :=
    if p.src.port = 65535 then s
    else { s with rem := some ⟨p.src.host, p.src.port + 1⟩, latched := s.asym }

/-- The stream after `rtpp_stream_rx` (rtpp_stream.c:1180-1249), whether the packet is passed on, and whether the
address was filled in from it (then the companion is told). -/
def rx1 (s : Strm) (now : Int) (p : Pkt) : Strm × Bool × Bool :=
  if s.mode = .forceOff then (s, true, false)
  else match s.rem with
    | none => (latchSync (fill1 s p) now p, true, true)
    | some a =>
      if s.asym then
        if a.host ≠ p.src.host then (s, false, false) else (latchSync s now p, true, false)
      else if a ≠ p.src then
        if s.latched then
          match override s now p with
          | none => (s, false, false)
          | some s' => (latchSync (fill1 s' p) now p, true, true)
        else (latchSync (fill1 (latch s now p) p) now p, true, true)
      else if s.latched then (latchSync s now p, true, false)
      else (latchSync (latch s now p) now p, true, false)

/-- `rtpp_stream_prefill_addr`, rtpp_stream.c:872-920: the address given by signalling. -/
def prefill (s : Strm) (now : Int) (a : Addr) : Strm :=
  let s1 := if s.rem ≠ none then { s with lastUpdate := now } else s
  if s1.untrusted then s1
  else if s1.rem = some a then s1
  else { s1 with prev := if s1.rem ≠ none ∧ s1.latched then s1.rem else s1.prev, rem := some a }

/-- A leg. -/
structure Leg where
  rtp : Strm
  rtcp : Option Strm
  deriving DecidableEq, Repr

inductive Ev where
  /-- A datagram at the RTP port; `chg`: the analyser reports a change of SSRC (rtpp_stream.c:219-231). -/
  | rxRtp (now : Int) (p : Pkt) (chg : Bool)
  /-- A datagram at the RTCP port. -/
  | rxRtcp (now : Int) (p : Pkt)
  /-- Signalling. -/
  | prefill (now : Int) (a ac : Addr)
  deriving DecidableEq, Repr

/-- One event; the flag tells whether a received packet was passed on. -/
def step (l : Leg) : Ev → Leg × Bool
  | .rxRtp now p chg =>
    let (s, pass, filled) := rx1 l.rtp now p
    let c := if filled then l.rtcp.map (guess · p) else l.rtcp
    let s := if pass ∧ chg ∧ s.mode ≠ .forceOn then latch s now p else s
    (⟨s, c⟩, pass)
  | .rxRtcp now p =>
    match l.rtcp with
    | none => (l, false)
    | some c => let (c', pass, _) := rx1 c now p
      (⟨l.rtp, some c'⟩, pass)
  | .prefill now a ac => (⟨prefill l.rtp now a, l.rtcp.map (prefill · now ac)⟩, true)

/-- Final state and the flags. -/
def run (l : Leg) : List Ev → Leg × List Bool
  | [] => (l, [])
  | e :: es => let (l', b) := step l e
    let (l'', bs) := run l' es
    (l'', b :: bs)

end Verif.Latch
