import Verif.Util.Dec
import Verif.Str.Mem
import Verif.Str.Url

/-!
# Model of the DTMF catcher (`modules/catch_dtmf/rtpp_catch_dtmf.c`)

One stream: the history of events (`struct catch_dtmf_edata`) belongs to it, and the packets of the stream reach the
worker thread in the order in which they were queued.  A packet is the array `data.buf` (`MAX_RPKT_LEN` bytes,
rtp_packet.h:66) with the number of bytes received in front.  Bit fields of `struct rtp_dtmf_event` (lines 161-173) are laid out as
on a little-endian machine.
-/

namespace Verif.Dtmf

open Str

/-- `struct rtp_packet`, rtp_packet.h: `data.buf` and `size`. -/
structure Pkt where
  buf : List UInt8
  size : Nat
  deriving DecidableEq, Repr

/-- `struct catch_dtmf_einfo`, lines 76-81; a `digit` of -1 is `none`. -/
structure EI where
  pending : Bool
  digit : Option UInt8
  ts : Nat
  dur : Nat
  deriving DecidableEq, Repr

/-- `EINFO_HST_DPTH`, line 83. -/
def depth : Nat := 4

/-- `struct catch_dtmf_edata`, lines 85-90, without the side. -/
structure St where
  hst : List EI
  next : Nat
  deriving DecidableEq, Repr

/-- `rtpp_catch_dtmf_edata_ctor`, lines 136-153: zeroed memory, digits set to -1. -/
def St.init : St := ⟨List.replicate depth ⟨false, none, 0, 0⟩, 0⟩

/-- What the worker takes from a packet. -/
structure Tel where
  ts : Nat
  ev : Nat
  fin : Bool
  vol : Nat
  dur : Nat
  deriving DecidableEq, Repr

/-- Lines 198-199, 204-206: the event is taken at `sizeof(rtp_hdr_t)`, the time stamp from the header. -/
def fields (p : Pkt) : Except Fault Tel := do
  let t0 ← rd p.buf 4
  let t1 ← rd p.buf 5
  let t2 ← rd p.buf 6
  let t3 ← rd p.buf 7
  let e ← rd p.buf 12
  let f ← rd p.buf 13
  let d0 ← rd p.buf 14
  let d1 ← rd p.buf 15
  return { ts := ((t0.toNat * 256 + t1.toNat) * 256 + t2.toNat) * 256 + t3.toNat
           ev := e.toNat
           fin := decide (128 ≤ f.toNat)
           vol := f.toNat % 64
           dur := d0.toNat * 256 + d1.toNat }

/-- `dtmf_events`, line 185: seventeen characters and the NUL. -/
def table : List UInt8 := [48, 49, 50, 51, 52, 53, 54, 55, 56, 57, 42, 35, 65, 66, 67, 68, 32, 0]

/-- `hst[j]` -/
def at' (hst : List EI) (j : Nat) : Except Fault EI :=
  match hst[j]? with
  | none => .error .ub
  | some e => .ok e

/-- `hst_next - i`, wrapped, lines 209-211. -/
def slot (next i : Nat) : Nat := if next < i then depth + next - i else next - i

/-- Lines 208-216 from a given `i` on: the index of the remembered event with the time stamp. -/
def search (s : St) (t : Nat) (i : Nat) : Except Fault (Option Nat) :=
  if _h : i ≤ depth then
    match at' s.hst (slot s.next i) with
    | .error e => .error e
    | .ok e => if e.ts = t ∧ e.digit ≠ none then .ok (some (slot s.next i)) else search s t (i + 1)
  else .ok none
termination_by depth + 1 - i

/-- What is reported about an event, lines 251-253. -/
structure Note where
  digit : UInt8
  vol : Nat
  dur : Nat
  deriving DecidableEq, Repr

/-- Lines 218-229: a new event. -/
def remember (s : St) (d : UInt8) (x : Tel) : Except Fault St :=
  if s.next < s.hst.length then
    .ok ⟨s.hst.set s.next ⟨true, some d, x.ts, x.dur⟩, if s.next + 1 = depth then 0 else s.next + 1⟩
  else .error .ub

/-- Lines 230-253: a packet of the event in slot `j`. -/
def carryOn (s : St) (j : Nat) (e : EI) (d : UInt8) (x : Tel) : St × Option Note :=
  if !e.pending then (s, none)
  else if some d ≠ e.digit then (s, none)
  else
    let e1 := { e with dur := if e.dur < x.dur then x.dur else e.dur }
    if !x.fin then ({ s with hst := s.hst.set j e1 }, none)
    else ({ s with hst := s.hst.set j { e1 with pending := false } }, some ⟨d, x.vol, e1.dur⟩)

/-- Lines 200-253: one packet. -/
def step (s : St) (x : Tel) : Except Fault (St × Option Note) :=
  if x.ev > table.length - 1 then .ok (s, none)
  else match table[x.ev]? with
    | none => .error .ub
    | some d =>
      match search s x.ts 1 with
      | .error e => .error e
      | .ok none =>
        match remember s d x with
        | .error e => .error e
        | .ok s' => .ok (s', none)
      | .ok (some j) =>
        match at' s.hst j with
        | .error e => .error e
        | .ok e => .ok (carryOn s j e d x)

/-- `RTPP_MAX_NOTIFY_BUF`, line 175. -/
def maxBuf : Nat := 512

/-- What `snprintf` would print, lines 251-253: `"%.*s %c %u %u %d"`.  `%.*s` stops at a NUL. -/
def text (tag : List UInt8) (callee : Bool) (n : Note) : List UInt8 :=
  tag.takeWhile (· ≠ 0) ++ 32 :: n.digit :: 32 :: (Dec.dec n.vol ++ 32 :: (Dec.dec n.dur ++ [32, if callee then 49 else 48]))

/-- Lines 250-255 and `rtpp_notify_schedule`, rtpp_notify.c:178-194: `snprintf` stores at most `maxBuf - 1` characters and a NUL
but returns the length of the whole text; so many bytes are copied from the buffer.  The bytes of the buffer behind the
text are not initialised; they are copied only if the text is too long for the buffer, in which case there are none. -/
def message (tag : List UInt8) (callee : Bool) (n : Note) : Except Fault (List UInt8) :=
  let t := text tag callee n
  if t.length < maxBuf then .ok t
  else if t.length = maxBuf then .ok (t.take (maxBuf - 1) ++ [0])
  else .error .ub

/-- One round of the worker, lines 191-258: the message handed to the notifier, if any. -/
def work (tag : List UInt8) (callee : Bool) (s : St) (p : Pkt) : Except Fault (St × Option (List UInt8)) :=
  match fields p with
  | .error e => .error e
  | .ok x =>
    match step s x with
    | .error e => .error e
    | .ok (s', none) => .ok (s', none)
    | .ok (s', some n) =>
      match message tag callee n with
      | .error e => .error e
      | .ok m => .ok (s', some m)

/-- The packets of a stream one after another: for each the message it caused. -/
def runFrom (tag : List UInt8) (callee : Bool) (s : St) : List Pkt → Except Fault (List (Option (List UInt8)))
  | [] => .ok []
  | p :: ps =>
    match work tag callee s p with
    | .error e => .error e
    | .ok (s', m) =>
      match runFrom tag callee s' ps with
      | .error e => .error e
      | .ok ms => .ok (m :: ms)

def run (tag : List UInt8) (callee : Bool) (ps : List Pkt) : Except Fault (List (Option (List UInt8))) :=
  runFrom tag callee St.init ps

end Verif.Dtmf
