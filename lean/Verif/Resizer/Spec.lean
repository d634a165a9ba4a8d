import Verif.Resizer.Model
import Verif.Rtp.Props

/-!
# Specification vocabulary for the resizer (C10)
-/

namespace Verif.Resizer

open Verif.Rtp (PCMU PCMA GSM G723 G722 G729)

/-- Samples per frame of the codecs with frames of constant size (RFC 3551): one for G.711, 80 for
G.729 (10 ms), 160 for GSM (20 ms). -/
def spf (pt : Nat) : Nat := if pt = G729 then 80 else if pt = GSM then 160 else 1

/-- Bytes per frame. -/
def bpf (pt : Nat) : Nat := if pt = G729 then 10 else if pt = GSM then 33 else 1

/-- Every payload byte together with the timestamp of the frame it belongs to. -/
def stampAt (pt ts : Nat) (l : List UInt8) : List (Nat × UInt8) :=
  l.zipIdx.map fun x => (u32 (ts + x.2 / bpf pt * spf pt), x.1)

def stamps (p : Pkt) : List (Nat × UInt8) := stampAt p.pt p.ts p.payload

/-- Packets for which the time stamps of all bytes are determined: G.711, G.729, and GSM
made of whole frames. -/
def Timed (p : Pkt) : Prop :=
  p.pt = PCMU ∨ p.pt = PCMA ∨ p.pt = G729 ∨ (p.pt = GSM ∧ p.ds % 33 = 0)

instance (p : Pkt) : Decidable (Timed p) := by unfold Timed; infer_instance

/-- Calls of a resizer.  `enq` carries the received datagram and the (arbitrary) contents of the
rest of the packet buffer. -/
inductive Op where
  | enq (dgram junk : List UInt8) (now : Nat)
  | get (dt : Nat) (allocOk : Bool)
  | ptime (n : Nat)

/-- The buffer of a received packet is complete. -/
def Op.ok : Op → Prop
  | .enq d j _ => d.length + j.length = cap
  | _ => True

instance (o : Op) : Decidable o.ok := by cases o <;> unfold Op.ok <;> infer_instance

/-- What is observed of a call. -/
inductive Ev where
  | accepted (p : Pkt)
  | emitted (p : Pkt)
  | none
  deriving DecidableEq, Repr

def step (s : St) : Op → Except Fault (St × Ev)
  | .enq d j now =>
    match enqueue s d j now with
    | .error e => .error e
    | .ok (s', .taken p) => .ok (s', .accepted p)
    | .ok (s', _) => .ok (s', .none)
  | .get dt a =>
    match get s dt a with
    | .error e => .error e
    | .ok (s', some p) => .ok (s', .emitted p)
    | .ok (s', none) => .ok (s', .none)
  | .ptime n => .ok (setPtime s n, .none)

/-- A history of calls: final state and everything observed. -/
def run (s : St) : List Op → Except Fault (St × List Ev)
  | [] => .ok (s, [])
  | o :: os =>
    match step s o with
    | .error e => .error e
    | .ok (s', ev) =>
      match run s' os with
      | .error e => .error e
      | .ok (s'', evs) => .ok (s'', ev :: evs)

/-- The packetisation time (in ms) asked for last. -/
def lastPtime : Nat → List Op → Nat
  | n, [] => n
  | _, .ptime m :: os => lastPtime m os
  | n, _ :: os => lastPtime n os

/-- The packets taken over, in order of arrival. -/
def accepted : List Ev → List Pkt
  | [] => []
  | .accepted p :: l => p :: accepted l
  | _ :: l => accepted l

/-- The packets sent, in order. -/
def emitted : List Ev → List Pkt
  | [] => []
  | .emitted p :: l => p :: emitted l
  | _ :: l => emitted l

/-- All payload bytes of a list of packets. -/
def bytesOf (l : List Pkt) : List UInt8 := l.flatMap Pkt.payload
/-- All stamped payload bytes. -/
def stampsOf (l : List Pkt) : List (Nat × UInt8) := l.flatMap stamps

/-- Position of a timestamp relative to a base, on the ring of 32-bit numbers. -/
def rel (base t : Nat) : Nat := (t + 4294967296 - base % 4294967296) % 4294967296

/-- Insertion in timestamp order, after packets with the same timestamp. -/
def insertTs (base : Nat) (p : Pkt) : List Pkt → List Pkt
  | [] => [p]
  | x :: l => if rel base p.ts < rel base x.ts then p :: x :: l else x :: insertTs base p l

/-- The packets in timestamp order, those with equal timestamps in order of arrival. -/
def inTsOrder (base : Nat) (l : List Pkt) : List Pkt := l.foldl (fun acc p => insertTs base p acc) []

/-- One RTP stream: every packet offered has this SSRC and lies in a window of half of the
timestamp space that starts at `base`. -/
def OneStream (base ssrc : Nat) (ops : List Op) : Prop :=
  ∀ d j now, Op.enq d j now ∈ ops → ∀ i, Rtp.parse d = .ok (.ok i) →
    ∀ n, i.nsamples = some n → i.ssrc = ssrc ∧ rel base i.ts + n < 2147483648

end Verif.Resizer
