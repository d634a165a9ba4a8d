import Verif.Record.Model
import Verif.Cksum.Props

/-!
# What a reader finds in a recording

A reader of capture files (pcap with Ethernet frames, UDP over IPv4 and IPv6), written from the formats and independently
of the recorder, and one of the recorder's own format.
-/

namespace Verif.Record
open Verif.Cksum

/-- What a recording tells about a packet. -/
structure Seen where
  sec : Nat
  usec : Nat
  src : Sa
  dst : Sa
  payload : List Nat
  deriving DecidableEq, Repr

/-- The first `n` bytes, if there are so many, and the rest. -/
def cut (n : Nat) (l : List Nat) : Option (List Nat × List Nat) := if n ≤ l.length then some (l.take n, l.drop n) else none

/-- Numbers, most significant byte first. -/
def big (l : List Nat) : Nat := l.foldl (fun a b => 256 * a + b) 0

/-- Numbers, least significant byte first. -/
def little (l : List Nat) : Nat := big l.reverse

/-- A UDP datagram (RFC 768) between the hosts; `ph` is the pseudo header of the checksum. -/
def readUdp (fam : Fam) (ph src dst u : List Nat) : Option (Sa × Sa × List Nat) := do
  let (sp, r) ← cut 2 u
  let (dp, r) ← cut 2 r
  let (n, r) ← cut 2 r
  let (_, r) ← cut 2 r
  guard (big n = u.length)
  guard (ocSum (ph ++ u) = 65535)
  pure (⟨fam, src, big sp⟩, ⟨fam, dst, big dp⟩, r)

/-- An IPv4 packet (RFC 791) without options. -/
def readIp4 (f : List Nat) : Option (Sa × Sa × List Nat) := do
  let (h, u) ← cut 20 f
  guard (ocSum h = 65535)
  let (vt, r) ← cut 2 h
  guard (vt = [0x45, 0])
  let (n, r) ← cut 2 r
  guard (big n = f.length)
  let (_, r) ← cut 2 r
  let (fr, r) ← cut 2 r
  guard (fr = [0, 0])
  let (tp, r) ← cut 2 r
  guard (tp = [127, 17])
  let (_, r) ← cut 2 r
  let (src, dst) ← cut 4 r
  readUdp .v4 (src ++ dst ++ [0, 17] ++ [u.length / 256, u.length % 256]) src dst u

/-- An IPv6 packet (RFC 8200) without extension headers. -/
def readIp6 (f : List Nat) : Option (Sa × Sa × List Nat) := do
  let (v, r) ← cut 4 f
  guard (v = [0x60, 0, 0, 0])
  let (n, r) ← cut 2 r
  let (nh, r) ← cut 2 r
  guard (nh = [17, 64])
  let (src, r) ← cut 16 r
  let (dst, u) ← cut 16 r
  guard (big n = u.length)
  readUdp .v6 (src ++ dst ++ [0, 0, u.length / 256, u.length % 256] ++ [0, 0, 0, 17]) src dst u

/-- An Ethernet frame. -/
def readFrame (f : List Nat) : Option (Sa × Sa × List Nat) := do
  let (_, r) ← cut 12 f
  let (ty, r) ← cut 2 r
  if ty = [0x08, 0x00] then readIp4 r else if ty = [0x86, 0xdd] then readIp6 r else none

/-- One record of a capture: time, captured length, original length (both equal), frame. -/
def readRec (l : List Nat) : Option (Seen × List Nat) := do
  let (s, r) ← cut 4 l
  let (u, r) ← cut 4 r
  let (n, r) ← cut 4 r
  let (o, r) ← cut 4 r
  guard (o = n)
  let (f, r) ← cut (little n) r
  let (src, dst, d) ← readFrame f
  pure (⟨little s, little u, src, dst, d⟩, r)

/-- One record of the recorder's own format: source address (padded to 20 bytes), eight bytes of time, length, packet. -/
def readOwn (l : List Nat) : Option ((Sa × List Nat × List Nat) × List Nat) := do
  let (a, r) ← cut 20 l
  let (t, r) ← cut 8 r
  let (n, r) ← cut 2 r
  let (d, r) ← cut (little n) r
  let (fam, a) ← cut 2 a
  let (port, a) ← cut 2 a
  if fam = [2, 0] then pure ((⟨.v4, a.take 4, big port⟩, t, d), r)
  else if fam = [10, 0] then pure ((⟨.v6, a, big port⟩, t, d), r)
  else none

/-- `l` is the sequence of records `xs` and nothing else. -/
inductive Reads {α : Type} (rd : List Nat → Option (α × List Nat)) : List Nat → List α → Prop where
  | nil : Reads rd [] []
  | cons {l r x xs} : rd l = some (x, r) → Reads rd r xs → Reads rd l (x :: xs)

/-- `l` is a capture file holding `xs`. -/
def Capture (l : List Nat) (xs : List Seen) : Prop :=
  ∃ r, cut 24 l = some ([0xd4, 0xc3, 0xb2, 0xa1, 2, 0, 4, 0, 0, 0, 0, 0, 0, 0, 0, 0, 255, 255, 0, 0, 1, 0, 0, 0], r) ∧
    Reads readRec r xs

/-- A proper address. -/
structure Sa.Ok (a : Sa) : Prop where
  len : a.addr.length = match a.fam with | .v4 => 4 | .v6 => 16
  bytes : Bytes a.addr
  port : a.port < 65536

/-- The system finds a local address of the family of the remote one. -/
def L4r (e : Env) : Prop := ∀ a b, e.l4r a = some b → b.Ok ∧ b.fam = a.fam

/-- A packet as the proxy receives it: at a local address of the family of the remote one, of at most 8192 bytes. -/
structure Pkt.Ok (p : Pkt) : Prop where
  raddr : p.raddr.Ok
  laddr : p.laddr.Ok
  fam : p.laddr.fam = p.raddr.fam
  data : Bytes p.data
  size : p.data.length ≤ 8192
  sec : p.sec < 4294967296
  usec : p.usec < 4294967296
  time : p.time8.length = 8

/-- A stream sends to addresses of its own family. -/
structure Out.Ok (o : Out) : Prop where
  laddr : o.laddr.Ok
  rem : ∀ a, o.rem = some a → a.Ok ∧ a.fam = o.laddr.fam

/-- The addresses a packet shows if recorded as received. -/
def asReceived (e : Env) (p : Pkt) : Option (Sa × Sa) :=
  if p.laddr.addr.all (· == 0) ∧ ¬ p.raddr.addr.all (· == 0) then
    (e.l4r p.raddr).map fun a => (p.raddr, { a with port := p.laddr.port })
  else some (p.raddr, p.laddr)

/-- The address a stream sends to. -/
def Out.dest (o : Out) : Sa := o.rem.getD ⟨o.laddr.fam, List.replicate (match o.laddr.fam with | .v4 => 4 | .v6 => 16) 0, 0⟩

/-- The addresses a packet shows if recorded as sent. -/
def asSent (e : Env) (o : Out) : Option (Sa × Sa) :=
  if o.laddr.addr.all (· == 0) ∧ ¬ o.dest.addr.all (· == 0) then
    (e.l4r o.dest).map fun a => ({ a with port := o.laddr.port }, o.dest)
  else some (o.laddr, o.dest)

/-- What a capture should tell: packets as received; in a single file RTCP packets as sent.  `none` if the packet is not
recorded as the system does not know a local address. -/
def want (single : Bool) (e : Env) (p : Pkt) (o : Out) : Option Seen :=
  (if single && !o.rtp then asSent e o else asReceived e p).map fun x => ⟨p.sec, p.usec, x.1, x.2, p.data⟩

/-- What is asked of the packets of a recording; the last condition is the one the code does not ensure: in a single file
an RTCP packet arrives and leaves by the same family. -/
structure Fits (mode : Mode) (single : Bool) (x : Env × Pkt × Out) : Prop where
  l4r : L4r x.1
  pkt : x.2.1.Ok
  out : x.2.2.Ok
  same : mode = .pcap → single = true → x.2.2.rtp = false → x.2.2.laddr.fam = x.2.1.raddr.fam

/-- The system takes everything. -/
def Full (w : Nat → Option Nat) : Prop := ∀ n, w n = some n

/-- The system takes everything or nothing. -/
def Whole (w : Nat → Option Nat) : Prop := ∀ n, w n = some n ∨ w n = none

end Verif.Record
