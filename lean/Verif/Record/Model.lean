import Verif.Basic
import Verif.Cksum.Model

/-!
# Model of the recorder (`src/rtpp_record.c`)

Linux, little endian: `AF_INET` is 2, `AF_INET6` 10, `PATH_MAX` 4096, `PCAP_FORMAT` is `DLT_EN10MB` (rtpp_defines.h:49).
Bytes are naturals below 256, strings lists of bytes without the final NUL.  Addresses are of one of the two Internet
families (the code aborts on any other one).  A mixture of families between source and destination of one packet, which
comes about only if a stream sends to an address of the other family than its own, is a fault of the model.

The environment gives the outcomes of `write` (`none` is -1, `some n` says that `n` bytes were taken), of `local4remote`
and the contents of the stack where `union anyhdr hdr` is placed.  The time of a packet is given as the pair of seconds
and microseconds (C43) and as the eight bytes of the `double`.  The mutex makes calls of `pktwrite` follow each other.
-/

namespace Verif.Record
open Verif.Cksum

inductive Fam where
  | v4
  | v6
  deriving DecidableEq, Repr

/-- A socket address: the address as it stands in memory, the port as a number. -/
structure Sa where
  fam : Fam
  addr : List Nat
  port : Nat
  deriving DecidableEq, Repr

/-- `ishostnull`, rtpp_network.c:76-97. -/
def Sa.null (a : Sa) : Bool := a.addr.all (· == 0)

structure Pkt where
  raddr : Sa
  /-- `laddr` and `lport` -/
  laddr : Sa
  data : List Nat
  sec : Nat
  usec : Nat
  time8 : List Nat
  deriving DecidableEq, Repr

/-- What the recorder uses of the stream the packet goes out on. -/
structure Out where
  rem : Option Sa
  laddr : Sa
  rtp : Bool
  deriving DecidableEq, Repr

/-- Outcomes of the calls of the system during one operation. -/
structure Env where
  w1 : Nat → Option Nat
  w2 : Nat → Option Nat
  l4r : Sa → Option Sa
  junk : List Nat

inductive Mode where
  | pkt
  | remote
  | pcap
  deriving DecidableEq, Repr

/-- `struct rtpp_record_channel`, rtpp_record.c:101-115, with the file written and the datagrams sent, and the static
`ip_id`. -/
structure St where
  mode : Mode
  single : Bool
  fd : Bool
  rbuf : List Nat
  len : Nat
  ipid : Nat
  file : List Nat
  sent : List (List Nat)
  deriving DecidableEq, Repr

def le16 (x : Nat) : List Nat := [x % 256, x / 256 % 256]
def be16 (x : Nat) : List Nat := [x / 256 % 256, x % 256]
def le32 (x : Nat) : List Nat := [x % 256, x / 256 % 256, x / 65536 % 256, x / 16777216 % 256]
def be32 (x : Nat) : List Nat := [x / 16777216 % 256, x / 65536 % 256, x / 256 % 256, x % 256]

/-- `get_hdr_size`, rtpp_record.c:551-570: `struct pkt_hdr_pcap_en10t`, `struct pkt_hdr_pcap_en10t_v6`. -/
def pcapSize : Fam → Nat
  | .v4 => 16 + 14 + (20 + 8)
  | .v6 => 16 + 14 + (40 + 8)

/-- `prepare_pkt_hdr_adhoc`, rtpp_record.c:330-357, `struct pkt_hdr_adhoc`: the address in 20 bytes, the time, the length. -/
def hdrAdhoc (p : Pkt) : List Nat :=
  let a := match p.raddr.fam with
    | .v4 => le16 2 ++ be16 p.raddr.port ++ p.raddr.addr ++ List.replicate 12 0
    | .v6 => le16 10 ++ be16 p.raddr.port ++ p.raddr.addr
  a ++ p.time8 ++ le16 p.data.length

/-- `eaddr[i % 6] ^= ra[i]`, rtpp_record.c:374-380. -/
def foldMac (ra : List Nat) : List Nat :=
  (List.range' 6 (ra.length - 6)).foldl (fun m i => m.modify (i % 6) (fun b => Nat.xor b (ra.getD i 0))) (ra.take 6)

/-- `fake_ether_addr`, rtpp_record.c:361-387. -/
def mac (a : Sa) : List Nat :=
  match a.fam with
  | .v4 => [0, 0] ++ a.addr
  | .v6 => foldMac a.addr

/-- Lines 443-446. -/
def recHdr (p : Pkt) (fam : Fam) : List Nat :=
  let n := pcapSize fam - 16 + p.data.length
  le32 p.sec ++ le32 p.usec ++ le32 n ++ le32 n

/-- The fake IP header, lines 503-513, with the given checksum field. -/
def ip4 (size ipid : Nat) (src dst : Sa) (sum : List Nat) : List Nat :=
  [0x45, 0] ++ be16 (20 + 8 + size) ++ be16 ipid ++ [0, 0, 127, 17] ++ sum ++ src.addr ++ dst.addr

/-- Lines 514-521. -/
def ip6 (size : Nat) (src dst : Sa) : List Nat :=
  [0x60, 0, 0, 0] ++ be16 (8 + size) ++ [17, 64] ++ src.addr ++ dst.addr

/-- Lines 523-546, the UDP header. -/
def udp (p : Pkt) (src dst : Sa) : List Nat :=
  let ulen := be16 (8 + p.data.length)
  let c := match src.fam with
    | .v4 => udp4 src.addr dst.addr (be16 src.port) (be16 dst.port) ulen p.data
    | .v6 => udp6 src.addr dst.addr (be16 src.port) (be16 dst.port) ulen (be32 (8 + p.data.length)) p.data
  be16 src.port ++ be16 dst.port ++ ulen ++ store c

/-- The outcome of preparing a header: the bytes put into memory, whether the packet is to be recorded, and `ip_id`. -/
structure Prep where
  bytes : List Nat
  ok : Bool
  ipid : Nat

/-- Both addresses, lines 407-417. -/
def ends (p : Pkt) (o : Out) (face : Bool) : Sa × Sa :=
  if face then
    (o.laddr, match o.rem with
      | some a => a
      | none => ⟨o.laddr.fam, List.replicate (match o.laddr.fam with | .v4 => 4 | .v6 => 16) 0, 0⟩)
  else (p.raddr, p.laddr)

/-- Replacing a wildcard by the local address the system would use, lines 485-499; the ports were taken before.  `none` for
the return of -1. -/
def subst (e : Env) (face : Bool) (src dst : Sa) : Option (Sa × Sa) :=
  if face then
    if src.null ∧ ¬ dst.null then (e.l4r dst).map (fun a => ({ a with port := src.port }, dst)) else some (src, dst)
  else
    if dst.null ∧ ¬ src.null then (e.l4r src).map (fun a => (src, { a with port := dst.port })) else some (src, dst)

/-- `prepare_pkt_hdr_pcap`, rtpp_record.c:389-549.  A failure leaves the zeros of `memset`, the record header and the
Ethernet type behind (the fake destination address, line 492, is left out: nothing reads it). -/
def hdrPcap (e : Env) (ipid : Nat) (p : Pkt) (o : Out) (face : Bool) : Except Fault Prep :=
  let (src, dst) := ends p o face
  if src.fam ≠ dst.fam then .error .ub
  else
    let type := match src.fam with | .v4 => [0x08, 0x00] | .v6 => [0x86, 0xdd]
    match subst e face src dst with
    | none => .ok ⟨recHdr p src.fam ++ List.replicate 12 0 ++ type ++ List.replicate (pcapSize src.fam - 30) 0, false, ipid⟩
    | some (s, d) =>
      let eth := mac d ++ mac s ++ type
      match src.fam with
      | .v4 =>
        match inCksum (ip4 p.data.length ipid s d [0, 0]) with
        | .error f => .error f
        | .ok c => .ok ⟨recHdr p .v4 ++ eth ++ ip4 p.data.length ipid s d (store c) ++ udp p s d, true, (ipid + 1) % 65536⟩
      | .v6 => .ok ⟨recHdr p .v6 ++ eth ++ ip6 p.data.length s d ++ udp p s d, true, ipid⟩

/-- The header for the mode, `face` of line 634. -/
def prepare (mode : Mode) (single : Bool) (ipid : Nat) (e : Env) (p : Pkt) (o : Out) : Except Fault Prep :=
  match mode with
  | .pcap => hdrPcap e ipid p o (single && !o.rtp)
  | _ => .ok ⟨hdrAdhoc p, true, ipid⟩

/-- `hdr_size`, lines 609-617: chosen by the family of the address the packet came from. -/
def hdrSize (mode : Mode) (p : Pkt) : Nat :=
  match mode with
  | .pcap => pcapSize p.raddr.fam
  | _ => 30

/-- `flush_rbuf`, rtpp_record.c:293-311, for files.  The number of bytes written is only compared with -1. -/
def flush (s : St) (w : Nat → Option Nat) : St :=
  match w s.len with
  | some n => { s with file := s.file ++ (s.rbuf.take s.len).take n, len := 0 }
  | none => { s with fd := false }

/-- Writing into the buffer. -/
def put (mem : List Nat) (off : Nat) (bs : List Nat) : Except Fault (List Nat) :=
  if off + bs.length ≤ mem.length then .ok (mem.take off ++ bs ++ mem.drop (off + bs.length)) else .error .ub

/-- Lines 638-669. -/
def store2 (e : Env) (s : St) (p : Pkt) (o : Out) : Except Fault St :=
  let hs := hdrSize s.mode p
  match prepare s.mode s.single s.ipid e p o with
  | .error f => .error f
  | .ok r =>
    if 4096 < s.len + hs + p.data.length then
      if !r.ok then .ok { s with ipid := r.ipid }
      else
        let out := (r.bytes ++ e.junk).take hs ++ p.data
        match e.w2 out.length with
        | some n => .ok { s with file := s.file ++ out.take n, ipid := r.ipid }
        | none => .ok { s with fd := false, ipid := r.ipid }
    else
      match put s.rbuf s.len r.bytes with
      | .error f => .error f
      | .ok m =>
        if !r.ok then .ok { s with rbuf := m, ipid := r.ipid }
        else
          match put m (s.len + hs) p.data with
          | .error f => .error f
          | .ok m => .ok { s with rbuf := m, len := s.len + hs + p.data.length, ipid := r.ipid }

/-- Lines 624-669. -/
def writeLocal (e : Env) (s : St) (p : Pkt) (o : Out) : Except Fault St :=
  if 4096 < s.len + hdrSize s.mode p + p.data.length ∧ 0 < s.len then
    let s1 := flush s e.w1
    if !s1.fd then .ok s1 else store2 e s1 p o
  else store2 e s p o

/-- `rtpp_record_write_locked`, rtpp_record.c:572-670. -/
def write (e : Env) (s : St) (p : Pkt) (o : Out) : Except Fault St :=
  if !s.fd then .ok s
  else if s.mode = .remote then .ok { s with sent := s.sent ++ [p.data] }
  else writeLocal e s p o

/-- `rtpp_record_close`, rtpp_record.c:683-710, as far as the contents of the file go.  After a failure the descriptor is
-1 and `write` fails. -/
def close (e : Env) (s : St) : St :=
  let s1 := if s.mode ≠ .remote ∧ 0 < s.len then flush s (if s.fd then e.w1 else fun _ => none) else s
  { s1 with fd := false }

/-- A recording: packets one after the other. -/
def run : St → List (Env × Pkt × Out) → Except Fault St
  | s, [] => .ok s
  | s, (e, p, o) :: l =>
    match write e s p o with
    | .error f => .error f
    | .ok s1 => run s1 l

/-! ## Starting -/

inductive Kind where
  | rtp
  | rtcp
  | both
  deriving DecidableEq, Repr

/-- The configuration, `struct rtpp_cfg`. -/
structure Cfg where
  rdir : Option (List Nat)
  sdir : Option (List Nat)
  pcap : Bool

/-- `sprintf` into `char[PATH_MAX + 1]`. -/
def sprintf (bs : List Nat) : Except Fault (List Nat) := if bs.length ≤ 4096 then .ok bs else .error .ub

def bytes (s : String) : List Nat := s.toUTF8.toList.map (·.toNat)

/-- The name of the file in a directory, lines 219-227, 234-248; `rname` is the name given with the command. -/
def path (dir : List Nat) (pcap : Bool) (callId fromTag : List Nat) (rname : Option (List Nat)) (orig : Bool) (k : Kind) : List Nat :=
  let suffix1 := match k with
    | .both => []
    | _ => if orig then bytes ".o" else bytes ".a"
  let suffix2 := match k with
    | .both => if pcap ∧ rname = none then bytes ".pcap" else []
    | .rtp => bytes ".rtp"
    | .rtcp => bytes ".rtcp"
  match rname with
  | none => dir ++ bytes "/" ++ callId ++ bytes "=" ++ fromTag ++ suffix1 ++ suffix2
  | some n => dir ++ bytes "/" ++ n ++ suffix2

/-- The global header of a capture, `struct pcap_hdr_s`, lines 257-263. -/
def pcapHdr : List Nat := le32 0xa1b2c3d4 ++ le16 2 ++ le16 4 ++ le32 0 ++ le32 0 ++ le32 65535 ++ le32 1

/-- The path the recording is moved to in the end, if there is a spool directory, lines 228-241. -/
def spool (sdir : Option (List Nat)) (path : List Nat) : Except Fault (Option (List Nat)) :=
  match sdir with
  | none => .ok none
  | some _ => (sprintf path).map some

/-- `rtpp_record_ctor` for a local recording, rtpp_record.c:167-291: the recorder, the path of the file and the path it is
moved to at the end.  `none` for the return of NULL. -/
def ctor (c : Cfg) (callId fromTag : List Nat) (rname : Option (List Nat)) (orig : Bool) (k : Kind) (canOpen : Bool)
    (w : Nat → Option Nat) (rbuf : List Nat) (ipid : Nat) : Except Fault (Option (St × List Nat × Option (List Nat))) :=
  match c.rdir with
  | none => .ok none
  | some rdir =>
    let mk (d : List Nat) := path d c.pcap callId fromTag rname orig k
    match spool c.sdir (mk rdir) with
    | .error f => .error f
    | .ok rpath =>
      match sprintf (mk (c.sdir.getD rdir)) with
      | .error f => .error f
      | .ok spath =>
        let s : St := ⟨if c.pcap then .pcap else .pkt, decide (k = Kind.both), true, rbuf, 0, ipid, [], []⟩
        if !canOpen then .ok none
        else if c.pcap then
          match w 24 with
          | none => .ok none
          | some n => if n < 24 then .ok none else .ok (some ({ s with file := pcapHdr }, spath, rpath))
        else .ok (some (s, spath, rpath))

/-- Where the recording is in the end, lines 698-706: `renamed` tells whether `rename` succeeded. -/
def finalPath (spath : List Nat) (rpath : Option (List Nat)) (renamed : Bool) : List Nat :=
  match rpath with
  | none => spath
  | some r => if renamed then r else spath

end Verif.Record
