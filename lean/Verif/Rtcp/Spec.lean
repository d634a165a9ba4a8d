import Verif.Rtcp.Json

/-!
# RTCP packets (RFC 3550, section 6)
-/

namespace Verif.Rtcp

open Json

/-- Byte `i`, and the 32-bit number at `i`, of a packet. -/
def u8 (p : List UInt8) (i : Nat) : Nat := (p.getD i 0).toNat
def u32 (p : List UInt8) (i : Nat) : Nat := u8 p i * 2 ^ 24 + u8 p (i + 1) * 2 ^ 16 + u8 p (i + 2) * 2 ^ 8 + u8 p (i + 3)

/-- The version, the number of report blocks, the type. -/
def version (p : List UInt8) : Nat := u8 p 0 / 64
def count (p : List UInt8) : Nat := u8 p 0 % 32
def ptype (p : List UInt8) : Nat := u8 p 1

/-- The length in bytes announced by the packet. -/
def announced (p : List UInt8) : Nat := 4 * (u8 p 2 * 256 + u8 p 3 + 1)

/-- Where the report blocks of a report begin. -/
def base (p : List UInt8) : Nat := if ptype p = 200 then 28 else 8

def IsReport (p : List UInt8) : Prop := ptype p = 200 ∨ ptype p = 201

instance (p : List UInt8) : Decidable (IsReport p) := inferInstanceAs (Decidable (_ ∨ _))

/-- One whole packet; a report holds the blocks that it announces. -/
def Whole (p : List UInt8) : Prop := 4 ≤ p.length ∧ p.length = announced p ∧ (IsReport p → base p + 24 * count p ≤ p.length)

/-- A compound packet and its parts.  Of the versions only the first one counts. -/
def Compound (buf : List UInt8) (ps : List (List UInt8)) : Prop :=
  ps ≠ [] ∧ ps.flatten = buf ∧ (∀ p ∈ ps, Whole p) ∧ version buf = 2

/-- The cumulative number of packets lost at `i`: 24 bits, two's complement. -/
def lost (p : List UInt8) (i : Nat) : Int :=
  let u : Int := u8 p i * 65536 + u8 p (i + 1) * 256 + u8 p (i + 2)
  if u < 8388608 then u else u - 16777216

def key (s : String) : List UInt8 := s.toList.map fun c => UInt8.ofNat c.toNat

/-- The report block at `i`. -/
def blockJ (p : List UInt8) (i : Nat) : J :=
  .obj [(key "source_ssrc", .num (u32 p i)), (key "fraction_lost", .num (u8 p (i + 4))), (key "packets_lost", .num (lost p (i + 5))),
    (key "highest_seq_no", .num (u32 p (i + 8))), (key "ia_jitter", .num (u32 p (i + 12))), (key "lsr", .num (u32 p (i + 16))),
    (key "dlsr", .num (u32 p (i + 20)))]

def senderJ (p : List UInt8) : J :=
  .obj [(key "ntp_timestamp_sec", .num (u32 p 8)), (key "ntp_timestamp_usec", .num (u32 p 12)), (key "rtp_timestamp", .num (u32 p 16)),
    (key "packets", .num (u32 p 20)), (key "octets", .num (u32 p 24))]

/-- A sender or receiver report; no member for the blocks when there are none. -/
def reportJ (p : List UInt8) : J :=
  .obj ([(key "ssrc", .num (u32 p 4))] ++ (if ptype p = 200 then [(key "sender_information", senderJ p)] else []) ++
    [(key "type", .num (ptype p))] ++
    (if count p = 0 then [] else [(key "report_blocks", .arr ((List.range (count p)).map fun k => blockJ p (base p + 24 * k)))]) ++
    [(key "report_count", .num (count p))])

/-- Between 0 and 65535 packets lost, or one more received than expected. -/
def Mild (p : List UInt8) (i : Nat) : Prop := 0 ≤ lost p i ∧ lost p i < 65536 ∨ lost p i = -1

end Verif.Rtcp
