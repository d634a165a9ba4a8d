import Verif.Basic

/-!
# Model of the Internet checksums (`src/rtpp_network.c:rtpp_in_cksum`, `src/rtpp_ip_chksum.h`)

Little-endian host: a 16-bit load of bytes `a b` is `a + 256 b`, and storing a value puts its low byte first.
Bytes are naturals below 256.
-/

namespace Verif.Cksum

/-- `sum += …` on an `int`: exceeding `INT_MAX` is undefined. -/
def addInt (s w : Nat) : Except Fault Nat := if s + w ≤ 2147483647 then .ok (s + w) else .error .ub

/-- The inner loops, rtpp_network.c:277-290 (both alignment branches add the same words), followed by the odd byte,
lines 293-302.  After the inner loop `len` is -1 or -2, so the outer loop runs once and its first branch never. -/
def sumLoop : Nat → List Nat → Except Fault Nat
  | s, [] => .ok s
  | s, [a] => addInt s a
  | s, a :: b :: l =>
    match addInt s (a + 256 * b) with
    | .error e => .error e
    | .ok s' => sumLoop s' l

/-- `rtpp_in_cksum`, rtpp_network.c:265-306. -/
def inCksum (l : List Nat) : Except Fault Nat :=
  match sumLoop 0 l with
  | .error e => .error e
  | .ok s =>
    let s1 := s / 65536 + s % 65536
    let s2 := s1 + s1 / 65536
    .ok (65535 - s2 % 65536)

/-- `rtpp_ip_chksum_update`, rtpp_ip_chksum.h:38-46 (`uint32_t` accumulator; a trailing odd byte is ignored). -/
def update : Nat → List Nat → Nat
  | w, a :: b :: l => update ((w + (a + 256 * b)) % 4294967296) l
  | w, _ => w

/-- `rtpp_ip_chksum_update_data`, rtpp_ip_chksum.h:47-63. -/
def updateData : Nat → List Nat → Nat
  | w, a :: b :: l => updateData ((w + (a + 256 * b)) % 4294967296) l
  | w, [a] => (w + a) % 4294967296
  | w, [] => w

/-- `rtpp_ip_chksum_fin` into a 16-bit field, rtpp_ip_chksum.h:66-70. -/
def fin (w : Nat) : Nat :=
  let w1 := w / 65536 + w % 65536
  let w2 := (w1 + w1 / 65536) % 4294967296
  65535 - w2 % 65536

/-- Checksum of the recorded UDP packet over IPv4, rtpp_record.c:528-546.  All arguments are the bytes as they
stand in the packet. -/
def udp4 (src dst sport dport ulen data : List Nat) : Nat :=
  let w := update 0 src
  let w := update w dst
  let w := update w [0, 17]
  let w := update w ulen
  let w := update w sport
  let w := update w dport
  let w := update w ulen
  fin (updateData w data)

/-- Over IPv6, rtpp_record.c:534-546. -/
def udp6 (src dst sport dport ulen ulen32 data : List Nat) : Nat :=
  let w := update 0 src
  let w := update w dst
  let w := update w ulen32
  let w := update w [0, 0, 0, 17]
  let w := update w sport
  let w := update w dport
  let w := update w ulen
  fin (updateData w data)

/-- The two bytes a stored 16-bit value occupies. -/
def store (c : Nat) : List Nat := [c % 256, c / 256]

end Verif.Cksum
