import Verif.Player.Model

/-!
# What a player is to produce (property C34)
-/

namespace Verif.Player

/-- What a receiver reads. -/
structure Pkt where
  version : Nat
  padding : Bool
  extension : Bool
  csrcs : Nat
  marker : Bool
  pt : Nat
  seq : Nat
  ts : Nat
  ssrc : Nat
  payload : List UInt8
  deriving DecidableEq, Repr

/-- RFC 3550, section 5.1, for a packet without CSRC. -/
def decode : List UInt8 → Option Pkt
  | a :: b :: s1 :: s0 :: t3 :: t2 :: t1 :: t0 :: c3 :: c2 :: c1 :: c0 :: rest =>
    some {
      version := a.toNat / 64
      padding := decide (a.toNat / 32 % 2 = 1)
      extension := decide (a.toNat / 16 % 2 = 1)
      csrcs := a.toNat % 16
      marker := decide (b.toNat / 128 = 1)
      pt := b.toNat % 128
      seq := s1.toNat * 256 + s0.toNat
      ts := ((t3.toNat * 256 + t2.toNat) * 256 + t1.toNat) * 256 + t0.toNat
      ssrc := ((c3.toNat * 256 + c2.toNat) * 256 + c1.toNat) * 256 + c0.toNat
      payload := rest }
  | _ => none

/-- Bytes in a packet of a codec: as many frames as are needed for the packetisation time. -/
def Codec.bytes : Nat → Nat → Option Nat
  | 0, p | 8, p | 9, p => some (8 * p)
  | 18, p => some (10 * ((p + 9) / 10))
  | 4, p => some (24 * ((p + 29) / 30))
  | 3, p => some (33 * ((p + 19) / 20))
  | _, _ => none

/-- Milliseconds of it. -/
def Codec.ms : Nat → Nat → Nat
  | 18, p => 10 * ((p + 9) / 10)
  | 4, p => 30 * ((p + 29) / 30)
  | 3, p => 20 * ((p + 19) / 20)
  | _, p => p

/-- The pieces of a prompt: as many whole ones as there are. -/
def pieces (f : List UInt8) (n : Nat) : Nat := f.length / n

/-- The `k`-th piece that is played. -/
def piece (f : List UInt8) (n k : Nat) : List UInt8 := (f.drop (k % pieces f n * n)).take n

/-- The packet that is to be number `k`. -/
def wanted (f : List UInt8) (codec n ms seq ts ssrc k : Nat) : Pkt :=
  { version := 2, padding := false, extension := false, csrcs := 0, marker := decide (k = 0), pt := codec,
    seq := (seq + k) % 2 ^ 16, ts := (ts + k * (8 * ms)) % 2 ^ 32, ssrc := ssrc % 2 ^ 32, payload := piece f n k }

/-- The packetisation time: what was asked for, or 10 ms. -/
def period (ptime : Int) : Nat := if 0 < ptime then ptime.toNat else 10

/-- There is a packet number `k`: the prompt has a whole piece, and it is to be played for ever (a negative number of times) or there are pieces
left (0 times is never asked for, rpcpv1_play.c 125, and would be once). -/
def More (times : Int) (m k : Nat) : Prop := 0 < m ∧ (times < 0 ∨ k < (max times 1).toNat * m)

/-- The counter of repetitions has not gone below what an `int` holds (only for less than -1 times, line 224). -/
def InRange (times : Int) (m k : Nat) : Prop := 0 ≤ times ∨ times = -1 ∨ ((k / m : Nat) : Int) ≤ times + 2 ^ 31

/-- Calls of `get`, each with its time and what the allocator does, until the end of the prompt (then the player is gone); what each gave. -/
def gets (rnd : ℚ → ℚ) (f : List UInt8) (s : Srv) : List (ℚ × Bool) → Except Fault (Option Srv × List (ℚ × Res))
  | [] => .ok (some s, [])
  | (t, m) :: rest =>
    match get rnd f s t m with
    | .error e => .error e
    | .ok (_, .eof) => .ok (none, [(t, .eof)])
    | .ok (s, r) =>
      match gets rnd f s rest with
      | .error e => .error e
      | .ok (s, rs) => .ok (s, (t, r) :: rs)

def isPkt : Res → Bool
  | .pkt _ => true
  | _ => false

/-- The packets in what the calls gave. -/
def packets (rs : List (ℚ × Res)) : Nat := rs.countP fun r => isPkt r.2

/-- The calls that failed for want of memory. -/
def failures (rs : List (ℚ × Res)) : Nat := rs.countP fun r => r.2 = .enomem

/-- What a call at time `t` may give after `k` packets and `e` calls that failed for want of memory; `d`: the time of a number of milliseconds. -/
def Right (d : Nat → ℚ) (f : List UInt8) (codec n ms : Nat) (times : Int) (seq ts ssrc k e : Nat) (t : ℚ) : Res → Prop
  | .later => t < d ((k + e) * ms)
  | .enomem => d ((k + e) * ms) ≤ t
  | .error => False
  | .eof => d ((k + e) * ms) ≤ t ∧ ¬ More times (pieces f n) k
  | .pkt b => d ((k + e) * ms) ≤ t ∧ More times (pieces f n) k ∧ b.length = 12 + n ∧ b.length ≤ 8192 ∧
      decode b = some (wanted f codec n ms seq ts ssrc k)

end Verif.Player
