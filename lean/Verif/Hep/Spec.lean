import Verif.Basic

/-!
# HEP version 3, as a collector reads it

The identifier `HEP3`, the length of the whole, then chunks to the end: vendor, type, length (with this header), data.  Numbers have the most
significant byte first.  Types: 1 address family (2: IPv4, 10: IPv6), 2 protocol, 3 and 4 addresses of IPv4, 5 and 6 of IPv6, 7 and 8 ports,
9 seconds, 10 microseconds, 11 kind of protocol (5: RTCP as JSON), 12 capture agent, 15 payload, 17 correlation.
-/

namespace Verif.Hep

/-- A number, most significant byte first. -/
def num (l : List UInt8) : Nat := l.foldl (fun a b => a * 256 + b.toNat) 0

structure Chunk where
  vendor : Nat
  type : Nat
  data : List UInt8
  deriving DecidableEq, Repr

/-- The chunks in `b`; `fuel`: at least as many as there are. -/
def chunks : Nat → List UInt8 → Option (List Chunk)
  | _, [] => some []
  | 0, _ => none
  | fuel + 1, a :: b :: c :: d :: e :: f :: r =>
    let n := num [e, f]
    if n < 6 ∨ r.length < n - 6 then none
    else (chunks fuel (r.drop (n - 6))).map (⟨num [a, b], num [c, d], r.take (n - 6)⟩ :: ·)
  | _, _ => none

/-- The data of the only chunk of a type, of a given length (any when `none`). -/
def only (cs : List Chunk) (ty : Nat) (len : Option Nat) : Option (List UInt8) :=
  match cs.filter fun c => c.vendor = 0 ∧ c.type = ty with
  | [c] => if len = none ∨ len = some c.data.length then some c.data else none
  | _ => none

/-- What the collector learns. -/
structure Rec where
  family : Nat
  proto : Nat
  src : List UInt8
  dst : List UInt8
  sport : Nat
  dport : Nat
  sec : Nat
  usec : Nat
  kind : Nat
  agent : Nat
  corr : List UInt8
  payload : List UInt8
  deriving DecidableEq, Repr

def record (cs : List Chunk) : Option Rec := do
  let fam ← only cs 1 (some 1)
  let v6 := num fam = 10
  let proto ← only cs 2 (some 1)
  let src ← if v6 then only cs 5 (some 16) else only cs 3 (some 4)
  let dst ← if v6 then only cs 6 (some 16) else only cs 4 (some 4)
  let sport ← only cs 7 (some 2)
  let dport ← only cs 8 (some 2)
  let sec ← only cs 9 (some 4)
  let usec ← only cs 10 (some 4)
  let kind ← only cs 11 (some 1)
  let agent ← only cs 12 (some 4)
  let corr ← only cs 17 none
  let payload ← only cs 15 none
  return ⟨num fam, num proto, src, dst, num sport, num dport, num sec, num usec, num kind, num agent, corr, payload⟩

/-- What a collector makes of a datagram. -/
def decode (b : List UInt8) : Option Rec :=
  match b with
  | 0x48 :: 0x45 :: 0x50 :: 0x33 :: e :: f :: r =>
    if num [e, f] = b.length then (chunks r.length r).bind record else none
  | _ => none

/-! ### Configuration -/

/-- Equal but for the case of letters. -/
def lc (c : UInt8) : UInt8 := if 65 ≤ c.toNat ∧ c.toNat ≤ 90 then c + 32 else c
def Alike (a b : List UInt8) : Prop := a.map lc = b.map lc

instance (a b : List UInt8) : Decidable (Alike a b) := inferInstanceAs (Decidable (_ = _))

/-- The last value that a section gives to a key. -/
def setting {V : Type} (k : List UInt8) : List (List UInt8 × V) → Option V
  | [] => none
  | x :: r =>
    match setting k r with
    | some v => some v
    | none => if Alike k x.1 then some x.2 else none

end Verif.Hep
