import Verif.Tset.Model
import Verif.Str.NumProps

/-!
# C64: vocabulary

What a name means, written down without the parser.
-/

namespace Verif.Tset

/-- A name that says what kind of target it is. -/
def Prefixed (lib : Bool) (s : Bytes) : Prop :=
  unixP <+: s ∨ tcpP <+: s ∨ (lib = true ∧ fdP <+: s)

instance (lib : Bool) (s : Bytes) : Decidable (Prefixed lib s) := by unfold Prefixed; infer_instance

/-- The full form of a name: `unix:` may be left out. -/
def canon (lib : Bool) (s : Bytes) : Bytes := if Prefixed lib s then s else unixP ++ s

/-- What a name stands for. -/
inductive Meaning where
  | to (d : Dest)
  /-- the host of whoever gives the command, at this port -/
  | self (port : Nat)

/-- The documented names. -/
inductive Means (lib : Bool) (res : Bytes → Option Nat) : Bytes → Meaning → Prop
  | path {p : Bytes} (h : p ≠ []) (hl : p.length ≤ 107) : Means lib res (unixP ++ p) (.to (.unix p))
  | bare {p : Bytes} (h : p ≠ []) (hl : p.length ≤ 107) (hp : ¬ Prefixed lib p) : Means lib res p (.to (.unix p))
  | host {h ds : Bytes} {port a : Nat} (hh : h ≠ []) (hl : h.length ≤ 511) (hs : h ≠ selfN) (ha : res h = some a)
      (hd : Str.DigitsDenote ds port) (h1 : 1 ≤ port) (h2 : port ≤ 65535) :
      Means lib res (tcpP ++ h ++ 58 :: ds) (.to (.inet a port))
  | self {ds : Bytes} {port : Nat} (hd : Str.DigitsDenote ds port) (h1 : 1 ≤ port) (h2 : port ≤ 65535) :
      Means lib res (tcpP ++ selfN ++ 58 :: ds) (.self port)
  | fd {ds : Bytes} {n : Nat} (hlib : lib = true) (hd : Str.DigitsDenote ds n) (hn : n < 2147483648) :
      Means lib res (fdP ++ ds) (.to (.fd n))

/-- The names accepted at start, in order. -/
def accepted : List Ev → List Ans → List Bytes
  | .conf s _ _ :: es, .took true :: as => s :: accepted es as
  | _ :: es, _ :: as => accepted es as
  | _, _ => []

/-- The host a command came from; commands that did not come from an IPv4 address count as local. -/
def from4 : Option Sa → Nat
  | some (.inet h _) => h
  | _ => 127 * 2 ^ 24 + 1

/-- The IPv4 address a command was received at, with any port. -/
def at4 : Option Sa → Option Sa
  | some (.inet h _) => some (.inet h 0)
  | _ => none

end Verif.Tset
