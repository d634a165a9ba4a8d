import Verif.Netaddr.Model

/-! # What an address object has to look like from outside -/

namespace Verif.Netaddr

/-- The address set last (none: nothing). -/
def value : List Obs → Bytes
  | [] => []
  | .wrote _ a :: _ => a
  | _ :: past => value past

/-- The observations (latest first) are those of one register that is read, written and compared at once. -/
def Register : List Obs → Prop
  | [] => True
  | .wrote _ _ :: past => Register past
  | .read _ a :: past => a = value past ∧ Register past
  | .compared _ a same :: past => (same = true ↔ a = value past) ∧ Register past
  | .empty _ e :: past => (e = true ↔ value past = []) ∧ Register past

/-- The methods that can be called: an address fits into 128 bytes, and there is room for one. -/
def Method : PC → Prop
  | .wantSet src => src.length ≤ 128
  | .wantGet cap => 128 ≤ cap
  | .wantCmp _ => True
  | _ => False

/-- Only methods are called. -/
def Proper (es : List Ev) : Prop := ∀ t p, Ev.call t p ∈ es → Method p

/-- In the middle of a method, with the mutex. -/
def Inside : PC → Prop
  | .idle | .wantSet _ | .wantGet _ | .wantCmp _ => False
  | _ => True

end Verif.Netaddr
