import Verif.Icecand.Model
import Verif.Str.UrlProps

/-!
# What a candidate line and the answer to `S` mean

`Decimal`, `lastOf` and `Line` are the grammar of RFC 8839 section 5.1 in the words of the subcommand.
-/

namespace Verif.Icecand

/-- A word of digits and the number it denotes. -/
inductive Decimal : Bytes → Nat → Prop
  | nil : Decimal [] 0
  | snoc {w : Bytes} {n : Nat} {c : UInt8} : Decimal w n → 48 ≤ c.toNat → c.toNat ≤ 57 →
      Decimal (w ++ [c]) (n * 10 + (c.toNat - 48))

/-- The value of the last pair with this name. -/
def lastOf (nm : Bytes) : List (Bytes × Bytes) → Option Bytes
  | [] => none
  | (n, v) :: e => match lastOf nm e with
    | some x => some x
    | none => if same n nm then some v else none

/-- The words of pairs. -/
def words : List (Bytes × Bytes) → List Bytes
  | [] => []
  | (n, v) :: e => n :: v :: words e

/-- `args` is a candidate line of UDP with the meaning `c`: numbers in the ranges that fit, numeric addresses; the related
address and port are those said last, otherwise the empty ones of the family. -/
structure Line (pton : Bytes → Option Host) (args : List Bytes) (c : Cand) : Prop where
  intro ::
  form : ∃ compid transp prio addr port typ kind ext,
    args = c.found :: compid :: transp :: prio :: addr :: port :: typ :: kind :: words ext ∧
    same typ (bs "typ") = true ∧ same transp (bs "udp") = true ∧
    Decimal compid c.comp ∧ c.comp < 256 ∧ Decimal prio c.prio ∧ c.prio < 4294967296 ∧
    Decimal port c.addr.port ∧ c.addr.port < 65536 ∧
    addr.length < 64 ∧ pton addr = some c.addr.host ∧
    ((c.kind = .host ∧ same kind (bs "host") = true) ∨ (c.kind = .srflx ∧ same kind (bs "srflx") = true) ∨
      (c.kind = .prflx ∧ same kind (bs "prflx") = true) ∨ (c.kind = .relay ∧ same kind (bs "relay") = true)) ∧
    (∀ p ∈ ext, same p.1 (bs "raddr") = true → p.2.length < 64 ∧ (pton p.2).isSome = true) ∧
    (match lastOf (bs "raddr") ext with
      | some v => pton v = some c.rel.host
      | none => c.rel.host = if 58 ∈ addr then .v6 0 else .v4 0) ∧
    (match lastOf (bs "rport") ext with
      | some v => Decimal v c.rel.port ∧ c.rel.port < 65536
      | none => c.rel.port = 0)

/-- Two candidates for the same component at the same address. -/
def Rival (a b : Cand) : Prop := a.comp = b.comp ∧ a.addr = b.addr

/-- The answer as it should be. -/
def answer (ufrag pwd : Bytes) (cs : List (List Bytes)) : Bytes :=
  ufrag ++ bs " " ++ pwd ++ (cs.map fun c => bs " c:" ++ (c.map Str.enc).flatten).flatten

end Verif.Icecand
