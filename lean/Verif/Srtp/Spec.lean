import Verif.Srtp.Model
import Verif.Str.NumProps

/-!
# What the keys, the roles and the fingerprints of a DTLS connection have to be

The profiles and the order of the keying material are those of RFC 5764 (sections 4.1.2 and 4.2) and RFC 7714 (section 14.2);
fingerprints are written as in RFC 8122 (section 5).
-/

namespace Verif.Srtp

/-- The parameters of a profile: cipher, length of a master key, of a salt, of the tag of RTP and of that of RTCP. -/
structure Params where
  cipher : Cipher
  key : Nat
  salt : Nat
  rtpTag : Nat
  rtcpTag : Nat

/-- RFC 5764, 4.1.2; RFC 7714, 14.2.  The short tag of `cm32` is for RTP only. -/
def params : Prof → Option Params
  | .cm80 => some ⟨.icm128, 16, 14, 10, 10⟩
  | .cm32 => some ⟨.icm128, 16, 14, 4, 10⟩
  | .gcm128 => some ⟨.gcm128, 16, 12, 16, 16⟩
  | .gcm256 => some ⟨.gcm256, 32, 12, 16, 16⟩
  | _ => none

/-- The client's key, the server's key, the client's salt, the server's salt (RFC 5764, 4.2): what a client or a server
protects with is `key`. -/
def Keyed (q : Params) (m : Bytes) (client : Bool) (key : Bytes) : Prop :=
  ∃ ck sk cs ss, m = ck ++ (sk ++ (cs ++ ss)) ∧ ck.length = q.key ∧ sk.length = q.key ∧ cs.length = q.salt ∧
    ss.length = q.salt ∧ key = if client then ck ++ cs else sk ++ ss

/-- One party cannot be keyed in two ways. -/
theorem Keyed.unique {q : Params} {m : Bytes} {client : Bool} {k1 k2 : Bytes} (h1 : Keyed q m client k1)
    (h2 : Keyed q m client k2) : k1 = k2 := by
  obtain ⟨a, b, c, d, e, la, lb, lc, ld, f⟩ := h1
  obtain ⟨a', b', c', d', e', la', lb', lc', ld', f'⟩ := h2
  rw [e] at e'
  obtain ⟨rfl, e2⟩ := List.append_inj e' (la.trans la'.symm)
  obtain ⟨rfl, e3⟩ := List.append_inj e2 (lb.trans lb'.symm)
  obtain ⟨rfl, rfl⟩ := List.append_inj e3 (lc.trans lc'.symm)
  rw [f, f']

/-- A hexadecimal digit of either case. -/
def hexVal (c : UInt8) : Option Nat :=
  let n := c.toNat
  if 48 ≤ n ∧ n ≤ 57 then some (n - 48)
  else if 65 ≤ n ∧ n ≤ 70 then some (n - 55)
  else if 97 ≤ n ∧ n ≤ 102 then some (n - 87)
  else none

/-- A fingerprint as text: pairs of digits between colons. -/
def Denotes : Bytes → Bytes → Prop
  | [h, l], [a] => hexVal h = some (a.toNat / 16) ∧ hexVal l = some (a.toNat % 16)
  | h :: l :: c :: t, a :: d => hexVal h = some (a.toNat / 16) ∧ hexVal l = some (a.toNat % 16) ∧ c = 58 ∧ Denotes t d
  | _, _ => False

/-- Letters of either case are alike. -/
def sameText (s : Bytes) (t : String) : Prop :=
  s.map (fun b => if 65 ≤ b.toNat ∧ b.toNat ≤ 90 then b.toNat + 32 else b.toNat) = t.toList.map Char.toNat

/-- The certificate expected after a history: that of the latest command with a fingerprint. -/
def expected : List Ev → Option Bytes
  | [] => none
  | .cmd (some s) _ :: _ => some s.fp
  | _ :: past => expected past

/-- The role asked for by the latest command with a fingerprint. -/
def asked : List Ev → Option Mode
  | [] => none
  | .cmd (some s) _ :: _ => some s.peer
  | _ :: past => asked past

/-- The source asked for by the latest command with one. -/
def source : List Ev → Option Bytes
  | [] => none
  | .cmd (some ⟨_, _, _, some x⟩) _ :: _ => some x
  | _ :: past => source past

/-- No command was refused. -/
def Accepted : List Ev → Prop
  | [] => True
  | .cmd sp k :: past => (∀ c, run past = .ok c → (setmode c sp k).2.isSome) ∧ Accepted past
  | _ :: past => Accepted past

/-- What OpenSSL guarantees: as many bytes as asked for, a digest of 32 bytes, a profile that was offered; and the
variables have the sizes they are declared with. -/
def Hs.Sane (h : Hs) : Prop :=
  (∀ n m, h.exp n = some m → m.length = n) ∧ (∀ d, h.cert = some d → d.length = 32) ∧ (∀ p, h.sel = some p → p ∈ offered) ∧
    h.junk.Sized

def Sane : List Ev → Prop
  | [] => True
  | .dgram h :: past => h.Sane ∧ Sane past
  | _ :: past => Sane past

end Verif.Srtp
