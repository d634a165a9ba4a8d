import Verif.Str.Num

/-!
# Model of the keys, the roles and the fingerprints of a DTLS connection

`modules/dtls_gw/rtpp_dtls_conn.c` (the parts that work on bytes), `rtpp_dtls_util.c`, and the parsing of the subcommand in
`rtpp_dtls_gw.c`.  `Verif.Plane` has the connection among the packets, with keys and fingerprints as numbers; here they are
what they are in memory.

From outside: what OpenSSL answers (`Hs`) and what the policy functions of libsrtp set (`Setter.policy`).  The connection is
locked in each of the functions (rtpp_dtls_conn.c:287, 379), which are therefore steps.  Not modelled: timers, the BIO, the
memory of OpenSSL and libsrtp, and logging.
-/

namespace Verif.Srtp

abbrev Bytes := List UInt8

/-! ## The suites -/

/-- What OpenSSL has selected (`sel->id`, rtpp_dtls_conn.c:806). -/
inductive Prof where
  | cm80
  | cm32
  | f80
  | f32
  | gcm128
  | gcm256
  | other
  deriving DecidableEq, Repr

/-- The profiles that are offered and accepted: `srtp_profiles`, rtpp_dtls.c:59-63. -/
def offered : List Prof := [.cm80, .cm32, .gcm128, .gcm256]

inductive Cipher where
  | icm128
  | icm256
  | gcm128
  | gcm256
  deriving DecidableEq, Repr

/-- The functions of libsrtp in the table, rtpp_dtls_conn.c:100-131. -/
inductive Setter where
  | cm32
  | dflt
  | gcm128
  | gcm256
  deriving DecidableEq, Repr

/-- `srtp_crypto_policy_t` as those functions leave it (libsrtp, srtp.c): the cipher, the length of key and salt, the length
of the tag. -/
def Setter.policy : Setter → Cipher × Nat × Nat
  | .cm32 => (.icm128, 30, 4)
  | .dflt => (.icm128, 30, 10)
  | .gcm128 => (.gcm128, 28, 16)
  | .gcm256 => (.gcm256, 44, 16)

/-- `struct srtp_crypto_suite`, rtpp_dtls_conn.c:91-98 (the service is the same for all: encrypted and authenticated). -/
structure Suite where
  keySize : Nat
  ivSize : Nat
  tagSize : Nat
  setter : Option Setter
  deriving DecidableEq, Repr

/-- The `switch` at rtpp_dtls_conn.c:806-836 with the table at lines 100-131. -/
def suiteOf : Prof → Except Fault Suite
  | .cm80 => .ok ⟨16, 14, 10, some .dflt⟩
  | .cm32 => .ok ⟨16, 14, 4, some .cm32⟩
  | .f80 => .ok ⟨16, 14, 10, none⟩
  | .f32 => .ok ⟨16, 14, 4, none⟩
  | .gcm128 => .ok ⟨16, 12, 16, some .gcm128⟩
  | .gcm256 => .ok ⟨32, 12, 16, some .gcm256⟩
  | .other => .error .abort

/-! ## Keys -/

/-- `memcpy(dst + off, src, …)`. -/
def write (dst : Bytes) (off : Nat) (src : Bytes) : Except Fault Bytes :=
  if off + src.length ≤ dst.length then .ok (dst.take off ++ (src ++ dst.drop (off + src.length))) else .error .ub

/-- The `n` bytes at `src + off`. -/
def read (src : Bytes) (off n : Nat) : Except Fault Bytes :=
  if off + n ≤ src.length then .ok ((src.drop off).take n) else .error .ub

/-- What was on the stack before: the contents of `cli_key`, `srv_key` and `keymat` (rtpp_dtls_conn.c:374, 796). -/
structure Junk where
  cli : Bytes
  srv : Bytes
  mat : Bytes

/-- rtpp_dtls_conn.c:374 and 796. -/
def Junk.Sized (j : Junk) : Prop := j.cli.length = 46 ∧ j.srv.length = 46 ∧ j.mat.length = 256

/-- `tls_srtp_keyinfo`, rtpp_dtls_conn.c:788-868; `exp n`: the `n` bytes of `SSL_export_keying_material`. -/
def keyinfo (sel : Option Prof) (exp : Nat → Option Bytes) (j : Junk) : Except Fault (Option (Suite × Bytes × Bytes)) :=
  match sel with
  | none => .ok none
  | some p => do
    let su ← suiteOf p
    let size := su.keySize + su.ivSize
    if j.cli.length < size ∨ j.srv.length < size then .error .abort
    else if j.mat.length < 2 * size then .error .abort
    else match exp (2 * size) with
      | none => .ok none
      | some m => do
        let km ← write j.mat 0 m
        let cli ← write j.cli 0 (← read km 0 su.keySize)
        let srv ← write j.srv 0 (← read km su.keySize su.keySize)
        let cli ← write cli su.keySize (← read km (su.keySize + su.keySize) su.ivSize)
        let srv ← write srv su.keySize (← read km (su.keySize + su.keySize + su.ivSize) su.ivSize)
        .ok (some (su, cli, srv))

/-- An SRTP context: what it is keyed with, the tags, and the source it is for (`none`: any). -/
structure Ctx where
  cipher : Cipher
  key : Bytes
  rtpTag : Nat
  rtcpTag : Nat
  ssrc : Option Nat
  deriving DecidableEq, Repr

/-- `setup_srtp_stream`, rtpp_dtls_conn.c:337-367; `srtp_create` reads as much of the key as the policy says. -/
def setup (su : Suite) (key : Bytes) (ssrc : Nat) : Except Fault Ctx :=
  match su.setter with
  | none => .error .ub
  | some s => do
    let k ← read key 0 s.policy.2.1
    .ok ⟨s.policy.1, k, su.tagSize, s.policy.2.2, if ssrc = 0 then none else some ssrc⟩

/-! ## Fingerprints -/

/-- `%.2X`, rtpp_dtls_util.c:52. -/
def digit (n : Nat) : UInt8 := UInt8.ofNat (if n < 10 then 48 + n else 55 + n)

/-- The loop of `rtpp_dtls_fp_gen`, rtpp_dtls_util.c:51-58. -/
def colons : Bytes → Bytes
  | [] => []
  | [a] => [digit (a.toNat / 16), digit (a.toNat % 16)]
  | a :: b :: t => digit (a.toNat / 16) :: digit (a.toNat % 16) :: 58 :: colons (b :: t)

/-- `SHA-256`, rtpp_dtls_util.h:29. -/
def algName : Bytes := [83, 72, 65, 45, 50, 53, 54]

/-- `rtpp_dtls_fp_gen`, rtpp_dtls_util.c:34-60, for a certificate with digest `d` (32 bytes) and a buffer that is large
enough. -/
def fpGen (d : Bytes) : Bytes := algName ++ 32 :: colons d

/-! ## The connection -/

inductive St where
  | init
  | connecting
  | up
  | dead
  deriving DecidableEq, Repr

inductive Mode where
  | actpass
  | active
  | passive
  deriving DecidableEq, Repr

/-- `struct rtpp_dtls_conn_priv`, rtpp_dtls_conn.c:133-151. -/
structure Conn where
  st : St := .init
  mode : Mode := .actpass
  fp : Bytes := []
  ssrc : Nat := 0
  out : Option Ctx := none
  inn : Option Ctx := none
  deriving DecidableEq, Repr

/-- `struct rdc_peer_spec`, rtpp_dtls_conn.h. -/
structure Spec where
  peer : Mode
  alg : Bytes
  fp : Bytes
  ssrc : Option Bytes
  deriving DecidableEq, Repr

/-- `rtpp_dtls_conn_pickmode`, rtpp_dtls_conn.c:261-275. -/
def pickmode : Mode → Mode
  | .actpass => .passive
  | .active => .passive
  | .passive => .active

/-- `(uint32_t)strtoul(s, &ep, 10)` with the checks of rtpp_dtls_conn.c:314-315. -/
def ssrcOf (s : Bytes) : Option Nat :=
  let ws := (s.takeWhile Str.isSpace).length
  let sg := Str.signOf (s.drop ws)
  let ds := (s.drop (ws + sg.1)).takeWhile Str.isDigit
  if ds = [] ∨ ws + sg.1 + ds.length ≠ s.length then none
  else
    let v := Str.digitsVal ds
    if 18446744073709551615 < v then some 4294967295
    else if sg.2 then some ((18446744073709551616 - v) % 4294967296)
    else some (v % 4294967296)

/-- `rtpp_dtls_conn_setmode`, rtpp_dtls_conn.c:277-335: the connection and the mode, `none` if refused.  `connects`: the
result of `tls_connect`. -/
def setmode (c : Conn) (sp : Option Spec) (connects : Bool) : Conn × Option Mode :=
  match sp with
  | none => (c, some c.mode)
  | some s =>
    let my := pickmode s.peer
    if my ≠ c.mode ∧ c.st ≠ .init then (c, none)
    else if s.alg ≠ algName then (c, none)
    else if s.fp.length ≠ 95 then (c, none)
    else
      let c := { c with fp := s.alg ++ 32 :: s.fp }
      match s.ssrc.map ssrcOf with
      | some none => (c, none)
      | r =>
        let c := match r with
          | some (some v) => { c with ssrc := v }
          | _ => c
        if my = .active ∧ c.st = .init then
          if connects then ({ c with st := .connecting, mode := my }, some my) else ({ c with st := .connecting }, none)
        else ({ c with mode := my }, some my)

/-- What OpenSSL and libsrtp answer while a datagram is taken: `BIO_write`, the handshake complete before, the result of the
handshake step, complete after, the profile, the keying material, the digest of the peer's certificate, the two contexts
created. -/
structure Hs where
  bio : Bool
  before : Bool
  step : Bool
  after : Bool
  sel : Option Prof
  exp : Nat → Option Bytes
  cert : Option Bytes
  makes1 : Bool
  makes2 : Bool
  junk : Junk

/-- `rtpp_dtls_conn_dtls_recv`, rtpp_dtls_conn.c:369-465. -/
def recv (c : Conn) (h : Hs) : Except Fault Conn :=
  if c.st = .dead then .ok c
  else
    let c := if c.st = .init then { c with st := .connecting } else c
    if !h.bio then .ok c
    else if h.before then .ok c
    else if c.st = .up then .ok { c with st := .dead }
    else if !h.step then .ok { c with st := .dead }
    else if !h.after then .ok c
    else
      match keyinfo h.sel h.exp h.junk with
      | .error f => .error f
      | .ok none => .ok { c with st := .dead }
      | .ok (some (su, cli, srv)) =>
        match h.cert with
        | none => .ok { c with st := .dead }
        | some d =>
          if c.fp ≠ [] ∧ c.fp ≠ fpGen d then .ok { c with st := .dead }
          else
            match setup su (if c.mode = .active then cli else srv) 0 with
            | .error f => .error f
            | .ok o =>
              if !h.makes1 then .ok { c with st := .dead }
              else
                match setup su (if c.mode = .active then srv else cli) c.ssrc with
                | .error f => .error f
                | .ok i =>
                  if !h.makes2 then .ok { c with out := some o, st := .dead }
                  else .ok { c with out := some o, inn := some i, st := .up }

/-- `rtpp_dtls_conn_godead`, rtpp_dtls_conn.c:887-902. -/
def godead (c : Conn) : Conn := { c with st := .dead }

/-! ## The subcommand -/

/-- The letter of the subcommand. -/
inductive Letter where
  | a
  | p
  | s
  | d
  | u
  deriving DecidableEq, Repr

/-- The two bytes that are looked at, rtpp_dtls_gw.c:294: a string ends with NUL; `nxt` is what comes after the NUL. -/
def letterByte (s : Bytes) (nxt : UInt8) : UInt8 :=
  match s with
  | [] => 0 ||| nxt
  | [x] => x ||| 0
  | x :: y :: _ => x ||| y

/-- rtpp_dtls_gw.c:294-334. -/
def letter (b : UInt8) : Option Letter :=
  if b = 97 ∨ b = 65 then some .a
  else if b = 112 ∨ b = 80 then some .p
  else if b = 115 ∨ b = 83 then some .s
  else if b = 100 ∨ b = 68 then some .d
  else if b = 117 ∨ b = 85 then some .u
  else none

/-- rtpp_dtls_gw.c:341-345 (`char` is signed). -/
def upper (b : UInt8) : UInt8 := if 97 ≤ b.toNat ∧ b.toNat < 128 then b - 32 else b

/-- What is asked for: the letter and the description of the peer, rtpp_dtls_gw.c:288-362. -/
def parse (args : List Bytes) (nxt : UInt8) : Option (Letter × Option Spec) :=
  match args with
  | [w] =>
    match letter (letterByte w nxt) with
    | some .s => some (.s, none)
    | some .d => some (.d, none)
    | some .u => some (.u, none)
    | _ => none
  | w :: alg :: fp :: more =>
    if 1 < more.length then none
    else
      match letter (letterByte w nxt) with
      | some .a => if 7 < alg.length then none else some (.a, some ⟨.active, alg.map upper, fp, more.head?⟩)
      | some .p => if 7 < alg.length then none else some (.p, some ⟨.passive, alg.map upper, fp, more.head?⟩)
      | _ => none
  | _ => none

/-! ## A history -/

inductive Ev where
  | cmd (sp : Option Spec) (connects : Bool)
  | dgram (h : Hs)
  | godead

def step (c : Conn) : Ev → Except Fault Conn
  | .cmd sp k => .ok (setmode c sp k).1
  | .dgram h => recv c h
  | .godead => .ok (godead c)

/-- The connection after a history, latest event first. -/
def run : List Ev → Except Fault Conn
  | [] => .ok {}
  | e :: past =>
    match run past with
    | .error f => .error f
    | .ok c => step c e

end Verif.Srtp
