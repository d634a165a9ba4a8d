import Verif.Rtcp.Model

/-!
# Model of the export of RTCP reports to a HEP collector

`modules/acct_rtcp_hep/rtpp_acct_rtcp_hep.c`, `rtpp_arh_conf.c`, `external/hepconnector/core_hep.c` (as compiled by default: no zlib, no SSL,
with IPv6) and `conf_helper_mapper` of `src/rtpp_cfile.c`.

Little-endian machine.  A block of memory is the list of its bytes; what `malloc` and `realloc` put into new bytes is given by the environment.
The times are those that `dtime2timeval` gives (C43).  The descriptor of the socket is modelled by what it stands for.  Only the worker thread of
the module runs this code (rtpp_module_if.c:394-430).
-/

namespace Verif.Hep

/-- `htons`, `htonl`, as stored. -/
def be16 (n : Nat) : List UInt8 := [UInt8.ofNat (n / 256), UInt8.ofNat n]
def be32 (n : Nat) : List UInt8 := [UInt8.ofNat (n / 16777216), UInt8.ofNat (n / 65536), UInt8.ofNat (n / 256), UInt8.ofNat n]

/-- A store of `d` at `i`. -/
def blit (a : List UInt8) (i : Nat) (d : List UInt8) : Except Fault (List UInt8) :=
  if i + d.length ≤ a.length then .ok (a.take i ++ d ++ a.drop (i + d.length)) else .error .ub

/-- The contents of new memory; `none`: out of memory. -/
abbrev Mem := Option (Nat → UInt8)

/-- What `realloc` leaves: the old bytes, then what happens to be there. -/
def resize (old : List UInt8) (n : Nat) (junk : Nat → UInt8) : List UInt8 :=
  old.take n ++ (List.range (n - old.length)).map fun i => junk (old.length + i)

/-- What the number in `sock` stands for. -/
inductive Sk
  /-- a socket of the module, connected to the collector -/
  | conn
  /-- a socket of the module that `connect` has failed for -/
  | loose
  /-- a descriptor that the module has closed; another part of the program may have got the number -/
  | stale
  /-- -1 -/
  | bad
  deriving DecidableEq, Repr

/-- `struct hep_ctx`, hepconnector.h:54-80.  `hdrLen` is a `uint16_t`. -/
structure Ctx where
  hdr : Option (List UInt8)
  hdrLen : Nat
  captId : Int
  password : Option (List UInt8)
  sock : Sk
  errors : Nat
  deriving DecidableEq, Repr

/-- `struct rc_info`, hep_api.h. -/
structure Info where
  family : Nat
  proto : Nat
  ptype : Nat
  src : List UInt8
  dst : List UInt8
  sport : Nat
  dport : Nat
  sec : Nat
  usec : Nat
  deriving DecidableEq, Repr

/-- A chunk with its data: vendor 0, core_hep.c:161-206. -/
def field (ty : Nat) (d : List UInt8) : List UInt8 := be16 0 ++ be16 ty ++ be16 (6 + d.length) ++ d

/-- The stores of `hep_gen_fill`, lines 157-206, with their offsets in `struct hep_generic` (core_hep.h:167-177).  The capture agent is stored by
`htons` into four bytes. -/
def stores (i : Info) (captId : Int) : List (Nat × List UInt8) :=
  [(0, [0x48, 0x45, 0x50, 0x33]), (6, field 1 [UInt8.ofNat i.family]), (13, field 2 [UInt8.ofNat i.proto]), (20, field 7 (be16 i.sport)),
   (28, field 8 (be16 i.dport)), (36, field 9 (be32 i.sec)), (46, field 10 (be32 i.usec)), (56, field 11 [UInt8.ofNat i.ptype]),
   (63, field 12 (be16 (captId % 65536).toNat ++ [0, 0]))]

def blits (a : List UInt8) : List (Nat × List UInt8) → Except Fault (List UInt8)
  | [] => .ok a
  | (i, d) :: r =>
    match blit a i d with
    | .error e => .error e
    | .ok a' => blits a' r

/-- Lines 143-154: the block and the clearing of it. -/
def cleared (c : Ctx) (mem : Mem) : Except Fault (Option (List UInt8)) :=
  match c.hdr with
  | none =>
    match mem with
    | none => .ok none
    | some _ => .ok (some (List.replicate 73 0))
  | some b =>
    match blit b 0 (List.replicate c.hdrLen 0) with
    | .error e => .error e
    | .ok b' => .ok (some b')

/-- `hep_gen_fill`, lines 139-209; `false`: return -1. -/
def fill (c : Ctx) (i : Info) (mem : Mem) : Except Fault (Ctx × Bool) :=
  match cleared c mem with
  | .error e => .error e
  | .ok none => .ok (c, false)
  | .ok (some b) =>
    match blits b (stores i c.captId) with
    | .error e => .error e
    | .ok b' => .ok ({ c with hdr := some b', hdrLen := 73 }, true)

/-- `hep_gen_append`, lines 211-233, for vendor 0, called with the length `len` of `data`; `false`: return -1.  `dlen` and `tlen` are `uint16_t`.
A block of size 0 is not an error of its own, but then the stores are. -/
def append (c : Ctx) (ty : Nat) (data : List UInt8) (mem : Mem) : Except Fault (Ctx × Bool) :=
  let dlen := data.length % 65536
  let tlen := (6 + dlen) % 65536
  match mem with
  | none => .ok (c, false)
  | some junk =>
    match blits (resize (c.hdr.getD []) (c.hdrLen + tlen) junk)
        [(c.hdrLen, be16 0 ++ be16 ty ++ be16 tlen), (c.hdrLen + 6, data.take dlen)] with
    | .error e => .error e
    | .ok b => .ok ({ c with hdr := some b, hdrLen := (c.hdrLen + tlen) % 65536 }, true)

/-- `HGA_O_RET`, lines 235-238, for the chunks one after another; with the outcome of each `realloc`. -/
def appends (c : Ctx) : List (Nat × List UInt8 × Mem) → Except Fault (Ctx × Bool)
  | [] => .ok (c, true)
  | (ty, d, m) :: r =>
    match append c ty d m with
    | .error e => .error e
    | .ok (c', false) => .ok (c', false)
    | .ok (c', true) => appends c' r

/-- What the system does while one packet is handled.  `mem`: the allocations, by number; `sb`: those of the text buffer; `send`: the result of
`send` (`none`: -1); `resolve`, `create`, `connect`: success of `getaddrinfo`, `socket` and `connect`. -/
structure Env where
  mem : Nat → Mem
  sb : List Bool
  send : Option Nat
  resolve : Bool
  create : Bool
  connect : Bool

/-- What the module does to descriptors. -/
inductive Eff
  | sent (s : Sk) (b : List UInt8)
  | closed (s : Sk)
  deriving DecidableEq, Repr

/-- `init_hepsocket_blocking`, lines 421-449.  What `select` is called with is not initialized; only the time that it takes depends on it. -/
def reinit (c : Ctx) (e : Env) : Ctx × List Eff :=
  let cl := if c.sock = .bad then [] else [Eff.closed c.sock]
  if e.resolve = false then ({ c with sock := if c.sock = .bad then .bad else .stale }, cl)
  else if e.create = false then ({ c with sock := .bad }, cl)
  else if e.connect = false then ({ c with sock := .loose }, cl)
  else ({ c with sock := .conn }, cl)

/-- Lines 302-321. -/
def retry (c : Ctx) (e : Env) : Ctx × List Eff :=
  if c.errors > 50 then
    let r := reinit c e
    ({ r.1 with errors := 0 }, r.2)
  else (c, [])

/-- Lines 323-328, with `send_data` (337-375). -/
def transmit (c : Ctx) (e : Env) : Except Fault (Ctx × List Eff) :=
  match blit (c.hdr.getD []) 4 (be16 c.hdrLen) with
  | .error f => .error f
  | .ok b =>
    if b.length < c.hdrLen then .error .ub
    else match e.send with
      | none => .ok ({ c with hdr := some b, errors := c.errors + 1 }, [])
      | some n => .ok ({ c with hdr := some b }, [Eff.sent c.sock ((b.take c.hdrLen).take n)])

/-- The chunks of `send_hep`, lines 272-297.  `AF_INET` is 2, `AF_INET6` is 10. -/
def parts (c : Ctx) (i : Info) (data : List UInt8) (e : Env) : List (Nat × List UInt8 × Mem) :=
  (if i.family = 2 then [(3, i.src, e.mem 2), (4, i.dst, e.mem 3)]
    else if i.family = 10 then [(5, i.src, e.mem 2), (6, i.dst, e.mem 3)] else []) ++
  [(15, data, e.mem 4)] ++
  (match c.password with
    | none => []
    | some p => [(14, p, e.mem 5)])

/-- `send_hep`, lines 240-335. -/
def sendHep (c : Ctx) (i : Info) (data : List UInt8) (e : Env) : Except Fault (Ctx × List Eff) :=
  match appends c (parts c i data e) with
  | .error f => .error f
  | .ok (c1, false) => .ok (c1, [])
  | .ok (c1, true) =>
    let r := retry c1 e
    match transmit r.1 e with
    | .error f => .error f
    | .ok (c2, es) => .ok (c2, r.2 ++ es)

/-- An RTCP packet as the module gets it: the family of the local address, the addresses (of that family), the ports, the time, the Call-ID of the
session, the bytes. -/
structure Pkt where
  family : Nat
  src : List UInt8
  dst : List UInt8
  sport : Nat
  dport : Nat
  sec : Nat
  usec : Nat
  callId : List UInt8
  data : List UInt8
  deriving DecidableEq, Repr

/-- `struct rtpp_module_priv`. -/
structure M where
  ctx : Ctx
  sb : Rtcp.Out
  deriving DecidableEq, Repr

/-- Lines 177-198. -/
def info (p : Pkt) : Info := ⟨p.family, 17, 5, p.src, p.dst, p.sport, p.dport, p.sec, p.usec⟩

/-- Lines 210-220. -/
def convey (c : Ctx) (sb : Rtcp.Out) (p : Pkt) (e : Env) : Except Fault (M × List Eff) :=
  match Rtcp.rtcp2json { sb with text := [], allocs := e.sb } p.data with
  | .error f => .error f
  | .ok (o, v) =>
    if v < 0 then .ok (⟨c, o⟩, [])
    else match sendHep c (info p) o.text e with
      | .error f => .error f
      | .ok (c', es) => .ok (⟨c', o⟩, es)

/-- `rtpp_acct_rtcp_hep_do`, lines 163-224. -/
def handle (m : M) (p : Pkt) (e : Env) : Except Fault (M × List Eff) :=
  if p.family ≠ 2 ∧ p.family ≠ 10 then .error .abort
  else match fill m.ctx (info p) (e.mem 0) with
    | .error f => .error f
    | .ok (c, false) => .ok ({ m with ctx := c }, [])
    | .ok (c, true) =>
      match append c 17 p.callId (e.mem 1) with
      | .error f => .error f
      | .ok (c1, false) => .ok ({ m with ctx := c1 }, [])
      | .ok (c1, true) => convey c1 m.sb p e

/-- The packets one after another, with what was done for each. -/
def run (m : M) : List (Pkt × Env) → Except Fault (M × List (List Eff))
  | [] => .ok (m, [])
  | (p, e) :: r =>
    match handle m p e with
    | .error f => .error f
    | .ok (m', es) =>
      match run m' r with
      | .error f => .error f
      | .ok (m'', l) => .ok (m'', es :: l)

/-! ### Configuration -/

/-- A value in the configuration file: an integer (`int64_t`), or something else with its text. -/
inductive Val
  | int (n : Int)
  | text (s : List UInt8)
  deriving DecidableEq, Repr

/-- `ucl_object_tostring_forced` -/
def forced : Val → List UInt8
  | .int n => Dec.decI n
  | .text s => s

/-- The configured part of `struct hep_ctx`. -/
structure Conf where
  host : List UInt8
  port : List UInt8
  tcp : Bool
  id : Int
  deriving DecidableEq, Repr

/-- `default_ctx`, _acct_rtcp_hep_config.h. -/
def conf0 : Conf := ⟨Rtcp.asc "10.0.0.1", Rtcp.asc "9060", false, 101⟩

def lower (c : UInt8) : UInt8 := if 65 ≤ c ∧ c ≤ 90 then c + 32 else c

/-- `strcasecmp(a, b) == 0` in the C locale. -/
def same (a b : List UInt8) : Bool := a.map lower == b.map lower

/-- The conversion of an `int64_t` to `int`. -/
def toInt (n : Int) : Int := (n + 2147483648) % 4294967296 - 2147483648

/-- `conf_set_capt_port`, rtpp_arh_conf.c:66-89; the array has 7 bytes. -/
def setPort (v : Val) (c : Conf) : Conf × Bool :=
  match v with
  | .int n => if n ≤ 0 ∨ n > 65535 then (c, false) else ({ c with port := (Dec.decI n).take 6 }, true)
  | .text _ => (c, false)

/-- `conf_set_capt_ptype`, rtpp_arh_conf.c:91-110. -/
def setPtype (v : Val) (c : Conf) : Conf × Bool :=
  if same (forced v) (Rtcp.asc "udp") then ({ c with tcp := false }, true)
  else if same (forced v) (Rtcp.asc "tcp") then ({ c with tcp := true }, true)
  else (c, false)

/-- `conf_set_capt_id`, rtpp_arh_conf.c:112-135. -/
def setId (v : Val) (c : Conf) : Conf × Bool :=
  match v with
  | .int n => if n < 0 ∨ n > 4294967295 then (c, false) else ({ c with id := toInt n }, true)
  | .text _ => (c, false)

/-- `_rtpp_arh_conf`, rtpp_arh_conf.c:137-148: the keys with the functions (`none`: nothing to do); `strdup` does not fail. -/
def table : List (List UInt8 × Option (Val → Conf → Conf × Bool)) :=
  [(Rtcp.asc "load", none), (Rtcp.asc "capt_host", some fun v c => ({ c with host := forced v }, true)),
   (Rtcp.asc "capt_port", some setPort), (Rtcp.asc "capt_ptype", some setPtype), (Rtcp.asc "capt_id", some setId)]

/-- `conf_helper_mapper`, rtpp_cfile.c:245-283, for this table; unknown keys are refused (`rtpp_ucl_set_unknown`, rtpp_ucl.c:41-48). -/
def mapper (c : Conf) : List (List UInt8 × Val) → Conf × Bool
  | [] => (c, true)
  | (k, v) :: r =>
    match table.find? fun t => same t.1 k with
    | none => (c, false)
    | some (_, none) => mapper c r
    | some (_, some f) =>
      match f v c with
      | (c', false) => (c', false)
      | (c', true) => mapper c' r

/-- The module after `rtpp_acct_rtcp_hep_ctor` and a successful `rtpp_acct_rtcp_hep_config` (rtpp_acct_rtcp_hep.c:111-152). -/
def start (c : Conf) : M := ⟨⟨none, 0, c.id, none, .conn, 0⟩, ⟨[], 512, []⟩⟩

end Verif.Hep
