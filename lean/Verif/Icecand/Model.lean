import Verif.Str.Url

/-!
# Model of the subcommands of ICE: remote candidates, and the answer with the local ones

`modules/ice_lite/rtpp_ice_lite.c` (the words of the subcommand and the answer to `S`) and `libre/rtpp_re_icesdp.c`, with the
functions of libre they call (`external/libre/src`).  `Verif.Plane` has the agent among the packets, without the text.

From outside: `inet_pton` with what `net_inet_pton` makes of it (`pton`: a mapped address is one of IPv4), success of
allocations, and the pieces in which libre's `re_hprintf` hands over the text of a local candidate.  The agent is locked in each
of the functions (rtpp_ice_lite.c:379, 409), which are therefore steps.  Words have no NUL.
-/

namespace Verif.Icecand

abbrev Bytes := List UInt8

/-- A literal of the code as bytes. -/
def bs (s : String) : Bytes := s.toList.map fun c => UInt8.ofNat c.toNat

/-! ## Words and numbers of libre -/

/-- `tolower` in the C locale. -/
def lower (c : UInt8) : UInt8 := if 65 ≤ c ∧ c ≤ 90 then c + 32 else c

/-- `pl_strcasecmp(…) == 0`, external/libre/src/fmt/pl.c:358-368, 450-479 (with `str_casecmp` for words without NUL). -/
def same (a b : Bytes) : Bool := a.map lower == b.map lower

/-- The loop of `pl_u32`, pl.c:72-79, over the characters from the last one; `uint32_t` throughout. -/
def u32Go : Bytes → Nat → Nat → Nat
  | [], v, _ => v
  | c :: cs, v, mul =>
    let d := (c.toNat + 208) % 256
    if d > 9 then 0 else u32Go cs ((v + mul * d) % 4294967296) (mul * 10 % 4294967296)

/-- `pl_u32`, pl.c:64-82. -/
def u32 (w : Bytes) : Nat := u32Go w.reverse 0 1

/-! ## Addresses and candidates -/

/-- A numeric address with its family. -/
inductive Host where
  | v4 (n : Nat)
  | v6 (n : Nat)
  deriving DecidableEq, Repr

/-- `struct sa`, as far as `sa_cmp` looks (external/libre/src/sa/sa.c:465-504). -/
structure Sa where
  host : Host
  port : Nat
  deriving DecidableEq, Repr

/-- `sa_set`, sa.c:47-95: the address in a buffer of 64 bytes, the port an `uint16_t`. -/
def saSet (pton : Bytes → Option Host) (w : Bytes) (port : Nat) : Option Sa :=
  (pton (w.take 63)).map fun h => ⟨h, port % 65536⟩

/-- `enum ice_cand_type`; `other` is `-1`. -/
inductive Kind where
  | host
  | srflx
  | prflx
  | relay
  | other
  deriving DecidableEq, Repr

/-- `ice_cand_name2type`, external/libre/src/ice/icestr.c:30-38. -/
def kindOf (w : Bytes) : Kind :=
  if same w (bs "host") then .host
  else if same w (bs "srflx") then .srflx
  else if same w (bs "prflx") then .prflx
  else if same w (bs "relay") then .relay
  else .other

/-- `struct ice_cand` of a remote candidate, as `icem_rcand_add` fills it (external/libre/src/ice/cand.c:139-169). -/
structure Cand where
  kind : Kind
  comp : Nat
  prio : Nat
  addr : Sa
  rel : Sa
  found : Bytes
  deriving DecidableEq, Repr

/-- The loop over the extra pairs, rtpp_re_icesdp.c:83-99. -/
def pairs (pton : Bytes → Option Host) : List Bytes → Sa → Option Sa
  | n :: v :: rest, rel =>
    if same n (bs "raddr") then
      match saSet pton v rel.port with
      | none => none
      | some r => pairs pton rest r
    else if same n (bs "rport") then pairs pton rest { rel with port := u32 v % 65536 }
    else pairs pton rest rel
  | _, rel => some rel

/-- `icem_cand_find` finds this one, cand.c:210-230. -/
def hit (comp : Nat) (a : Sa) (c : Cand) : Bool :=
  if comp ≠ 0 ∧ c.comp ≠ comp then false else c.addr == a

/-- `rtpp_cand_decode`, rtpp_re_icesdp.c:37-115: the remote candidates afterwards, or an error, which leaves them as they were
(when the foundation cannot be copied the candidate is taken off the list by its destructor, cand.c:26-37).  `mem`: the
allocations of `icem_rcand_add` succeed. -/
def decode (pton : Bytes → Option Host) (mem : Bool) (rc : List Cand) : List Bytes → Option (List Cand)
  | found :: compid :: transp :: prio :: addr :: port :: typ :: kind :: extra =>
    if !same typ (bs "typ") then none
    else if !same transp (bs "UDP") then none
    else match pairs pton extra ⟨if 58 ∈ addr then .v6 0 else .v4 0, 0⟩ with
      | none => none
      | some rel => match saSet pton addr (u32 port) with
        | none => none
        | some ca =>
          let cid := u32 compid % 256
          if rc.any (hit cid ca) then some rc
          else if !mem then none
          else some (rc ++ [⟨kindOf (kind.take 7), cid, u32 prio, ca, rel, found⟩])
  | _ => none

/-- The candidates after a list of subcommands `C`, the latest first, each with the success of its allocations. -/
def after (pton : Bytes → Option Host) : List (Bool × List Bytes) → List Cand
  | [] => []
  | (mem, args) :: h => (decode pton mem (after pton h) args).getD (after pton h)

/-! ## The word of the subcommand -/

inductive Cmd where
  | auth
  | cand
  | start
  | off
  | offOut
  deriving DecidableEq, Repr

/-- The first `switch` of `rtpp_ice_lite_handle_command`, rtpp_ice_lite.c:524-573: the word and the number of words with it. -/
def classify (w : Bytes) (argc : Nat) : Option Cmd :=
  let k := w.getD 0 0 ||| w.getD 1 0
  if k = 97 ∨ k = 65 then (if argc ≠ 3 then none else some .auth)
  else if k = 99 ∨ k = 67 then (if argc < 9 then none else some .cand)
  else if k = 115 ∨ k = 83 then (if argc ≠ 1 then none else some .start)
  else if k = 100 ∨ k = 68 then (if argc ≠ 1 then none else some .off)
  else if k = 117 ∨ k = 85 then (if argc ≠ 1 then none else some .offOut)
  else none

/-! ## The answer to `S` -/

/-- `buf_t` of the response (rtpp_command_sub.h:35-38) with `resp->s` as a position and `resp->len`. -/
structure Resp where
  mem : Bytes
  pos : Nat
  room : Nat
  deriving DecidableEq, Repr

/-- The command is allocated with zeros (rtpp_command.c:210). -/
def fresh : Resp := ⟨List.replicate 512 0, 0, 512⟩

/-- Bytes stored in an array from position `p`. -/
def put (m : Bytes) (p : Nat) (x : Bytes) : Except Fault Bytes :=
  if p + x.length ≤ m.length then .ok (m.take p ++ x ++ m.drop (p + x.length)) else .error .ub

/-- `APPEND`, rtpp_ice_lite.c:399-400, with `strlcpy` as in C18.  Its value is 0 or 1, never negative as the callers ask, so
that there is no failure. -/
def app (x : Bytes) (r : Resp) : Except Fault Resp :=
  match (if r.room = 0 then .ok r.mem else put r.mem r.pos (x.take (r.room - 1) ++ [0])) with
  | .error e => .error e
  | .ok m => if x.length > r.room then .ok { r with mem := m } else .ok ⟨m, r.pos + x.length, r.room - x.length⟩

/-- `cand_printf_handler`, rtpp_ice_lite.c:385-397. -/
def piece (x : Bytes) (r : Resp) : Except Fault (Option Resp) :=
  if x.length + 1 > r.room then .ok none
  else match Str.quote x (r.mem.drop r.pos) r.room with
    | .error e => .error e
    | .ok (none, _) => .ok none
    | .ok (some n, d) => .ok (some ⟨r.mem.take r.pos ++ d, r.pos + n, r.room - n⟩)

/-- `ice_cand_encode`, external/libre/src/ice/icesdp.c:67-84: piece after piece. -/
def pieces : List Bytes → Resp → Except Fault (Option Resp)
  | [], r => .ok (some r)
  | x :: xs, r => match piece x r with
    | .error e => .error e
    | .ok none => .ok none
    | .ok (some r') => pieces xs r'

/-- The loop of `ice_lite_start`, rtpp_ice_lite.c:431-438. -/
def cands : List (List Bytes) → Resp → Except Fault (Option Resp)
  | [], r => .ok (some r)
  | c :: cs, r => match app (bs " c:") r with
    | .error e => .error e
    | .ok r1 => match pieces c r1 with
      | .error e => .error e
      | .ok none => .ok none
      | .ok (some r2) => cands cs r2

/-- The text of the response as it is read for the reply (rpcpv1_ul.c:160-165): up to the NUL, which had better be there. -/
def textOf (m : Bytes) : Except Fault Bytes :=
  if 0 ∈ m then .ok (m.takeWhile (· ≠ 0)) else .error .ub

/-- `ice_lite_start`, rtpp_ice_lite.c:424-443, with the reading of the response: the text, or a failure. -/
def start (ufrag pwd : Bytes) (cs : List (List Bytes)) : Except Fault (Option Bytes) :=
  match app ufrag fresh with
  | .error e => .error e
  | .ok r1 => match app (bs " ") r1 with
    | .error e => .error e
    | .ok r2 => match app pwd r2 with
      | .error e => .error e
      | .ok r3 => match cands cs r3 with
        | .error e => .error e
        | .ok none => .ok none
        | .ok (some r) => match textOf r.mem with
          | .error e => .error e
          | .ok t => .ok (some t)

end Verif.Icecand
