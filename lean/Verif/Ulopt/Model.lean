import Verif.Addr.Model

/-!
# Model of the options of the offer/answer commands (`src/commands/rpcpv1_ul.c`)

Memory is a byte array, `cp` an index.  Local addresses are numbers.  The registry of local addresses and the
resolver are oracles (`Env`).  Not modelled: the notification socket and tag (lines 280-292), failing allocations, the
release of the options when the command is refused.
-/

namespace Verif.Ulopt
open Verif.Str Verif.Addr

/-- What the parser asks others for. -/
structure Env where
  /-- `cfsp->aforce` -/
  aforce : Bool
  /-- `cfsp->bindaddr[0]` -/
  b0 : Nat
  /-- `cfsp->bindaddr[1]`, the external interface in bridging mode -/
  b1 : Option Nat
  /-- family of a local address -/
  fam6 : Nat → Bool
  /-- `rtpp_is_lib` -/
  isLib : Bool
  /-- `label2` of the registry of local addresses -/
  label2 : List UInt8 → Option Nat
  /-- `host2` with the family (`true` for IPv6) -/
  host2 : Bool → List UInt8 → Option Nat
  /-- `local4remote` -/
  local4remote : Bool → List UInt8 → Option Nat
  /-- `foraf` -/
  foraf : Bool → Option Nat
  /-- `ul_opts_parse_packetport_i` on what follows the prefix `RTQ:` -/
  pport : List UInt8 → Option Nat

/-- The error codes, rtpp_command_ecodes.h. -/
inductive Ecode where
  | parse11 | parse12 | parse13 | parse14 | parse15 | parse16 | invlarg1 | invlarg2 | invlarg5 | invlarg6 | invlarg7
  deriving DecidableEq, Repr

/-- `struct ul_opts`, rpcpv1_ul.c:94-116 (the part set from the modifiers).  `lidx` is stored plus one. -/
structure Opts where
  asym : Bool
  weak : Bool
  ptime : Int
  codecs : Option (List UInt8)
  lia0 : Nat
  lia1 : Nat
  lidx1 : Nat
  loc : Option Nat
  v6 : Bool
  newPort : Bool
  lpp : Option Nat
  deriving DecidableEq, Repr

/-- `ul_opts_init`, lines 181-190. -/
def initO (e : Env) : Opts := ⟨e.aforce, false, -1, none, e.b0, e.b0, 2, none, false, false, none⟩

/-- The C string at `i`. -/
def strAt (mem : List UInt8) (i : Nat) : Except Fault (List UInt8) :=
  match scan (fun _ => true) mem i with
  | .error f => .error f
  | .ok j => .ok ((mem.drop i).take (j - i))

/-- `ulop->lia[ulop->lidx] = b; ulop->lidx--;` -/
def Opts.dir (o : Opts) (b : Nat) : Opts :=
  if o.lidx1 = 2 then { o with lia1 := b, lidx1 := 1 } else { o with lia0 := b, lidx1 := 0 }

/-- `RTQ:` -/
def rtq : List UInt8 := [82, 84, 81, 58]

/-- Lines 388-411: the local address is given by its label. -/
def useLabel (e : Env) (o : Opts) (host : List UInt8) : Except Ecode Opts :=
  if e.isLib ∧ host.length > 4 ∧ host.take 4 = rtq then
    match e.pport (host.drop 4) with
    | none => .error .invlarg1
    | some p => .ok { o with lpp := some p }
  else
    match e.label2 host with
    | none => .error .invlarg1
    | some b => .ok { o with loc := some b }

/-- One round of the loop at lines 296-456: the new options and the place where the next round begins. -/
def step (e : Env) (mem : List UInt8) (cp : Nat) (c : UInt8) (o : Opts) : Except Fault (Except Ecode (Opts × Nat)) :=
  if c = 97 ∨ c = 65 then .ok (.ok ({ o with asym := true }, cp + 1))
  else if c = 101 ∨ c = 69 then
    match e.b1 with
    | none => .ok (.error .parse11)
    | some b => if o.lidx1 = 0 then .ok (.error .parse11) else .ok (.ok (o.dir b, cp + 1))
  else if c = 105 ∨ c = 73 then
    match e.b1 with
    | none => .ok (.error .parse12)
    | some _ => if o.lidx1 = 0 then .ok (.error .parse12) else .ok (.ok (o.dir e.b0, cp + 1))
  else if c = 54 then .ok (.ok ({ o with v6 := true }, cp + 1))
  else if c = 115 ∨ c = 83 then .ok (.ok ({ o with asym := false }, cp + 1))
  else if c = 119 ∨ c = 87 then .ok (.ok ({ o with weak := true }, cp + 1))
  else if c = 122 ∨ c = 90 then
    match strAt mem (cp + 1) with
    | .error f => .error f
    | .ok s =>
      let r := strtol s
      if toInt r.val ≤ 0 ∨ toInt r.val ≥ 1000 then .ok (.error .parse13)
      else .ok (.ok ({ o with ptime := toInt r.val }, cp + 1 + r.used))
  else if c = 99 ∨ c = 67 then
    match scan (fun c => isDigit c || c == 44) mem (cp + 1) with
    | .error f => .error f
    | .ok j =>
      if cp + 1 = j ∨ o.codecs ≠ none then .ok (.error .parse14)
      else .ok (.ok ({ o with codecs := some ((mem.drop (cp + 1)).take (j - (cp + 1))) }, j))
  else if c = 108 ∨ c = 76 then
    match rd mem (cp + 1) with
    | .error f => .error f
    | .ok d =>
      if d = 123 then
        match extractlabel mem (cp + 1) with
        | .error f => .error f
        | .ok none => .ok (.error .parse15)
        | .ok (some p) =>
          match useLabel e o ((mem.drop p.beg).take p.len) with
          | .error x => .ok (.error x)
          | .ok o => .ok (.ok (o, p.fin + 1))
      else
        match extractaddr mem (cp + 1) with
        | .error f => .error f
        | .ok none => .ok (.error .parse15)
        | .ok (some p) =>
          match e.host2 p.v6 ((mem.drop p.beg).take p.len) with
          | none => .ok (.error .invlarg1)
          | some b => .ok (.ok ({ o with loc := some b }, p.fin))
  else if c = 114 ∨ c = 82 then
    match extractaddr mem (cp + 1) with
    | .error f => .error f
    | .ok none => .ok (.error .parse16)
    | .ok (some p) =>
      match e.local4remote p.v6 ((mem.drop p.beg).take p.len) with
      | none => .ok (.error .invlarg2)
      | some b => .ok (.ok ({ o with loc := some b }, p.fin))
  else if c = 110 ∨ c = 78 then .ok (.ok ({ o with newPort := true }, cp + 1))
  else .ok (.error .invlarg5)

/-- The loop at lines 296-456.  `fuel` bounds the number of rounds; running out of it is a fault (the loop would not
end). -/
def loop (e : Env) (mem : List UInt8) : Nat → Nat → Opts → Except Fault (Except Ecode Opts)
  | 0, _, _ => .error .ub
  | fuel + 1, cp, o =>
    match rd mem cp with
    | .error f => .error f
    | .ok c =>
      if c = 0 then .ok (.ok o)
      else
        match step e mem cp c o with
        | .error f => .error f
        | .ok (.error x) => .ok (.error x)
        | .ok (.ok r) => loop e mem fuel r.2 r.1

/-- Lines 457-472: without direction and local address pick one of the right family. -/
def pickFamily (e : Env) (o : Opts) : Except Ecode Opts :=
  if o.loc = none ∧ o.lidx1 = 2 ∧ o.v6 ≠ e.fam6 o.lia0 then
    match e.foraf o.v6 with
    | none => .error .invlarg6
    | some b => .ok { o with loc := some b }
  else .ok o

/-- The modifiers of an offer/answer command, lines 295-472. -/
def parse (e : Env) (mem : List UInt8) (cp : Nat) : Except Fault (Except Ecode Opts) :=
  match loop e mem (mem.length + 1) cp (initO e) with
  | .error f => .error f
  | .ok (.error x) => .ok (.error x)
  | .ok (.ok o) => .ok (pickFamily e o)

/-! ## The address of the peer -/

/-- What the resolver makes of the peer's address: it fails, or the host (`true` if it is the unspecified address) and
the port. -/
structure Peer where
  /-- the two addresses `ia[0]` and `ia[1]`: host and port -/
  ia : Option ((Nat × Nat) × (Nat × Nat))
  onhold : Bool
  pport : Option (Nat × Nat)
  deriving DecidableEq, Repr

/-- `IS_IPSTR_VALID`, lines 217-219. -/
def ipstrValid (a : List UInt8) (v6 : Bool) : Bool :=
  if v6 then 2 ≤ a.length ∧ a.length ≤ 45 else 7 ≤ a.length ∧ a.length ≤ 15

/-- Lines 473-511.  `resolve` gives host and port, host 0 is the unspecified address; `parsePp` is
`ul_opts_parse_packetport`. -/
def peer (isLib : Bool) (resolve : Bool → List UInt8 → List UInt8 → Option (Nat × Nat))
    (parsePp : List UInt8 → List UInt8 → Option (Nat × Nat)) (v6 : Bool) (addr port : List UInt8) : Except Ecode Peer :=
  if isLib ∧ addr.length > 4 ∧ addr.take 4 = rtq then
    match parsePp (addr.drop 4) port with
    | none => .error .invlarg7
    | some r => .ok ⟨none, false, some r⟩
  else if ipstrValid addr v6 then
    match resolve v6 addr port with
    | none => .error .invlarg7
    | some (h, p) =>
      if h ≠ 0 then .ok ⟨some ((h, p), (h, (p + 1) % 65536)), false, none⟩
      else .ok ⟨none, true, none⟩
  else .ok ⟨none, false, none⟩

end Verif.Ulopt
