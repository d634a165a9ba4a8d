import Verif.Basic
import Verif.Str.Num
import Verif.Ctl.Model
import Verif.Start.Model
import Verif.Port.Model

/-!
# The command line

`init_config` (main.c:331-807) with `rtpp_log_str2lvl` and `rtpp_log_str2fac` (rtpp_log_stand.c:172-193, 342-383), of the daemon built with modules.

What is modelled comes after `getopt_long`: a list of options with their arguments, and the number of arguments left over.  That a string is written
to (`*cp = '\0'` in `-A`, `-u`, `-d`) is seen by no later option.  Allocations at the beginning (lines 371-401) succeed; they end the program
otherwise.  What other parts answer is in `Sys`: the control sockets are those of C78 (allocation succeeds), the targets of notifications those of
C64, the listening addresses those of C60, user and group those of C79.
-/

namespace Verif.Cli

abbrev Bytes := List UInt8

/-- Options with a number: `-T`, `-W`, `-t`, `-m`, `-M`, `--nice`. -/
inductive Num | ttl | setup | tos | pmin | pmax | nice
  deriving DecidableEq, Repr

/-- Options with a name that is kept: `-r`, `-S`, `-p`, `--config`. -/
inductive Nm | rdir | sdir | pid | config
  deriving DecidableEq, Repr

/-- Options without argument: `-R`, `-2`, `-F`, `-i`, `-P`, `-a`, `-b`, `-D`, `-f`, `--bridge_symmetric`, `--overload_prot`, `--force_asymmetric`,
`--no_resolve`, `--no_redirect`. -/
inductive Flag | norrtcp | dmode | nocheck | indep | pcap | recall | seqports | nochdir | nodaemon | brsym | ovl | aforce | noresolve | noredirect
  deriving DecidableEq, Repr

/-- `-u`, `-w`, `-c`, `-d`, `-A`, `-l` and `-6`, `-s`, `-n`, `-L`, `--dso`; `-v`, `-V`, `-C`, which print something; what `getopt_long` does not know. -/
inductive Opt
  | num (k : Num) (s : Bytes)
  | name (k : Nm) (s : Bytes)
  | flag (k : Flag)
  | user (s : Bytes)
  | mode (s : Bytes)
  | policy (s : Bytes)
  | log (s : Bytes)
  | adv (s : Bytes)
  | listen (v6 : Bool) (s : Bytes)
  | sock (s : Bytes)
  | target (s : Bytes)
  | limit (s : Bytes)
  | dso (s : Bytes)
  | info
  | bad
  deriving DecidableEq, Repr

inductive Policy | other | fifo | rr
  deriving DecidableEq, Repr

inductive Level | dbug | info | warn | err | crit
  deriving DecidableEq, Repr

/-- What is set.  `nice` is −21 if not given, `setup` 0.  Of a facility its name. -/
structure Cfg where
  num : Num → Int
  name : Nm → Option Bytes
  on : Flag → Bool
  creds : Start.Creds
  policy : Policy
  level : Option Level
  fac : Option Bytes
  adv : Option Bytes × Option Bytes
  bargs : List (Bool × Bytes)
  socks : List Bytes
  umode : Bool
  stdio : Bool
  targets : List Bytes
  nofile : Option Int
  mods : List Bytes

/-- What the rest of the program and the system answer.  `limit`: `setrlimit` and `getrlimit` succeed; `dso`: the module can be loaded and wants no
configuration; `file`: `rtpp_cfile_process` succeeds; `bind`: `init_bindaddrs`, whether it is in bridge mode. -/
structure Sys where
  pw : Bytes → Option (Nat × Nat)
  gr : Bytes → Option Nat
  target : List Bytes → Bytes → Bool
  limit : Int → Bool
  dso : Bytes → Bool
  file : Bytes → Bool
  bind : Bool → List (Bool × Bytes) → Option Bytes × Option Bytes → Option Bool
  root : Bool

inductive Res
  | ok (c : Cfg)
  | exit (n : Nat)

/-- `PID_FILE`, `CMD_SOCK`, rtpp_defines.h:54-55. -/
def pidFile : Bytes := [47, 118, 97, 114, 47, 114, 117, 110, 47, 114, 116, 112, 112, 114, 111, 120, 121, 46, 112, 105, 100]
def cmdSock : Bytes := [47, 118, 97, 114, 47, 114, 117, 110, 47, 114, 116, 112, 112, 114, 111, 120, 121, 46, 115, 111, 99, 107]

/-- main.c:352-369 and rtpp_defines.h:38-43. -/
def num0 : Num → Int
  | .ttl => 60
  | .setup => 0
  | .tos => 184
  | .pmin => 35000
  | .pmax => 65000
  | .nice => -21

def cfg0 : Cfg :=
  { num := num0
    name := fun k => if k = .pid then some pidFile else none
    on := fun _ => false
    creds := ⟨false, false, none, none, 0⟩
    policy := .other
    level := none
    fac := none
    adv := (none, none)
    bargs := []
    socks := []
    umode := false
    stdio := false
    targets := []
    nofile := none
    mods := [] }

/-- `strchr(s, x)`: what stands before the first `x`, and after it if there is one. -/
def cut (x : UInt8) : Bytes → Bytes × Option Bytes
  | [] => ([], none)
  | y :: s => if y = x then ([], some s) else (y :: (cut x s).1, (cut x s).2)

/-- `tolower` in the C locale, as `strcasecmp` uses it. -/
def lower (c : UInt8) : UInt8 := if 65 ≤ c.toNat ∧ c.toNat ≤ 90 then c + 32 else c

def lc (s : Bytes) : Bytes := s.map lower

/-- `rtpp_log_str2lvl`. -/
def str2lvl (s : Bytes) : Option Level :=
  if lc s = [100, 98, 117, 103] then some .dbug
  else if lc s = [105, 110, 102, 111] then some .info
  else if lc s = [119, 97, 114, 110] then some .warn
  else if lc s = [101, 114, 114] then some .err
  else if lc s = [99, 114, 105, 116] then some .crit
  else none

/-- The names of `str2fac[]` behind `LOG_`, in lower case. -/
def facs : List Bytes :=
  [[97, 117, 116, 104], [99, 114, 111, 110], [100, 97, 101, 109, 111, 110], [107, 101, 114, 110],
   [108, 111, 99, 97, 108, 48], [108, 111, 99, 97, 108, 49], [108, 111, 99, 97, 108, 50], [108, 111, 99, 97, 108, 51],
   [108, 111, 99, 97, 108, 52], [108, 111, 99, 97, 108, 53], [108, 111, 99, 97, 108, 54], [108, 111, 99, 97, 108, 55],
   [108, 112, 114], [109, 97, 105, 108], [110, 101, 119, 115], [117, 115, 101, 114], [117, 117, 99, 112],
   [97, 117, 116, 104, 112, 114, 105, 118], [102, 116, 112], [115, 121, 115, 108, 111, 103]]

/-- `rtpp_log_str2fac`. -/
def str2fac (s : Bytes) : Option Bytes := facs.find? (fun f => lc s == [108, 111, 103, 95] ++ f || lc s == f)

/-- The least and the greatest number; no upper bound if that is less (rtpp_util.c:395). -/
def bounds : Num → Int × Int
  | .ttl => (1, -1)
  | .setup => (1, -1)
  | .tos => (0, 255)
  | .pmin => (1, 65535)
  | .pmax => (1, 65535)
  | .nice => (-20, 20)

def setNum (c : Cfg) (k : Num) (v : Int) : Cfg := { c with num := fun j => if j = k then v else c.num j }
def setName (c : Cfg) (k : Nm) (s : Bytes) : Cfg := { c with name := fun j => if j = k then some s else c.name j }
def setFlag (c : Cfg) (k : Flag) : Cfg := { c with on := fun j => if j = k then true else c.on j }

/-- `-A`, main.c:507-521. -/
def advOpt (c : Cfg) (s : Bytes) : Res :=
  if s = [] then .exit 1 else
  match cut 47 s with
  | (a, none) => .ok { c with adv := (some a, c.adv.2) }
  | (a, some b) => if b = [] then .exit 1 else .ok { c with adv := (some a, some b) }

/-- `-d`, main.c:689-701. -/
def logOpt (c : Cfg) (s : Bytes) : Res :=
  match cut 58 s with
  | (a, none) => match str2lvl a with
    | none => .exit 1
    | some v => .ok { c with level := some v }
  | (a, some b) => match str2fac b with
    | none => .exit 1
    | some f => match str2lvl a with
      | none => .exit 1
      | some v => .ok { c with level := some v, fac := some f }

def policyOf (s : Bytes) : Option Policy :=
  if s = [102, 105, 102, 111] then some .fifo else if s = [114, 114] then some .rr else none

/-- `BINDARG_MAX`, rtpp_bindargs.h:35. -/
def maxBind : Nat := 16

/-- One turn of the loop, main.c:405-727. -/
def opt (y : Sys) (c : Cfg) : Opt → Res
  | .num k s => match Str.atoiSaferange s (bounds k).1 (bounds k).2 with
    | .ok v => .ok (setNum c k v)
    | _ => .exit 1
  | .name k s => .ok (setName c k s)
  | .flag k => .ok (setFlag c k)
  | .user s => match Start.userOpt y.pw y.gr c.creds s with
    | some r => .ok { c with creds := r }
    | none => .exit 1
  | .mode s => match Start.modeOpt c.creds s with
    | some r => .ok { c with creds := r }
    | none => .exit 1
  | .policy s => match policyOf s with
    | some p => .ok { c with policy := p }
    | none => .exit 1
  | .log s => logOpt c s
  | .adv s => advOpt c s
  | .listen v s => if c.bargs.length = maxBind then .exit 1 else .ok { c with bargs := c.bargs ++ [(v, s)] }
  | .sock s =>
    let k := (Ctl.parse false s).kind
    .ok { c with socks := c.socks ++ [s], umode := c.umode || Start.isDg k, stdio := c.stdio || (!Start.isDg k && k == .stdio) }
  | .target s => if s.length = 0 then .exit 1 else if y.target c.targets s then .ok { c with targets := c.targets ++ [s] } else .exit 1
  | .limit s => match Str.atoiSaferange s 0 (-1) with
    | .ok v => if y.limit v then .ok { c with nofile := some v } else .exit 1
    | _ => .exit 1
  | .dso s => if y.dso s then .ok { c with mods := c.mods ++ [s] } else .exit 1
  | .info => .exit 0
  | .bad => .exit 1

def loop (y : Sys) (c : Cfg) : List Opt → Res
  | [] => .ok c
  | o :: l => match opt y c o with
    | .ok c' => loop y c' l
    | .exit n => .exit n

/-- main.c:742-753. -/
def fill (c : Cfg) : Cfg :=
  { c with
    num := fun k => if k = .setup ∧ c.num .setup = 0 then c.num .ttl else c.num k
    socks := if c.socks = [] then [cmdSock] else c.socks }

/-- main.c:779-807. -/
def rest (y : Sys) (c : Cfg) : Res :=
  match Port.normalise (c.num .pmin) (c.num .pmax) with
  | none => .exit 1
  | some (a, b) => match y.bind (c.on .noresolve) c.bargs c.adv with
    | none => .exit 1
    | some bmode =>
      let d := setNum (setNum c .pmin a) .pmax b
      .ok (if bmode && !c.on .brsym then setFlag d .aforce else d)

/-- main.c:729-807. -/
def check (y : Sys) (c : Cfg) (extra : Nat) : Res :=
  if extra ≠ 0 then .exit 1
  else if (c.name .config).any (fun f => !y.file f) then .exit 1
  else
    let c := fill c
    if (c.name .rdir).isNone && (c.name .sdir).isSome then .exit 1
    else if !c.on .nodaemon && c.stdio then .exit 1
    else if !c.on .nocheck && y.root && !c.creds.uname && c.umode then .exit 1
    else rest y c

def init (y : Sys) (l : List Opt) (extra : Nat) : Res := match loop y cfg0 l with
  | .ok c => check y c extra
  | .exit n => .exit n

end Verif.Cli
