import Verif.Cli.Model

/-!
# What a command line means

Written without the loop: an option counts by the arguments given to it, in the order in which they were given.
-/

namespace Verif.Cli

/-! ### Arguments -/

/-- The arguments of an option with a number, of one with a name. -/
def nums (k : Num) (l : List Opt) : List Bytes := l.filterMap fun | .num j s => if j = k then some s else none | _ => none
def names (k : Nm) (l : List Opt) : List Bytes := l.filterMap fun | .name j s => if j = k then some s else none | _ => none
/-- Those of `-c`, `-d`, `-A`, `-s`, `-n`, `-L`, `--dso`. -/
def policies (l : List Opt) : List Bytes := l.filterMap fun | .policy s => some s | _ => none
def logs (l : List Opt) : List Bytes := l.filterMap fun | .log s => some s | _ => none
def advs (l : List Opt) : List Bytes := l.filterMap fun | .adv s => some s | _ => none
def socks (l : List Opt) : List Bytes := l.filterMap fun | .sock s => some s | _ => none
def targets (l : List Opt) : List Bytes := l.filterMap fun | .target s => some s | _ => none
def limits (l : List Opt) : List Bytes := l.filterMap fun | .limit s => some s | _ => none
def dsos (l : List Opt) : List Bytes := l.filterMap fun | .dso s => some s | _ => none
/-- Those of `-l` and `-6`, of `-u` and `-w`, together. -/
def listens (l : List Opt) : List (Bool × Bytes) := l.filterMap fun | .listen v s => some (v, s) | _ => none
def rights (l : List Opt) : List (Bool × Bytes) := l.filterMap fun | .user s => some (true, s) | .mode s => some (false, s) | _ => none

/-- The part of an argument before the first `x`, and that after it if there is one. -/
def before (x : UInt8) (s : Bytes) : Bytes := s.takeWhile (· ≠ x)
def after (x : UInt8) (s : Bytes) : Option Bytes := if x ∈ s then some ((s.dropWhile (· ≠ x)).drop 1) else none

/-- The number an argument is read as (C17). -/
def val (s : Bytes) : Int := match Str.atoiSafe s with | .ok v => v | _ => 0

/-- What each number may be. -/
def Allowed : Num → Int → Prop
  | .ttl, v | .setup, v => 1 ≤ v
  | .tos, v => 0 ≤ v ∧ v ≤ 255
  | .pmin, v | .pmax, v => 1 ≤ v ∧ v ≤ 65535
  | .nice, v => -20 ≤ v ∧ v ≤ 20

/-- The documented values. -/
def default : Num → Int
  | .ttl => 60
  | .setup => 0
  | .tos => 0xb8
  | .pmin => 35000
  | .pmax => 65000
  | .nice => -21

def bytes (s : String) : Bytes := s.toList.map fun c => UInt8.ofNat c.toNat

/-- The levels and facilities, in any case; a facility with or without `LOG_`. -/
def levelName : Level → String
  | .dbug => "dbug" | .info => "info" | .warn => "warn" | .err => "err" | .crit => "crit"

def facNames : List String :=
  ["auth", "cron", "daemon", "kern", "local0", "local1", "local2", "local3", "local4", "local5", "local6", "local7", "lpr", "mail", "news",
   "user", "uucp", "authpriv", "ftp", "syslog"]

def IsLevel (s : Bytes) (v : Level) : Prop := s.map lower = bytes (levelName v)
def IsFac (s : Bytes) (f : Bytes) : Prop := ∃ n ∈ facNames, f = bytes n ∧ (s.map lower = bytes n ∨ s.map lower = bytes ("log_" ++ n))

def policyName : Policy → Option String
  | .other => none | .fifo => some "fifo" | .rr => some "rr"

/-- An option that can be accepted at all. -/
def Fine (y : Sys) : Opt → Prop
  | .num k s => (∃ v, Str.atoiSafe s = .ok v) ∧ Allowed k (val s)
  | .name _ _ | .flag _ | .listen _ _ | .sock _ | .user _ | .mode _ => True
  | .policy s => ∃ p n, policyName p = some n ∧ s = bytes n
  | .log s => (∃ v, IsLevel (before 58 s) v) ∧ ∀ b, after 58 s = some b → ∃ f, IsFac b f
  | .adv s => s ≠ [] ∧ after 47 s ≠ some []
  | .target s => s ≠ []
  | .limit s => (∃ v, Str.atoiSafe s = .ok v) ∧ 0 ≤ val s ∧ y.limit (val s) = true
  | .dso s => y.dso s = true
  | .info | .bad => False

/-- The targets of notifications are taken one after the other (C64). -/
def Takes (f : List Bytes → Bytes → Bool) : List Bytes → List Bytes → Prop
  | _, [] => True
  | d, s :: l => f d s = true ∧ Takes f (d ++ [s]) l

/-- User, group and mode of the control socket, by `-u` (`true`) and `-w` (C79). -/
def credsOf (y : Sys) : Start.Creds → List (Bool × Bytes) → Option Start.Creds
  | r, [] => some r
  | r, (true, s) :: l => (Start.userOpt y.pw y.gr r s).bind (credsOf y · l)
  | r, (false, s) :: l => (Start.modeOpt r s).bind (credsOf y · l)

/-- The least even number not below `n`; the greatest even number with an odd one above it that is not above `n`. -/
def evenUp (n : Int) : Int := 2 * ((n + 1) / 2)
def evenDown (n : Int) : Int := 2 * ((n - 1) / 2)

/-- The last number given, or the documented one. -/
def number (l : List Opt) (k : Num) : Int := ((nums k l).map val).getLastD (default k)

/-- The program accepts such a line; `r`: user, group and mode.  (That the addresses are usable is said apart.) -/
structure Taken (y : Sys) (l : List Opt) (extra : Nat) (r : Start.Creds) : Prop where
  extra : extra = 0
  fine : ∀ o ∈ l, Fine y o
  listens : (listens l).length ≤ 16
  targets : Takes y.target [] (targets l)
  creds : credsOf y ⟨false, false, none, none, 0⟩ (rights l) = some r
  file : ∀ f, (names .config l).getLast? = some f → y.file f = true
  spool : names .sdir l ≠ [] → names .rdir l ≠ []
  stdio : (∃ s ∈ socks l, (Ctl.parse false s).kind = .stdio) → Opt.flag .nodaemon ∈ l
  ports : evenUp (number l .pmin) ≤ evenDown (number l .pmax)
  root : y.root = true → r.uname = false → (∃ s ∈ socks l, (Ctl.parse false s).kind = .udp4 ∨ (Ctl.parse false s).kind = .udp6) →
    Opt.flag .nocheck ∈ l

/-- The advertised addresses: the last first one, and the last second one. -/
def advertised (l : List Opt) : Option Bytes × Option Bytes :=
  (((advs l).map (before 47)).getLast?, ((advs l).filterMap (after 47)).getLast?)

/-- What is set by a line; `bmode` tells whether there are two sides. -/
structure Meant (l : List Opt) (bmode : Bool) (c : Cfg) : Prop where
  ttl : c.num .ttl = number l .ttl
  setup : c.num .setup = if nums .setup l = [] then number l .ttl else number l .setup
  tos : c.num .tos = number l .tos
  pmin : c.num .pmin = evenUp (number l .pmin)
  pmax : c.num .pmax = evenDown (number l .pmax)
  nice : c.num .nice = number l .nice
  rdir : c.name .rdir = (names .rdir l).getLast?
  sdir : c.name .sdir = (names .sdir l).getLast?
  pid : c.name .pid = some ((names .pid l).getLastD (bytes "/var/run/rtpproxy.pid"))
  config : c.name .config = (names .config l).getLast?
  aforce : c.on .aforce = true ↔ Opt.flag .aforce ∈ l ∨ (bmode = true ∧ Opt.flag .brsym ∉ l)
  on : ∀ k, k ≠ .aforce → (c.on k = true ↔ Opt.flag k ∈ l)
  policy : ∀ s, (policies l).getLast? = some s → ∃ n, policyName c.policy = some n ∧ s = bytes n
  noPolicy : policies l = [] → c.policy = .other
  level : ∀ s, (logs l).getLast? = some s → ∃ v, c.level = some v ∧ IsLevel (before 58 s) v
  noLevel : logs l = [] → c.level = none
  fac : ∀ s, ((logs l).filterMap (after 58)).getLast? = some s → ∃ f, c.fac = some f ∧ IsFac s f
  noFac : (logs l).filterMap (after 58) = [] → c.fac = none
  adv : c.adv = advertised l
  bargs : c.bargs = listens l
  socks : c.socks = if socks l = [] then [bytes "/var/run/rtpproxy.sock"] else socks l
  targets : c.targets = targets l
  nofile : c.nofile = ((limits l).map val).getLast?
  mods : c.mods = dsos l

/-- What an option is about; `-u` and `-w` together, and `-l` and `-6`. -/
inductive About
  | num (k : Num) | name (k : Nm) | flag (k : Flag) | rights | policy | log | adv | listen | sock | target | limit | dso | none
  deriving DecidableEq

def about : Opt → About
  | .num k _ => .num k
  | .name k _ => .name k
  | .flag k => .flag k
  | .user _ | .mode _ => .rights
  | .policy _ => .policy
  | .log _ => .log
  | .adv _ => .adv
  | .listen _ _ => .listen
  | .sock _ => .sock
  | .target _ => .target
  | .limit _ => .limit
  | .dso _ => .dso
  | .info | .bad => .none

/-- Two lines with the same options, those about the same thing in the same order. -/
def Alike (l m : List Opt) : Prop := ∀ a, l.filter (about · = a) = m.filter (about · = a)

end Verif.Cli
