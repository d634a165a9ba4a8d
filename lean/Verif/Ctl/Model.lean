import Verif.Basic
import Verif.Str.Num

/-!
# Control sockets: names, addresses, and socket files

rtpp_controlfd.c, with `setbindhost` and what it calls from rtpp_network.c and the exit handler of main.c.

Several instances of the program run on one machine and share its file system; each goes through the system calls of
`rtpp_controlfd_init` one at a time, and the calls of different instances interleave in any order.  Every call may fail.

Simplifications.  Only what the program does to the names of its local sockets is part of the state: for sockets of
the other kinds the calls that set them up (`socket`, `bind`, `listen`, `getaddrinfo`, `sd_listen_fds`, `fcntl`) are
calls that succeed or fail.  Symbolic links, several names of one file and empty names are left out; a path is absolute
or relative to the working directory.
-/

namespace Verif.Ctl

abbrev Bytes := List UInt8

/-- rtpp_controlfd.h:28-29. -/
inductive Kind | ifsun | udp4 | udp6 | sysd | stdio | fd | ifsunC | tcp4 | tcp6
  deriving DecidableEq, Repr

/-- rtpp_controlfd.h:31-44, what the parser fills in. -/
structure Csock where
  kind : Kind
  exitOnClose : Bool
  name : Bytes
  deriving DecidableEq, Repr

/-- `strncmp(p, s, strlen(p)) == 0`. -/
def starts : Bytes → Bytes → Bool
  | [], _ => true
  | _ :: _, [] => false
  | a :: p, b :: s => a == b && starts p s

/-- `rtpp_ctrl_sock_parse`, rtpp_controlfd.c:326-371. -/
def parse (isLib : Bool) (s : Bytes) : Csock :=
  if starts [117, 100, 112, 58] s then ⟨.udp4, false, s.drop 4⟩
  else if starts [117, 100, 112, 54, 58] s then ⟨.udp6, false, s.drop 5⟩
  else if starts [117, 110, 105, 120, 58] s then ⟨.ifsun, false, s.drop 5⟩
  else if starts [99, 117, 110, 105, 120, 58] s then ⟨.ifsunC, false, s.drop 6⟩
  else if starts [115, 121, 115, 116, 101, 109, 100, 58] s then ⟨.sysd, false, s.drop 8⟩
  else if starts [115, 116, 100, 105, 111, 58] s then ⟨.stdio, false, s.drop 6⟩
  else if starts [115, 116, 100, 105, 111, 99, 58] s then ⟨.stdio, true, s.drop 7⟩
  else if isLib && starts [102, 100, 58] s then ⟨.fd, false, s.drop 3⟩
  else if starts [116, 99, 112, 58] s then ⟨.tcp4, false, s.drop 4⟩
  else if starts [116, 99, 112, 54, 58] s then ⟨.tcp6, false, s.drop 5⟩
  else ⟨.ifsun, false, s⟩

/-- `RTPP_CTRL_ISUNIX`, rtpp_controlfd.h:47. -/
def isUnix (k : Kind) : Bool := k == .ifsun || k == .ifsunC

/-- `strrchr(s, c)`: what stands before the last `c`, and after it. -/
def strrchr (c : UInt8) : Bytes → Option (Bytes × Bytes)
  | [] => none
  | x :: s => match strrchr c s with
    | some (a, b) => some (x :: a, b)
    | none => if x = c then some ([], s) else none

/-- `CPORT`, rtpp_defines.h:44. -/
def cport : Bytes := [50, 50, 50, 50, 50]

/-- rtpp_controlfd.c:143-150 and 185-192. -/
def hostPort (s : Bytes) : Bytes × Bytes := match strrchr 58 s with
  | none => (s, cport)
  | some (h, p) => (h, if p = [] then cport else p)

/-- `is_wildcard`, rtpp_network.c:377-388. -/
def isWildcard (v6 : Bool) (h : Bytes) : Bool :=
  h == [42] || (!v6 && h == [48, 46, 48, 46, 48, 46, 48]) || (v6 && h == [58, 58])

def numset (v6 : Bool) (c : UInt8) : Bool :=
  if v6 then (48 ≤ c && c ≤ 57) || (97 ≤ c && c ≤ 102) || (65 ≤ c && c ≤ 70) || c == 58
  else (48 ≤ c && c ≤ 57) || c == 46

/-- `is_numhost`, rtpp_network.c:390-398. -/
def isNumhost (v6 : Bool) (h : Bytes) : Bool := h.all (numset v6)

/-- What the system offers.  `gai v6 host serv numeric` is the first address `getaddrinfo` gives, as
the numbers of host and port; `pton` is `inet_pton`.  `AI_PASSIVE` is always set, `AI_ADDRCONFIG` if there is a host. -/
structure Net where
  gai : Bool → Option Bytes → Bytes → Bool → Option (Nat × Nat)
  pton : Bool → Bytes → Option Nat

/-- `resolve`, rtpp_network.c:222-256; `numeric` is `flags & AI_NUMERICHOST`.  `inet_pton` is given the host only if
there is one, the flag is never set otherwise. -/
def resolve (n : Net) (v6 : Bool) (host : Option Bytes) (serv : Bytes) (numeric : Bool) : Option (Nat × Nat) :=
  match n.gai v6 host serv numeric with
  | some a => some a
  | none => if numeric = false then none else match host with
    | none => none
    | some h => match n.pton v6 h with
      | none => none
      | some x => match Str.atoiSaferange serv 1 65535 with
        | .ok p => some (x, p.toNat)
        | _ => none

/-- `setbindhost`, rtpp_network.c:400-426. -/
def setbindhost (n : Net) (v6 : Bool) (host serv : Bytes) (noResolve : Bool) : Option (Nat × Nat) :=
  if isWildcard v6 host then resolve n v6 none serv false
  else resolve n v6 (some host) serv (noResolve || isNumhost v6 host)

/-- The address that a network control socket is bound to, rtpp_controlfd.c:143-161 and 185-203. -/
def bindAddr (n : Net) (v6 : Bool) (noResolve : Bool) (name : Bytes) : Option (Nat × Nat) :=
  setbindhost n v6 (hostPort name).1 (hostPort name).2 noResolve

/-! ## Socket files -/

/-- What an instance is started with.  `uname`, `gname`: `-u` names a user, a group; `uid`, `gid` are the numbers, none
is −1; `cwd` is the working directory, the root is empty; `chdir` says that the program becomes a daemon and changes to
the root, main.c:1033-1043 and rtpp_util.c:237-238; `euid`, `egid` and `umask` are those of the process. -/
structure Cfg where
  names : List Csock
  uname : Bool
  gname : Bool
  uid : Option Nat
  gid : Option Nat
  sockMode : Nat
  cwd : Bytes
  chdir : Bool
  euid : Nat
  egid : Nat
  umask : Nat

/-- A path as the kernel follows it. -/
def full (cwd name : Bytes) : Bytes := match name with
  | 47 :: _ => name
  | _ => cwd ++ 47 :: name

/-- System calls.  `listen` acts on a descriptor, the path is only of interest to find the file. -/
inductive Op
  | unlink (q : Bytes)
  | bind (k : Nat) (q : Bytes)
  | chown (q : Bytes) (u g : Option Nat)
  | chmod (q : Bytes) (m : Nat)
  | listen (k : Nat) (q : Bytes)
  | sys
  | refuse
  deriving DecidableEq, Repr

/-- `controlfd_init_ifsun`, rtpp_controlfd.c:85-134, and the change of flags at 278-283; `sun_path` has 108 bytes. -/
def ifsunOps (c : Cfg) (k : Nat) (q name : Bytes) : List Op :=
  if name.length ≥ 108 then [.refuse]
  else [.unlink q, .sys, .bind k q] ++
    (if c.uname || c.gname then [.chown q c.uid c.gid] else []) ++
    (if c.gname && c.sockMode != 0 then [.chmod q c.sockMode] else []) ++
    [.listen k q, .sys]

/-- The calls for the `k`-th control socket, rtpp_controlfd.c:234-283. -/
def sockOps (c : Cfg) (k : Nat) (s : Csock) : List Op :=
  if isUnix s.kind then ifsunOps c k (full c.cwd s.name) s.name
  else if s.kind = .fd then match Str.atoiSafe s.name with
    | .ok v => if v < 0 then [.refuse] else [.sys]
    | _ => [.refuse]
  else [.sys, .sys]

/-- `rtpp_controlfd_init`, rtpp_controlfd.c:226-287: one socket after the other. -/
def initOps (c : Cfg) : Nat → List Csock → List Op
  | _, [] => []
  | k, s :: r => sockOps c k s ++ initOps c (k + 1) r

/-- `rtpp_controlfd_cleanup`, rtpp_controlfd.c:313-324. -/
def cleanOps (c : Cfg) : List Csock → List Op
  | [] => []
  | s :: r => if isUnix s.kind then .unlink (full (if c.chdir then [] else c.cwd) s.name) :: cleanOps c r
    else cleanOps c r

/-- A socket file: the instance and the number of the control socket it was made for. -/
structure Node where
  inst : Nat
  k : Nat
  uid : Nat
  gid : Nat
  mode : Nat
  listening : Bool
  deriving DecidableEq, Repr

/-- Where an instance is.  `setup`: in `rtpp_controlfd_init` with these calls to make; `up`: past the registration of
the exit handler, main.c:1055-1057; `down`: in that handler. -/
inductive Pr
  | idle
  | setup (todo : List Op)
  | up
  | down (todo : List Op)
  | gone
  deriving DecidableEq

def live : Pr → Bool
  | .setup _ => true
  | .up => true
  | .down _ => true
  | _ => false

structure St where
  fs : Bytes → Option Node
  pr : Nat → Pr

def init : St := ⟨fun _ => none, fun _ => .idle⟩

inductive Ev
  | start (i : Nat)
  | call (i : Nat) (ok : Bool)
  | ready (i : Nat)
  | quit (i : Nat)
  | done (i : Nat)
  | kill (i : Nat)
  deriving DecidableEq, Repr

def put (fs : Bytes → Option Node) (q : Bytes) (n : Option Node) : Bytes → Option Node :=
  fun x => if x = q then n else fs x

def move (pr : Nat → Pr) (i : Nat) (p : Pr) : Nat → Pr := fun j => if j = i then p else pr j

/-- `chmod(2)`, `chown(2)` leave out what is −1. -/
def owned (u g : Option Nat) (n : Node) : Node := { n with uid := u.getD n.uid, gid := g.getD n.gid }

/-- The effect of a successful call of instance `i`; none if the kernel cannot let it succeed.  A new socket file has the
mode 0777 without the bits of the mask, which are among these. -/
def exec (c : Cfg) (i : Nat) (fs : Bytes → Option Node) : Op → Option (Bytes → Option Node)
  | .unlink q => match fs q with
    | none => none
    | some _ => some (put fs q none)
  | .bind k q => match fs q with
    | none => some (put fs q (some ⟨i, k, c.euid, c.egid, 0o777 - c.umask, false⟩))
    | some _ => none
  | .chown q u g => match fs q with
    | none => none
    | some n => some (put fs q (some (owned u g n)))
  | .chmod q m => match fs q with
    | none => none
    | some n => some (put fs q (some { n with mode := m }))
  | .listen k q => match fs q with
    | none => some fs
    | some n => if n.inst = i ∧ n.k = k then some (put fs q (some { n with listening := true })) else some fs
  | .sys => some fs
  | .refuse => none

/-- A failing `unlink` is passed over, rtpp_controlfd.c:96 and 322; any other failure ends the program, main.c:1028-1031. -/
def soft : Op → Bool
  | .unlink _ => true
  | _ => false

/-- The calls that an instance has before it. -/
def todo : Pr → Option (List Op)
  | .setup l => some l
  | .down l => some l
  | _ => none

def rest : Pr → List Op → Pr
  | .setup _, l => .setup l
  | .down _, l => .down l
  | p, _ => p

/-- One call of instance `i`. -/
def callOp (c : Cfg) (i : Nat) (s : St) (ok : Bool) (o : Op) (l : List Op) : St :=
  match (if ok then exec c i s.fs o else none) with
  | some fs' => ⟨fs', move s.pr i (rest (s.pr i) l)⟩
  | none => if soft o then ⟨s.fs, move s.pr i (rest (s.pr i) l)⟩ else ⟨s.fs, move s.pr i .gone⟩

def step (cf : Nat → Cfg) (s : St) : Ev → Option St
  | .start i => if s.pr i = .idle then some ⟨s.fs, move s.pr i (.setup (initOps (cf i) 0 (cf i).names))⟩ else none
  | .call i ok => match todo (s.pr i) with
    | some (o :: l) => some (callOp (cf i) i s ok o l)
    | _ => none
  | .ready i => if s.pr i = .setup [] then some ⟨s.fs, move s.pr i .up⟩ else none
  | .quit i => if s.pr i = .up then some ⟨s.fs, move s.pr i (.down (cleanOps (cf i) (cf i).names))⟩ else none
  | .done i => if s.pr i = .down [] then some ⟨s.fs, move s.pr i .gone⟩ else none
  | .kill i => if live (s.pr i) then some ⟨s.fs, move s.pr i .gone⟩ else none

def run (cf : Nat → Cfg) : St → List Ev → Option St
  | s, [] => some s
  | s, e :: es => match step cf s e with
    | none => none
    | some s' => run cf s' es

/-- The call made by an event, if any, with its path. -/
def Op.path : Op → Option Bytes
  | .unlink q => some q
  | .bind _ q => some q
  | .chown q _ _ => some q
  | .chmod q _ => some q
  | .listen _ q => some q
  | _ => none

end Verif.Ctl
