import Verif.Basic
import Verif.Str.Num
import Verif.Ctl.Model

/-!
# Starting up

The part of main.c from the options on to the main loop, with `drop_privileges`, `rtpp_daemon`, `rtpp_daemon_parent`
and `rtpp_daemon_rel_parent` of rtpp_util.c.

The program goes through its start-up one action at a time; every action may fail, and the program may be killed
between any two of them.  As a daemon it leaves a parent behind, which waits at a pipe.

Simplifications.  The tables built before the control sockets and the eight subsystems built after the privileges are
dropped are actions without further effect that succeed or fail; the change of scheduler, the limits and the message to
systemd cannot end the program and are left out, as is the build as a library, which has no daemon, no credentials
and no signal handlers.  `setuid` is that of a privileged process: it sets all user ids for good.
-/

namespace Verif.Start

abbrev Bytes := List UInt8

/-- `struct rtpp_runcreds`; numbers that are none are −1.  Of the names only whether there is one. -/
structure Creds where
  uname : Bool
  gname : Bool
  uid : Option Nat
  gid : Option Nat
  sockMode : Nat
  deriving DecidableEq, Repr

/-- `strchr(s, ':')`: what stands before the first colon, and after it if there is one. -/
def strchr : Bytes → Bytes × Option Bytes
  | [] => ([], none)
  | x :: s => if x = 58 then ([], some s) else (x :: (strchr s).1, (strchr s).2)

/-- The group part of `-u`, main.c:645-653. -/
def groupOpt (gr : Bytes → Option Nat) (r : Creds) : Option Bytes → Option Creds
  | none => some r
  | some g => match gr g with
    | none => none
    | some n => some { r with gid := some n, sockMode := (if r.sockMode = 0 then 0o755 else r.sockMode) }

/-- The option `-u`, main.c:624-654.  `pw` gives user and group of a user, `gr` the number of a group; none is an error
that ends the program. -/
def userOpt (pw : Bytes → Option (Nat × Nat)) (gr : Bytes → Option Nat) (r : Creds) (s : Bytes) : Option Creds :=
  match (strchr s).1, (strchr s).2 with
  | [], some g => groupOpt gr ⟨false, true, none, none, r.sockMode⟩ (some g)
  | u, g => match pw u with
    | none => none
    | some (n, m) => groupOpt gr ⟨true, g.isSome, some n, if g.isNone then some m else none, r.sockMode⟩ g

/-- The option `-w`, main.c:656-663. -/
def modeOpt (r : Creds) (s : Bytes) : Option Creds := match Str.atoiSaferange s 0 4095 with
  | .ok v => some { r with sockMode := v.toNat }
  | _ => none

/-- What the program is started with.  `ruid`, `rgid`, `groups`: those of the process. -/
structure Opt where
  creds : Creds
  kinds : List Ctl.Kind
  force : Bool
  daemon : Bool
  pid : Bool
  nice : Bool
  ruid : Nat
  rgid : Nat
  groups : List Nat

/-- `RTPP_CTRL_ISDG`, rtpp_controlfd.h:46. -/
def isDg (k : Ctl.Kind) : Bool := k == .udp4 || k == .udp6

/-- main.c:532-533 and 765-771. -/
def refuses (o : Opt) : Bool := !o.force && o.ruid == 0 && !o.creds.uname && o.kinds.any isDg

/-- What is done, in order. -/
inductive Act
  | tables | ctl | devnull | pipe | fork | session | log | handler | nice | pidOpen | setgid | setuid
  | part (n : Nat) | modules | command | signals | timer | pidTrunc | pidWrite | release
  deriving DecidableEq, Repr

/-- main.c:987-1217; the daemon part is rtpp_util.c:213-263, the privileges rtpp_util.c:100-118. -/
def plan (o : Opt) : List Act :=
  [.tables, .ctl] ++ (if o.daemon then [.devnull, .pipe, .fork, .session] else []) ++ [.log, .handler] ++
  (if o.nice then [.nice] else []) ++ (if o.pid then [.pidOpen] else []) ++
  (if o.creds.gname then [.setgid] else []) ++ (if o.creds.uname then [.setuid] else []) ++
  [.part 0, .part 1, .part 2, .part 3, .part 4, .part 5, .part 6, .modules, .command, .signals, .timer] ++
  (if o.pid then [.pidTrunc, .pidWrite] else []) ++ (if o.daemon then [.release] else [])

inductive Life | alive | exited (code : Nat) | killed
  deriving DecidableEq, Repr

structure St where
  todo : List Act
  /-- The process that goes through the start-up. -/
  life : Life
  forked : Bool
  /-- The parent that it left behind. -/
  par : Life
  /-- `OK` is in the pipe. -/
  ok : Bool
  uid : Nat
  gid : Nat
  groups : List Nat
  /-- Control sockets have been made; those of local ones have files. -/
  files : Bool
  /-- Modules have been started. -/
  mods : Bool
  /-- The thread that takes commands runs. -/
  serving : Bool
  /-- The exit handler is registered, signals are trapped. -/
  handler : Bool
  trapped : Bool
  pidFd : Bool
  pidText : Bool

def begin (o : Opt) : St :=
  { todo := plan o, life := if refuses o then .exited 1 else .alive, forked := false, par := .alive, ok := false,
    uid := o.ruid, gid := o.rgid, groups := o.groups, files := false, mods := false, serving := false,
    handler := false, trapped := false, pidFd := false, pidText := false }

/-- `exit()`: the handler, main.c:236-248, removes socket files and the pid file. -/
def exit (s : St) (code : Nat) : St :=
  if s.handler then { s with life := .exited code, files := false, pidText := false, serving := false }
  else { s with life := .exited code, serving := false }

/-- An action that succeeds. -/
def did (o : Opt) (s : St) (l : List Act) : Act → St
  | .ctl => { s with todo := l, files := true }
  | .fork => { s with todo := l, forked := true }
  | .handler => { s with todo := l, handler := true }
  | .pidOpen => { s with todo := l, pidFd := true }
  | .setgid => { s with todo := l, gid := o.creds.gid.getD s.gid }
  | .setuid => { s with todo := l, uid := o.creds.uid.getD s.uid }
  | .modules => { s with todo := l, mods := true }
  | .command => { s with todo := l, serving := true }
  | .signals => { s with todo := l, trapped := true }
  | .pidWrite => { s with todo := l, pidText := s.pidFd }
  | .release => { s with todo := l, ok := true }
  | _ => { s with todo := l }

/-- One that fails.  Registering handlers does not; a pid file that cannot be opened is passed over, main.c:1073-1076,
and later left alone, 1199-1210; anything else ends the program with 1. -/
def failed (o : Opt) (s : St) (l : List Act) : Act → St
  | .handler => did o s l .handler
  | .signals => did o s l .signals
  | .pidOpen => { s with todo := l }
  | .pidTrunc => if s.pidFd then exit s 1 else { s with todo := l }
  | .pidWrite => if s.pidFd then exit s 1 else did o s l .pidWrite
  | _ => exit s 1

inductive Ev
  /-- The next action. -/
  | act (ok : Bool)
  /-- The parent's `read` is interrupted; returns. -/
  | intr
  | wake
  /-- A deadly signal to the parent, to the program. -/
  | killPar
  | kill
  /-- The command thread answers a client that has gone. -/
  | sigpipe
  deriving DecidableEq, Repr

/-- Writing `OK` to a parent that has gone raises `SIGPIPE`, rtpp_util.c:169-179. -/
def actStep (o : Opt) (s : St) (ok : Bool) (a : Act) (l : List Act) : St :=
  if a = .release ∧ s.par ≠ .alive then (if s.trapped then exit s 1 else { s with life := .killed, serving := false })
  else if ok then did o s l a else failed o s l a

def step (o : Opt) (s : St) : Ev → Option St
  | .act ok => match s.todo with
    | [] => none
    | a :: l => if s.life = .alive then some (actStep o s ok a l) else none
  | .intr => if s.forked ∧ s.par = .alive then some s else none
  | .wake =>
    if s.forked ∧ s.par = .alive then
      if s.ok then some { s with par := .exited 0 }
      else if s.life = .alive then none
      else some { s with par := .exited 1 }
    else none
  | .killPar => if s.forked ∧ s.par = .alive then some { s with par := .killed } else none
  | .kill => if s.life = .alive then some { s with life := .killed, serving := false } else none
  | .sigpipe =>
    if s.life = .alive ∧ s.serving then
      if s.trapped then some s else some { s with life := .killed, serving := false }
    else none

def run (o : Opt) : St → List Ev → Option St
  | s, [] => some s
  | s, e :: es => match step o s e with
    | none => none
    | some s' => run o s' es

/-! ## Stopping

The main loop, main.c:1224-1235, the handlers of signals, 208-233, and the test in `rtpp_command_ul_handle`,
rpcpv1_ul.c:798-802, with the registration of the session, 829-838.  One command is in hand at a time. -/

/-- The handler of a command that asks for a new session: past the test; the session is registered. -/
inductive Pc | idle | passed | registered
  deriving DecidableEq, Repr

structure T where
  slow : Bool
  fast : Bool
  sessions : Nat
  u : Pc
  /-- The loop has been left; then the command thread is waited for, rtpp_command_async.c, and sessions are purged. -/
  ending : Bool
  deriving DecidableEq, Repr

inductive E
  /-- `SIGHUP`; another signal. -/
  | hup
  | term
  /-- A command for a new session: the test, the registration, the answer. -/
  | ask
  | reg
  | answer
  /-- A session ends. -/
  | del
  /-- The main loop looks. -/
  | look
  deriving DecidableEq, Repr

def tstep (s : T) : E → Option T
  | .hup => some { s with slow := true }
  | .term => some { s with fast := true }
  | .ask => if s.u = .idle then (if s.slow then some s else some { s with u := .passed }) else none
  | .reg => if s.u = .passed then some { s with u := .registered, sessions := s.sessions + 1 } else none
  | .answer => if s.u = .registered then some { s with u := .idle } else none
  | .del => if s.sessions = 0 then none else some { s with sessions := s.sessions - 1 }
  | .look => if s.ending then none
    else if s.fast then some { s with ending := true }
    else if s.slow ∧ s.sessions = 0 then some { s with ending := true }
    else some s

def trun : T → List E → Option T
  | s, [] => some s
  | s, e :: es => match tstep s e with
    | none => none
    | some s' => trun s' es

def t0 : T := ⟨false, false, 0, .idle, false⟩

end Verif.Start
