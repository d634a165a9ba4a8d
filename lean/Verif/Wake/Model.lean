import Verif.Basic

/-!
# Waking up the media threads

Model of `src/rtpp_proc_wakeup.c` (the thread that passes on requests to look at the logs of changes
to the sets of sockets), of the part of `rtpp_proc_async_run` in `src/rtpp_proc_async.c` and of
`process_rtp_only` in `src/rtpp_proc.c` that has to do with it, and of their destruction.

Kept: every interleaving of the callers of `nudge`, the thread, the two media threads and the
destructor; signals and spurious returns of the condition variable; the limited capacity of the
socket pairs, to which writes block; the rate limit.

Simplified: time is a number of ticks that never decreases (`getdtime` is monotonic), `last_wakeup`
is `none` for 0. What is in the log of a media thread is counted, not kept (C29 is about the
contents). Writes to the socket pair do not fail. `pthread_cond_timedwait` may refuse the deadline
(`bad`, see `C43_mtimespec_counterexample`): then it returns `EINVAL` without giving up the mutex.
The test of the loop and the one behind it (rtpp_proc_wakeup.c:95, 108) are one step.
-/

namespace Verif.Wake

/-- `MAX_WAKEUPS_PS` as the number of ticks between two wake-ups, and the capacity of a socket pair. -/
structure Par where
  ival : Nat
  cap : Nat

/-- Where `rtpp_proc_wakeup_run` is. -/
inductive Pc
  /-- line 94, or awake in line 97 or 101, about to take the mutex -/
  | top
  /-- in `pthread_cond_wait`; `s`: signalled -/
  | wait (s : Bool)
  /-- in `pthread_cond_timedwait` -/
  | waitT (s : Bool)
  /-- the deadline is refused again and again, the mutex is not given up -/
  | stuck
  /-- line 123 -/
  | w1
  /-- line 126 -/
  | w2
  | ended
  deriving DecidableEq, Repr

/-- Where `rtpp_proc_async_run` is. -/
inductive Pp
  /-- rtpp_proc_async.c:157 -/
  | top
  /-- line 158; `c`: the thread is to end -/
  | sync (c : Bool)
  /-- in `rtpp_epoll_wait`, line 171 -/
  | poll
  /-- line 189; `r`: the wake-up socket is among the ready ones -/
  | proc (r : Bool)
  | ended
  deriving DecidableEq, Repr

structure Poller where
  pc : Pp
  /-- what was written to `wakefd[1]` and not yet read from `wakefd[0]` -/
  pipe : List Int
  /-- `tstate` is `TSTATE_CEASE` -/
  ts : Bool
  /-- `wakefd[1]` is closed -/
  closed : Bool
  served : Option Int
  /-- the number of changes in its log so far -/
  chg : Nat
  /-- how many of them it has seen -/
  seen : Nat
  /-- how many of them were made before the last `nudge` -/
  cov : Nat
  /-- the times of the writes to `wakefd[1]`, latest first -/
  log : List Nat
  deriving DecidableEq, Repr

structure St where
  clk : Nat
  /-- `requested_i_wake` and `delivered_i_wake` of the object -/
  req : Int
  dlv : Int
  /-- `tstate` is `TSTATE_CEASE` -/
  ts : Bool
  /-- the destructor has called `nudge` -/
  fin : Bool
  pc : Pc
  /-- the variables of the thread -/
  loc : Int
  last : Option Nat
  at_ : Option Nat
  /-- the threads of RTP (`false`) and RTCP -/
  P : Bool → Poller
  /-- an `int` has overflowed -/
  ub : Bool

def poller0 : Poller :=
  { pc := .top, pipe := [], ts := false, closed := false, served := none, chg := 0, seen := 0, cov := 0,
    log := [] }

/-- After `rtpp_proc_wakeup_ctor`, which waits for the thread (lines 159-164). -/
def init : St :=
  { clk := 0, req := 0, dlv := 0, ts := false, fin := false, pc := .top, loc := 0, last := none,
    at_ := none, P := fun _ => poller0, ub := false }

def upd (P : Bool → Poller) (p : Bool) (x : Poller) : Bool → Poller := fun q => if q = p then x else P q

inductive Ev
  /-- an entry is added to a log (rtpp_sessinfo.c:159-173) -/
  | change (p : Bool)
  | nudge
  /-- a wait returns for no reason -/
  | spur
  | tick (n : Nat)
  | timeout
  | wake (bad : Bool)
  | poll (p : Bool) (rdy : Bool)
  /-- rtpp_proc_wakeup.c:184 -/
  | stop
  /-- rtpp_proc_async.c:262 -/
  | close (p : Bool)
  /-- rtpp_proc_async.c:263 -/
  | cease (p : Bool)
  deriving DecidableEq, Repr

def intMax : Int := 2147483647

/-- rtpp_proc_wakeup.c:192-207 `rtpp_proc_wakeup_nudge`. -/
def nudge (σ : St) : Option St :=
  if σ.pc = .stuck then none
  else if σ.req = intMax then some { σ with ub := true }
  else
    some { σ with
      req := σ.req + 1
      fin := σ.fin || σ.ts
      pc := match σ.pc with
        | .wait _ => .wait true
        | .waitT _ => .waitT true
        | pc => pc
      P := fun p => { σ.P p with cov := (σ.P p).chg } }

/-- A write to the wake-up socket of `p`. -/
def write (K : Par) (σ : St) (p : Bool) : Option St :=
  if (σ.P p).pipe.length < K.cap then
    some { σ with
      P := upd σ.P p
        { σ.P p with pipe := (σ.P p).pipe ++ [σ.loc], log := σ.clk :: (σ.P p).log } }
  else none

/-- rtpp_proc_wakeup.c:91-131 `rtpp_proc_wakeup_run`. -/
def wake (K : Par) (bad : Bool) (σ : St) : Option St :=
  match σ.pc with
  | .wait s => if s then some { σ with pc := .top } else none
  | .waitT s => if s then some { σ with pc := .top } else none
  | .stuck => if σ.ts then some { σ with pc := .ended } else some σ
  | .ended => none
  | .top =>
    if σ.ts then some { σ with pc := .ended }
    else if σ.loc = σ.req then
      match σ.at_ with
      | none => some { σ with pc := .wait false }
      | some _ => if bad then some { σ with pc := .stuck } else some { σ with pc := .waitT false }
    else
      match σ.last with
      | none => some { σ with loc := σ.req, dlv := σ.req, pc := .w1 }
      | some l =>
        if σ.clk - l < K.ival then some { σ with loc := σ.req, at_ := some (l + K.ival) }
        else some { σ with loc := σ.req, dlv := σ.req, pc := .w1 }
  | .w1 => (write K σ false).map fun σ => { σ with pc := .w2 }
  | .w2 => (write K σ true).map fun σ => { σ with pc := .top, last := some σ.clk, at_ := none }

/-- rtpp_proc_wakeup.c:101-105. -/
def timeout (σ : St) : Option St :=
  match σ.pc, σ.at_ with
  | .waitT _, some t =>
    if t ≤ σ.clk then some { σ with loc := σ.req, dlv := σ.req, pc := .w1 } else none
  | _, _ => none

/-- rtpp_proc_async.c:156-209 `rtpp_proc_async_run` and rtpp_proc.c:116-129. -/
def pollStep (x : Poller) (rdy : Bool) : Option Poller :=
  match x.pc with
  | .top => some { x with pc := .sync x.ts }
  | .sync c => some { x with seen := x.chg, pc := if c then .ended else .poll }
  | .poll =>
    if rdy then
      if x.pipe ≠ [] ∨ x.closed then some { x with pc := .proc true } else none
    else some { x with pc := .proc false }
  | .proc r =>
    if r then
      match x.pipe with
      | n :: l => some { x with served := some n, pipe := l, pc := .top }
      | [] => some { x with pc := .top }
    else some { x with pc := .top }
  | .ended => none

def step (K : Par) (σ : St) (e : Ev) : Option St :=
  if σ.ub then none
  else
    match e with
    | .change p => some { σ with P := upd σ.P p { σ.P p with chg := (σ.P p).chg + 1 } }
    | .nudge => nudge σ
    | .spur =>
      match σ.pc with
      | .wait _ => some { σ with pc := .top }
      | .waitT _ => some { σ with pc := .top }
      | _ => none
    | .tick n => some { σ with clk := σ.clk + n }
    | .timeout => timeout σ
    | .wake bad => wake K bad σ
    | .poll p rdy => (pollStep (σ.P p) rdy).map fun x => { σ with P := upd σ.P p x }
    | .stop => some { σ with ts := true }
    -- the destructor has joined the thread (rtpp_proc_wakeup.c:187, rtpp_proc_async.c:362-368)
    | .close p =>
      if σ.pc = .ended then some { σ with P := upd σ.P p { σ.P p with closed := true } } else none
    | .cease p =>
      if (σ.P p).closed then some { σ with P := upd σ.P p { σ.P p with ts := true } } else none

def run (K : Par) (σ : St) : List Ev → Option St
  | [] => some σ
  | e :: es => match step K σ e with
    | none => none
    | some σ => run K σ es

end Verif.Wake
