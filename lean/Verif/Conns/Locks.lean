import Verif.Basic

/-!
# The two threads of the control connections and their locks (src/rtpp_command_async.c)

Modelled: the order in which `rtpp_cmd_acceptor_run` (299-381), `rtpp_cmd_queue_run` (383-472), `rtpp_command_async_wakeup` (493-515),
`rtpp_command_async_chk_overload` (529-541) and `rtpp_command_async_dtor` (755-766) take and release `cmd_mutex` and `pfds_mutex`, write to and
read from the wake-up socket pair (a blocking one, line 667), and wait in `poll`.  A part in which `cmd_mutex` is taken and released with nothing
in between that can wait is one step, which needs the mutex to be free.  Any interleaving is possible.

`cap` is the number of wake-up messages the socket pair holds before a `write` waits.  `ovl`: overload protection is on
(`overload_prot.ecode != 0`, rpcpv1_ul.c 803); then a command may call `chk_overload`.  Not modelled: what is in the table (that is `Conns.Model`),
the other locks taken by commands.
-/

namespace Verif.Conns

/-- Where the accepting thread is. -/
inductive APc where
  | check     -- 322-332, before the state is read
  | loop      -- 334-342
  | took      -- 343: a connection is accepted, `cmd_mutex` to be locked
  | write     -- 508, with `cmd_mutex` held
  | lockP     -- 351: waits for `pfds_mutex`, holds `cmd_mutex`
  | unlockC   -- 352: holds both
  | add       -- 353-377: holds `pfds_mutex`
  | note      -- 378, 501
  | noteW     -- 508 without locks
  | exit
  deriving DecidableEq, Repr

/-- Where the command thread is. -/
inductive WPc where
  | top       -- 400-405
  | lockP     -- 406
  | poll      -- 407, holds `pfds_mutex`, as all of the following
  | read      -- 421
  | proc      -- 425-464
  | chk       -- 537, called from a command
  | unlock    -- 466
  | exit
  deriving DecidableEq, Repr

/-- Where the main thread is. -/
inductive MPc where
  | run
  | wake      -- 766, 501
  | write     -- 508
  | join      -- 768
  deriving DecidableEq, Repr

inductive Who where
  | acceptor | worker
  deriving DecidableEq, Repr

structure LSt where
  a : APc
  w : WPc
  m : MPc
  /-- The holder of `cmd_mutex` between steps; only the accepting thread ever keeps it. -/
  cmd : Option Who
  /-- The holder of `pfds_mutex`. -/
  pfds : Option Who
  /-- Messages in the wake-up socket pair. -/
  wake : Nat
  cease : Bool
  deriving DecidableEq, Repr

def lstart : LSt := ⟨.check, .top, .run, none, none, 0, false⟩

/-- The steps.  Booleans: the outcome of the call. -/
inductive Lab where
  | aCheck | aDone | aAccept | aLockC | aWrite (ok : Bool) | aLockP | aUnlockC | aAdd (ok : Bool) | aNote | aNoteW (ok : Bool)
  | wTop | wLockP | wPoll (wake : Bool) | wIntr | wRead | wOvl | wChk | wDone | wUnlock
  | mStop | mWake | mWrite
  deriving DecidableEq, Repr

/-- A step, if it is possible. -/
def lstep (cap : Nat) (ovl : Bool) (s : LSt) : Lab → Option LSt
  | .aCheck => if s.a = .check ∧ s.cmd = none then some { s with a := if s.cease then .exit else .loop } else none
  | .aDone => if s.a = .loop then some { s with a := .check } else none
  | .aAccept => if s.a = .loop then some { s with a := .took } else none
  | .aLockC => if s.a = .took ∧ s.cmd = none then some { s with a := .write, cmd := some .acceptor } else none
  | .aWrite ok =>
    if s.a = .write ∧ s.wake < cap then
      some (if ok then { s with a := .lockP, wake := s.wake + 1 } else { s with a := .loop, cmd := none })
    else none
  | .aLockP => if s.a = .lockP ∧ s.pfds = none then some { s with a := .unlockC, pfds := some .acceptor } else none
  | .aUnlockC => if s.a = .unlockC then some { s with a := .add, cmd := none } else none
  | .aAdd ok => if s.a = .add then some { s with a := if ok then .note else .loop, pfds := none } else none
  | .aNote => if s.a = .note ∧ s.cmd = none then some { s with a := .noteW } else none
  | .aNoteW ok => if s.a = .noteW ∧ s.wake < cap then some { s with a := .loop, wake := if ok then s.wake + 1 else s.wake } else none
  | .wTop => if s.w = .top ∧ s.cmd = none then some { s with w := if s.cease then .exit else .lockP } else none
  | .wLockP => if s.w = .lockP ∧ s.pfds = none then some { s with w := .poll, pfds := some .worker } else none
  | .wPoll wake => if s.w = .poll ∧ wake = decide (0 < s.wake) then some { s with w := if wake then .read else .proc } else none
  | .wIntr => if s.w = .poll then some { s with w := .unlock } else none
  | .wRead => if s.w = .read then some { s with w := .proc, wake := s.wake - 1 } else none
  | .wOvl => if s.w = .proc ∧ ovl = true then some { s with w := .chk } else none
  | .wChk => if s.w = .chk ∧ s.cmd = none then some { s with w := .proc } else none
  | .wDone => if s.w = .proc then some { s with w := .unlock } else none
  | .wUnlock => if s.w = .unlock then some { s with w := .top, pfds := none } else none
  | .mStop => if s.m = .run ∧ s.cmd = none then some { s with m := .wake, cease := true } else none
  | .mWake => if s.m = .wake ∧ s.cmd = none then some { s with m := .write } else none
  | .mWrite => if s.m = .write ∧ s.wake < cap then some { s with m := .join, wake := s.wake + 1 } else none

/-- An execution. -/
def lrun (cap : Nat) (ovl : Bool) (s : LSt) : List Lab → Option LSt
  | [] => some s
  | l :: ls =>
    match lstep cap ovl s l with
    | none => none
    | some s' => lrun cap ovl s' ls

/-- Steps that need nothing from outside: all but a client connecting, a client sending commands (`poll` returning with nothing in the wake-up
socket), a signal, and the order to stop. -/
def Lab.own : Lab → Bool
  | .aAccept => false
  | .wPoll false => false
  | .wIntr => false
  | .mStop => false
  | _ => true

end Verif.Conns
