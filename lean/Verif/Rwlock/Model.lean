import Verif.Basic

/-!
# Model of `src/rtpp_rw_lock.c` — reader/writer lock

Any number of threads.  One step per mutex operation; the counters are only touched with `cnt_lock` held, so their
update is merged with taking that mutex.  A mutex is locked or not, and remembers who locked it; POSIX leaves
unlocking somebody else's mutex undefined, here it works and is recorded in `foreign`.
-/

namespace Verif.Rwlock

/-- Position of a thread. -/
inductive Pc where
  | idle
  /-- Between calls, holding in read / write mode. -/
  | rHold
  | wHold
  /-- `lock(RD)`: first reader, waiting for `write_lock` with `cnt_lock` held, rtpp_rw_lock.c:98. -/
  | rWait
  /-- `lock(RD)`: before the release of `cnt_lock`, line 102. -/
  | rRel
  /-- `lock(WR)`: before the release of `cnt_lock`, line 102. -/
  | wRel
  /-- `lock(WR)`: waiting for `write_lock`, line 104. -/
  | wWait
  /-- `unlock(WR)`: `write_lock` released, waiting for `cnt_lock`, line 115. -/
  | uwCnt
  | uwRel
  /-- `unlock(RD)`: last reader, before the release of `write_lock`, line 119. -/
  | urWl
  | urRel
  /-- `upgrade`: decided, before the release of `cnt_lock`, lines 134 and 139. -/
  | upFail
  | upOk
  deriving DecidableEq, Repr

structure Thr where
  pc : Pc
  /-- Results of `upgrade`, latest first. -/
  res : List Bool
  deriving DecidableEq, Repr

structure State where
  cnt : Option Nat
  wl : Option Nat
  nreaders : Int
  nwriters : Int
  foreign : Bool
  ths : List Thr
  deriving DecidableEq, Repr

inductive Act where
  | lockRd
  | lockWr
  | unlock
  | upgrade
  | cont
  deriving DecidableEq, Repr

def init (k : Nat) : State := ⟨none, none, 0, 0, false, List.replicate k ⟨.idle, []⟩⟩

/-- One step of thread `i`; `none`: blocked or not applicable. -/
def step (s : State) (i : Nat) (a : Act) : Option State :=
  match s.ths[i]? with
  | none => none
  | some t =>
    match t.pc, a with
    -- rtpp_rw_lock_lock, rtpp_rw_lock.c:88-105
    | .idle, .lockRd =>
      if s.cnt ≠ none then none else
      some { s with cnt := some i, nreaders := s.nreaders + 1,
                    ths := s.ths.set i { t with pc := if s.nreaders + 1 = 1 then .rWait else .rRel } }
    | .rWait, .cont =>
      if s.wl ≠ none then none else
      some { s with wl := some i, ths := s.ths.set i { t with pc := .rRel } }
    | .rRel, .cont => some { s with cnt := none, ths := s.ths.set i { t with pc := .rHold } }
    | .idle, .lockWr =>
      if s.cnt ≠ none then none else
      some { s with cnt := some i, nwriters := s.nwriters + 1, ths := s.ths.set i { t with pc := .wRel } }
    | .wRel, .cont => some { s with cnt := none, ths := s.ths.set i { t with pc := .wWait } }
    | .wWait, .cont =>
      if s.wl ≠ none then none else
      some { s with wl := some i, ths := s.ths.set i { t with pc := .wHold } }
    -- rtpp_rw_lock_unlock, rtpp_rw_lock.c:107-124
    | .wHold, .unlock =>
      some { s with wl := none, foreign := s.foreign || s.wl != some i, ths := s.ths.set i { t with pc := .uwCnt } }
    | .uwCnt, .cont =>
      if s.cnt ≠ none then none else
      some { s with cnt := some i, nwriters := s.nwriters - 1, ths := s.ths.set i { t with pc := .uwRel } }
    | .uwRel, .cont => some { s with cnt := none, ths := s.ths.set i { t with pc := .idle } }
    | .rHold, .unlock =>
      if s.cnt ≠ none then none else
      some { s with cnt := some i, nreaders := s.nreaders - 1,
                    ths := s.ths.set i { t with pc := if s.nreaders - 1 = 0 then .urWl else .urRel } }
    | .urWl, .cont =>
      some { s with wl := none, foreign := s.foreign || s.wl != some i, ths := s.ths.set i { t with pc := .urRel } }
    | .urRel, .cont => some { s with cnt := none, ths := s.ths.set i { t with pc := .idle } }
    -- rtpp_rw_lock_upgrade, rtpp_rw_lock.c:126-141
    | .rHold, .upgrade =>
      if s.cnt ≠ none then none else
      if s.nwriters > 0 ∨ s.nreaders > 1 then
        some { s with cnt := some i, ths := s.ths.set i { t with pc := .upFail, res := false :: t.res } }
      else
        some { s with cnt := some i, nreaders := 0, nwriters := 1,
                      ths := s.ths.set i { t with pc := .upOk, res := true :: t.res } }
    | .upFail, .cont => some { s with cnt := none, ths := s.ths.set i { t with pc := .rHold } }
    | .upOk, .cont => some { s with cnt := none, ths := s.ths.set i { t with pc := .wHold } }
    | _, _ => none

/-- Run a schedule. -/
def exec (s : State) : List (Nat × Act) → Option State
  | [] => some s
  | (i, a) :: rest =>
    match step s i a with
    | none => none
    | some s' => exec s' rest

end Verif.Rwlock
