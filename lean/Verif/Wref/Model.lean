import Verif.Basic

/-!
# Model of `src/rtpp_wref.c` — weak link to a reference counted target

Any number of threads, one shared-memory access per step (sequential consistency).  The
target's counter is the one of `rtpp_refcnt.c` in its `shared` state (the target has been
acquired at least once more since creation); `incref`/`decref` of the target by owners are
single atomic operations then.  The debug-only assertions and the debug-only clearing of the
link target are left out.  The link object itself is kept alive by its own references and is
not modelled.  The destructors of the target other than the invalidation callback are
condensed into one step that frees the target.
-/

namespace Verif.Wref

/-- Position of a thread. -/
inductive Pc where
  | idle
  /-- `getref`: link found empty, before the fetch_sub, rtpp_wref.c:140. -/
  | gUndo
  /-- `getref`: before `tryincref` of the target (its fetch_add), rtpp_wref.c:145. -/
  | gTry
  /-- `getref`, inside `tryincref`: target count was negative, before its fetch_sub,
  rtpp_refcnt.c:280. -/
  | gTryUndo
  /-- `getref`, target acquired: before the fetch_sub, rtpp_wref.c:146. -/
  | gOk
  /-- `getref`, target not acquired: before the fetch_sub, rtpp_wref.c:149. -/
  | gFail
  /-- The last owner is in `inval`, spinning on the compare-exchange, rtpp_wref.c:115-123. -/
  | dInval
  /-- `inval` has returned; the remaining destructors follow. -/
  | dFree
  deriving DecidableEq, Repr

/-- A thread: references to the target it owns, position, results of its `getref` calls
(latest first; `true` = target returned). -/
structure Thr where
  held : Nat
  pc : Pc
  res : List Bool
  deriving DecidableEq, Repr

/-- `wcnt` – `rtpp_wref_priv.cnt` (rtpp_wref.c:43-47); `cnt` – the target's counter; history:
`dead` – last target reference released, `invDone` – the invalidation returned, `freed` –
the target's memory is gone, `ub` – freed memory was accessed. -/
structure State where
  wcnt : Int
  cnt : Int
  dead : Bool
  invDone : Bool
  freed : Bool
  ub : Bool
  ths : List Thr
  deriving DecidableEq, Repr

inductive Act where
  | getref
  | incref
  | decref
  /-- Next access of the function being executed. -/
  | cont
  /-- Spurious failure of the weak compare-exchange. -/
  | spurious
  deriving DecidableEq, Repr

/-- After `rtpp_wref_setref` (rtpp_wref.c:84-106): link set (`cnt = 1`), the target has
`h + 1` references owned by thread 0, and there are `k` more threads. -/
def init (h k : Nat) : State :=
  { wcnt := 1, cnt := h, dead := false, invDone := false, freed := false, ub := false,
    ths := ⟨h + 1, .idle, []⟩ :: List.replicate k ⟨0, .idle, []⟩ }

/-- One atomic step of thread `i`; `none` if impossible. -/
def step (s : State) (i : Nat) (a : Act) : Option State :=
  match s.ths[i]? with
  | none => none
  | some t =>
    match t.pc, a with
    -- rtpp_wref_getref, rtpp_wref.c:131-151
    | .idle, .getref =>
      some { s with wcnt := s.wcnt + 1,
                    ths := s.ths.set i { t with pc := if s.wcnt = 0 then .gUndo else .gTry } }
    | .gUndo, .cont =>
      some { s with wcnt := s.wcnt - 1,
                    ths := s.ths.set i { t with pc := .idle, res := false :: t.res } }
    | .gTry, .cont =>
      if s.cnt < 0 then
        some { s with cnt := s.cnt + 1, ub := s.ub || s.freed,
                      ths := s.ths.set i { t with pc := .gTryUndo } }
      else
        some { s with cnt := s.cnt + 1, ub := s.ub || s.freed,
                      ths := s.ths.set i { t with pc := .gOk, held := t.held + 1 } }
    | .gTryUndo, .cont =>
      some { s with cnt := s.cnt - 1, ub := s.ub || s.freed,
                    ths := s.ths.set i { t with pc := .gFail } }
    | .gOk, .cont =>
      some { s with wcnt := s.wcnt - 1,
                    ths := s.ths.set i { t with pc := .idle, res := true :: t.res } }
    | .gFail, .cont =>
      some { s with wcnt := s.wcnt - 1,
                    ths := s.ths.set i { t with pc := .idle, res := false :: t.res } }
    -- rtpp_refcnt_incref / decref of the target by an owner, rtpp_refcnt.c:231-355
    | .idle, .incref =>
      if t.held = 0 then none else
      some { s with cnt := s.cnt + 1, ub := s.ub || s.freed,
                    ths := s.ths.set i { t with held := t.held + 1 } }
    | .idle, .decref =>
      if t.held = 0 then none else
      if s.cnt = 0 then
        some { s with cnt := s.cnt - 1, ub := s.ub || s.freed, dead := true,
                      ths := s.ths.set i { t with held := t.held - 1, pc := .dInval } }
      else
        some { s with cnt := s.cnt - 1, ub := s.ub || s.freed,
                      ths := s.ths.set i { t with held := t.held - 1 } }
    -- rtpp_wref_inval, rtpp_wref.c:108-129
    | .dInval, .cont =>
      if s.wcnt = 1 then
        some { s with wcnt := 0, invDone := true, ths := s.ths.set i { t with pc := .dFree } }
      else some s
    | .dInval, .spurious => some s
    | .dFree, .cont =>
      some { s with freed := true, ths := s.ths.set i { t with pc := .idle } }
    | _, _ => none

/-- Run a schedule. -/
def exec (s : State) : List (Nat × Act) → Option State
  | [] => some s
  | (i, a) :: rest =>
    match step s i a with
    | none => none
    | some s' => exec s' rest

end Verif.Wref
