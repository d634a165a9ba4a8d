import Verif.Basic
import Mathlib.Data.List.Induction

/-!
# Model of the lock of the standard error output (`src/rtpp_log_stand.c`)

Each message is written in three parts; the lock of tickets is there to keep them together.

Simplifications: the calls of the C library that write are one step each, and have effect in the order of the steps; a thread
that waits is a step that is not there until its number is up.  `fflush` is left out.
-/

namespace Verif.Log.Ticket

/-- Where a thread is in `_rtpp_log_write_va`, rtpp_log_stand.c:280-287: it has a ticket, it has the lock and has written
this many parts. -/
inductive Pc where
  | idle
  | wait (n m : Nat)
  | has (m k : Nat)
  deriving DecidableEq, Repr

structure St where
  /-- `next_ticket`, an `unsigned int` -/
  next : Nat
  /-- `now_serving` -/
  now : Nat
  pc : Nat → Pc
  /-- what has been written: message and part -/
  out : List (Nat × Nat)

inductive Ev where
  /-- `atomic_fetch_add_explicit(&(_log_lock.next_ticket), 1)`, rtpp_log_stand.c:232-233, for the message `m` -/
  | ticket (t m : Nat)
  /-- `now_serving` is the ticket, rtpp_log_stand.c:234-237 -/
  | enter (t : Nat)
  /-- one of the three parts, rtpp_log_stand.c:282-285 -/
  | write (t : Nat)
  /-- rtpp_log_stand.c:240-246 -/
  | leave (t : Nat)
  deriving DecidableEq, Repr

def upd (f : Nat → Pc) (i : Nat) (a : Pc) : Nat → Pc := fun j => if j = i then a else f j

def init : St := ⟨0, 0, fun _ => .idle, []⟩

def step (s : St) : Ev → Option St
  | .ticket t m =>
    match s.pc t with
    | .idle => some { s with next := (s.next + 1) % 2 ^ 32, pc := upd s.pc t (.wait s.next m) }
    | _ => none
  | .enter t =>
    match s.pc t with
    | .wait n m => if s.now = n then some { s with pc := upd s.pc t (.has m 0) } else none
    | _ => none
  | .write t =>
    match s.pc t with
    | .has m k => if k < 3 then some { s with out := s.out ++ [(m, k)], pc := upd s.pc t (.has m (k + 1)) } else none
    | _ => none
  | .leave t =>
    match s.pc t with
    | .has _ k => if k = 3 then some { s with now := (s.now + 1) % 2 ^ 32, pc := upd s.pc t .idle } else none
    | _ => none

def run (s : St) : List Ev → Option St
  | [] => some s
  | e :: es =>
    match step s e with
    | none => none
    | some s' => run s' es

/-- The messages in the order of their tickets. -/
def asked : List Ev → List Nat
  | [] => []
  | .ticket _ m :: es => m :: asked es
  | _ :: es => asked es

/-- Parts written. -/
def writes : List Ev → Nat
  | [] => 0
  | .write _ :: es => writes es + 1
  | _ :: es => writes es

/-- Messages done. -/
def left : List Ev → Nat
  | [] => 0
  | .leave _ :: es => left es + 1
  | _ :: es => left es

/-- The three parts of a message. -/
def parts (m : Nat) : List (Nat × Nat) := [(m, 0), (m, 1), (m, 2)]

/-- At no time are there 2^32 messages begun and not done. -/
def Few (es : List Ev) : Prop := ∀ fs, fs <+: es → (asked fs).length < left fs + 2 ^ 32

end Verif.Log.Ticket
