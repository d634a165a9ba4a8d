import Verif.Basic

/-!
# Model of the address object (`src/rtpp_netaddr.c`)

The address a party is sent to is kept in an object that any number of threads set, read and compare.  A thread takes one
step at a time and others may come in between: taking and releasing the mutex, each byte of a `memcpy` or `memcmp`, and the
load and the store of the length are steps of their own.  Memory is sequentially consistent; the bytes are protected by the
mutex, the length is atomic.

Not modelled: construction and destruction, the checks that are compiled in for debugging only, `copy` (a `get` from one
object and a `set` of another, lines 187-195), and the methods that interpret the bytes (`isaddrseq`, `cmphost`,
`sip_print`).
-/

namespace Verif.Netaddr

abbrev Bytes := List UInt8

/-- Where a thread is. -/
inductive PC where
  | idle
  /-- `rtpp_netaddr_set`, lines 100-112: before the mutex is taken; `i` bytes copied; length stored. -/
  | wantSet (src : Bytes)
  | set (src : Bytes) (i : Nat)
  | stored
  /-- `rtpp_netaddr_get`, lines 197-210, into `cap` bytes: before the mutex is taken; before the length is loaded; copying. -/
  | wantGet (cap : Nat)
  | get0 (cap : Nat)
  | get (cap n : Nat) (acc : Bytes)
  /-- `rtpp_netaddr_cmp`, lines 134-152: before the mutex is taken; before the length is loaded; `i` bytes are the same. -/
  | wantCmp (sap : Bytes)
  | cmp0 (sap : Bytes)
  | cmp (sap : Bytes) (i : Nat)
  deriving DecidableEq, Repr

/-- What can be told from outside. -/
inductive Obs where
  | wrote (t : Nat) (a : Bytes)
  | read (t : Nat) (a : Bytes)
  | compared (t : Nat) (a : Bytes) (same : Bool)
  | empty (t : Nat) (e : Bool)
  deriving DecidableEq, Repr

/-- `struct rtpp_netaddr_priv`, lines 48-53, the threads, and what was observed (latest first): a `set` when it has stored
the length, a `get` or a `cmp` when it releases the mutex. -/
structure St where
  sas : Bytes
  rlen : Nat
  lock : Option Nat
  pc : Nat → PC
  log : List Obs

/-- `rtpp_netaddr_ctor`, lines 78-98: zeros (a `struct sockaddr_storage` has 128 bytes). -/
def init : St := ⟨List.replicate 128 0, 0, none, fun _ => .idle, []⟩

def St.at (s : St) (t : Nat) (p : PC) : St := { s with pc := fun u => if u = t then p else s.pc u }

/-- The mutex is released and the method returns. -/
def St.leave (s : St) (t : Nat) (os : List Obs) : St := { s.at t .idle with lock := none, log := os ++ s.log }

/-- The mutex is taken, if it is free. -/
def St.enter (s : St) (t : Nat) (p : PC) : St := if s.lock = none then { s.at t p with lock := some t } else s

/-- A step of thread `t`. -/
def go (s : St) (t : Nat) : Except Fault St :=
  match s.pc t with
  | .idle => .ok s
  | .wantSet src => .ok (s.enter t (.set src 0))
  | .set src i =>
    match src[i]? with
    | some b => if i < s.sas.length then .ok { s.at t (.set src (i + 1)) with sas := s.sas.set i b } else .error .ub
    | none => .ok { s.at t .stored with rlen := src.length, log := .wrote t src :: s.log }
  | .stored => .ok (s.leave t [])
  | .wantGet cap => .ok (s.enter t (.get0 cap))
  | .get0 cap => .ok (s.at t (.get cap s.rlen []))
  | .get cap n acc =>
    if acc.length < n then
      match s.sas[acc.length]? with
      | some b => if acc.length < cap then .ok (s.at t (.get cap n (acc ++ [b]))) else .error .ub
      | none => .error .ub
    else .ok (s.leave t [.read t acc])
  | .wantCmp sap => .ok (s.enter t (.cmp0 sap))
  | .cmp0 sap => if sap.length ≠ s.rlen then .ok (s.leave t [.compared t sap false]) else .ok (s.at t (.cmp sap 0))
  | .cmp sap i =>
    match sap[i]? with
    | none => .ok (s.leave t [.compared t sap true])
    | some b =>
      match s.sas[i]? with
      | none => .error .ub
      | some b' => if b = b' then .ok (s.at t (.cmp sap (i + 1))) else .ok (s.leave t [.compared t sap false])

inductive Ev where
  | call (t : Nat) (p : PC)
  | go (t : Nat)
  /-- `rtpp_netaddr_isempty`, lines 122-132: one atomic load, without the mutex. -/
  | isempty (t : Nat)
  deriving DecidableEq, Repr

/-- A thread that is idle calls a method; a thread that is not goes on. -/
def step (s : St) : Ev → Except Fault St
  | .call t p => if s.pc t = .idle then .ok (s.at t p) else .ok s
  | .go t => go s t
  | .isempty t => .ok { s with log := .empty t (decide (s.rlen = 0)) :: s.log }

/-- The state after some events, latest first. -/
def run : List Ev → Except Fault St
  | [] => .ok init
  | e :: past =>
    match run past with
    | .error f => .error f
    | .ok s => step s e

end Verif.Netaddr
