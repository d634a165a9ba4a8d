import Verif.Basic

/-!
# Model of the retransmission timer of a DTLS connection

`modules/dtls_gw/rtpp_dtls_conn.c`: `check_timer`, `rtpp_dtls_conn_timeout` and the places that call for them, with the part of
`src/rtpp_timed.c` that matters: a task is in the queue, or has been taken out of it by the timer thread and waits for the lock of
the connection, when it can no longer be cancelled (rtpp_timed.c:323-329, 377-381).

From outside: what OpenSSL answers, and whether a task can be allocated.  The functions work under the lock of the connection
(rtpp_dtls_conn.c:288, 380, 698, 894) and are steps.  Keys, fingerprints and roles are in `Verif.Srtp`.
-/

namespace Verif.Dtimer

/-- `enum rdc_state`. -/
inductive Rdc where
  | init
  | connecting
  | up
  | dead
  deriving DecidableEq, Repr

/-- The connection and the timer's side of it. -/
structure St where
  rdc : Rdc
  active : Bool
  /-- `pvt->ttp` -/
  ttp : Option Nat
  /-- the tasks of this connection in the queue of the timer -/
  queue : List Nat
  /-- the one the timer thread has taken -/
  flight : Option Nat
  next : Nat
  /-- the last answer of `DTLSv1_get_timeout` -/
  wants : Bool
  deriving DecidableEq, Repr

/-- rtpp_dtls_conn.c:210-254: all zero but the state. -/
def init : St := ⟨.init, false, none, [], none, 0, false⟩

/-- `check_timer`, rtpp_dtls_conn.c:721-745: `wants` is the answer of `DTLSv1_get_timeout`, `mem` whether the task can be
allocated.  The result tells whether it returns 0. -/
def checkTimer (s : St) (wants mem : Bool) : Bool × St :=
  if wants then
    match s.ttp with
    | some _ => (true, { s with wants := wants })
    | none =>
      if mem then
        (true, { s with wants := wants, ttp := some s.next, queue := s.queue ++ [s.next], next := s.next + 1 })
      else (false, { s with wants := wants })
  else
    match s.ttp with
    | some t => (true, { s with wants := wants, ttp := none, queue := s.queue.erase t })
    | none => (true, { s with wants := wants })

/-- `tls_connect`, rtpp_dtls_conn.c:747-776: the result of `check_timer` is not looked at.  `fails`: an error other than
`SSL_ERROR_WANT_READ`. -/
def tlsConnect (s : St) (fails wants mem : Bool) : Bool × St :=
  if fails then (false, s) else (true, (checkTimer s wants mem).2)

/-- `tls_accept`, rtpp_dtls_conn.c:661-691. -/
def tlsAccept (s : St) (fails wants mem : Bool) : Bool × St :=
  if fails then (false, s) else checkTimer s wants mem

/-- How a packet is received. -/
inductive Got where
  /-- the BIO does not take it, or the handshake is over -/
  | nothing
  /-- a step of the handshake: whether it fails, whether a timeout is wanted then, whether the handshake is over, and
  whether the keys and the fingerprint are in order -/
  | step (fails wants over good : Bool)
  deriving DecidableEq, Repr

inductive Ev where
  /-- `rtpp_dtls_conn_dtls_recv` -/
  | recv (g : Got) (mem : Bool)
  /-- `rtpp_dtls_conn_setmode` with a role for us, the fingerprint and the source being in order -/
  | mode (active fails wants mem : Bool)
  /-- the timer thread takes a task whose time has come -/
  | take (t : Nat)
  /-- the callback gets the lock; `DTLSv1_handle_timeout` fails or not, and the answer of `DTLSv1_get_timeout` after it -/
  | fire (fails wants mem : Bool)
  /-- `rtpp_dtls_conn_godead` -/
  | bye
  deriving DecidableEq, Repr

/-- `rtpp_dtls_conn_dtls_recv`, rtpp_dtls_conn.c:369-465. -/
def recv (s : St) (g : Got) (mem : Bool) : St :=
  if s.rdc = .dead then s
  else
    let s1 := if s.rdc = .init then { s with rdc := .connecting } else s
    match g with
    | .nothing => s1
    | .step fails wants over good =>
      if s1.rdc = .up then { s1 with rdc := .dead }
      else
        let r := if s1.active then tlsConnect s1 fails wants mem else tlsAccept s1 fails wants mem
        if !r.1 then { r.2 with rdc := .dead }
        else if !over then r.2
        else if good then { r.2 with rdc := .up } else { r.2 with rdc := .dead }

/-- `rtpp_dtls_conn_setmode`, rtpp_dtls_conn.c:294-300, 322-328. -/
def setMode (s : St) (active fails wants mem : Bool) : St :=
  if active ≠ s.active ∧ s.rdc ≠ .init then s
  else if active ∧ s.rdc = .init then
    let r := tlsConnect { s with rdc := .connecting } fails wants mem
    if r.1 then { r.2 with active := active } else r.2
  else { s with active := active }

/-- `rtpp_dtls_conn_timeout`, rtpp_dtls_conn.c:693-719, for the task that has been taken. -/
def fire (s : St) (fails wants mem : Bool) : St :=
  match s.flight with
  | none => s
  | some _ =>
    let s1 := { s with flight := none }
    match s.ttp with
    | none => s1
    | some _ =>
      let s2 := { s1 with ttp := none }
      if s.rdc ≠ .connecting then s2
      else if fails then { s2 with rdc := .dead }
      else
        let r := checkTimer s2 wants mem
        if r.1 then r.2 else { r.2 with rdc := .dead }

/-- `rtpp_dtls_conn_godead`, rtpp_dtls_conn.c:887-902. -/
def bye (s : St) : St :=
  match s.ttp with
  | some t => { s with rdc := .dead, ttp := none, queue := s.queue.erase t }
  | none => { s with rdc := .dead }

/-- One step.  The timer thread takes one task at a time (rtpp_timed.c:322-342). -/
def step (s : St) : Ev → St
  | .recv g mem => recv s g mem
  | .mode a f w m => setMode s a f w m
  | .take t => if s.flight = none ∧ t ∈ s.queue then { s with queue := s.queue.erase t, flight := some t } else s
  | .fire f w m => fire s f w m
  | .bye => bye s

/-- The state after a history, the latest event first. -/
def run : List Ev → St
  | [] => init
  | e :: h => step (run h) e

end Verif.Dtimer
