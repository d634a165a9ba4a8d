import Verif.Queue.Model

/-!
# Model of the timer thread (`src/rtpp_timed.c`)

The timer's thread and its clients interleave at queue operations, each of which is atomic (queue mutex,
`Verif.Queue`).  Work items are numbers, never reused; `mem` is their contents.  Time is an integer number of
microseconds, so the `double` additions are exact.  Callbacks are represented by their return value and by the
events (schedule, cancel) that may happen while they run.  The command queue carries the one SIGTERM item and is
represented by the event `term`.  Out of memory is not modelled.
-/

namespace Verif.Timed

/-- The fields of `struct rtpp_timed_wi` involved, rtpp_timed.c:58-72. -/
structure Task where
  due : Int
  offset : Int

/-- Where the timer's thread is. -/
inductive Pc where
  /-- rtpp_timed.c:113, about to look at the command queue. -/
  | idle
  /-- In `rtpp_timed_process`, about to look for a due task. -/
  | scan (ct : Int)
  /-- The callback of a task is running. -/
  | running (ct : Int) (id : Nat)
  /-- rtpp_timed.c:126, about to test the length. -/
  | drain
  /-- rtpp_timed.c:127, about to take an item. -/
  | drainGet
  | ended
  deriving DecidableEq, Repr

/-- What can be observed. -/
inductive Obs where
  | sched (id : Nat) (due offset : Int)
  | run (id : Nat) (ct : Int)
  /-- Put back for another run. -/
  | resched (id : Nat) (due : Int)
  /-- Callback asked for no more; references released. -/
  | fin (id : Nat)
  /-- Result of a cancellation; when successful the cancel callback is called and references are released. -/
  | cancel (id : Nat) (ok : Bool)
  | scanEnd (ct : Int)
  /-- Given up at shutdown: cancel callback called, references released. -/
  | shut (id : Nat)
  deriving DecidableEq, Repr

structure St where
  q : Queue.Q
  mem : Nat → Task
  next : Nat
  pc : Pc
  /-- Latest first. -/
  log : List Obs

inductive Ev where
  | sched (now offset : Int)
  | cancel (id : Nat)
  /-- The thread wakes up with this clock reading, no SIGTERM being queued. -/
  | wake (ct : Int)
  | pick
  /-- The running callback returns; `more`: CB_MORE. -/
  | ret (more : Bool)
  /-- The thread finds SIGTERM in the command queue. -/
  | term
  | drain
  deriving DecidableEq, Repr

/-- Why a step does not happen. -/
inductive Stop where
  /-- The thread is elsewhere, or blocked. -/
  | disabled
  /-- The thread loops for ever. -/
  | hang
  | fault (f : Fault)
  deriving DecidableEq, Repr

def setM (m : Nat → Task) (id : Nat) (t : Task) : Nat → Task := fun j => if j = id then t else m j

/-- The loop of rtpp_timed.c:331-334; `none`: it does not end. -/
def bump (due offset ct : Int) : Option Int :=
  if due ≤ ct then if 0 < offset then bump (due + offset) offset ct else none else some due
termination_by (ct + 1 - due).toNat
decreasing_by omega

/-- `rtpp_timed_ctor`, rtpp_timed.c:140-194. -/
def init (cap : Nat) (nxt : Nat → Option Nat) : St := ⟨Queue.init cap nxt, fun _ => ⟨0, 0⟩, 0, .idle, []⟩

/-- `rtpp_timed_schedule_base`, rtpp_timed.c:220-260. -/
def schedule (s : St) (now offset : Int) : Except Stop St :=
  match s.q.put s.next with
  | .error e => .error (.fault e)
  | .ok (q, _) => .ok { s with q := q, mem := setM s.mem s.next ⟨now + offset, offset⟩, next := s.next + 1,
                               log := .sched s.next (now + offset) offset :: s.log }

/-- `rtpp_timed_cancel`, rtpp_timed.c:364-390. -/
def cancel (s : St) (id : Nat) : Except Stop St :=
  match s.q.getFirstMatching (fun j => j == id) with
  | .error e => .error (.fault e)
  | .ok (_, none) => .ok { s with log := .cancel id false :: s.log }
  | .ok (q, some _) => .ok { s with q := q, log := .cancel id true :: s.log }

/-- One turn of the loop of `rtpp_timed_process` up to the callback, rtpp_timed.c:323-329. -/
def pick (s : St) (ct : Int) : Except Stop St :=
  match s.q.getFirstMatching (fun j => decide ((s.mem j).due ≤ ct)) with
  | .error e => .error (.fault e)
  | .ok (_, none) => .ok { s with pc := .idle, log := .scanEnd ct :: s.log }
  | .ok (q, some id) => .ok { s with q := q, pc := .running ct id, log := .run id ct :: s.log }

/-- The rest of the turn, rtpp_timed.c:330-341. -/
def ret (s : St) (ct : Int) (id : Nat) (more : Bool) : Except Stop St :=
  if more then
    match bump (s.mem id).due (s.mem id).offset ct with
    | none => .error .hang
    | some d => match s.q.put id with
      | .error e => .error (.fault e)
      | .ok (q, _) => .ok { s with q := q, mem := setM s.mem id { s.mem id with due := d }, pc := .scan ct,
                                   log := .resched id d :: s.log }
  else .ok { s with pc := .scan ct, log := .fin id :: s.log }

/-- rtpp_timed.c:127-135; on an empty queue the thread waits for ever: items put later do not wake it
(`rtpp_queue_setqlen(q, 0)`, rtpp_timed.c:153). -/
def drainGet (s : St) : Except Stop St :=
  match s.q.getItem with
  | .error e => .error (.fault e)
  | .ok (q, [id]) => .ok { s with q := q, pc := .drain, log := .shut id :: s.log }
  | .ok (_, _) => .error .disabled

def step (s : St) : Ev → Except Stop St
  | .sched now offset => schedule s now offset
  | .cancel id => if id < s.next then cancel s id else .error .disabled
  | .wake ct => match s.pc with
    | .idle => .ok { s with pc := .scan ct }
    | _ => .error .disabled
  | .pick => match s.pc with
    | .scan ct => pick s ct
    | _ => .error .disabled
  | .ret more => match s.pc with
    | .running ct id => ret s ct id more
    | _ => .error .disabled
  | .term => match s.pc with
    | .idle => .ok { s with pc := .drain }
    | _ => .error .disabled
  | .drain => match s.pc with
    | .drain => .ok { s with pc := if s.q.getclen > 0 then .drainGet else .ended }
    | .drainGet => drainGet s
    | _ => .error .disabled

def run (s : St) : List Ev → Except Stop St
  | [] => .ok s
  | e :: es => match step s e with
    | .error x => .error x
    | .ok s' => run s' es

end Verif.Timed
