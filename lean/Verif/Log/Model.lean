import Verif.Basic

/-!
# Model of the queue of messages for syslog (`src/rtpp_syslog_async.c`)

Threads that have a message to log take a work item from a fixed pool, write the message into it and put it into a queue; a
thread of its own takes the items out of the queue, calls `syslog` and returns the items to the pool.  At the end of the
process a handler puts an item that makes that thread end, and waits for it.  Both the pool and the queue are linked through
the field `next` of the items, and are modelled so, as pointers.

Simplifications: a part of a function under one of the two locks is one step, and so is each of the parts between; a wait on
a condition is a step that is not there until the condition holds.  The first call of `syslog_async_init` has been made.
Bytes are natural numbers and strings have no byte 0.  `syslog` and `vsnprintf` are the C library's; what `vsnprintf` makes
of the format is given as the text that there is without a limit, or none for the error.
-/

namespace Verif.Log

/-- `SYSLOG_WI_POOL_SIZE`, rtpp_syslog_async.c:49. -/
def poolSize : Nat := 64

/-- `SYSLOG_WI_DATA_LEN`, rtpp_syslog_async.c:50. -/
def dataLen : Nat := 2048

/-- The arguments of `vsyslog_async`, rtpp_syslog_async.c:247-249. -/
structure Raw where
  prio : Nat
  pre : List Nat
  user : Option (List Nat)
  post : Option (List Nat)
  deriving DecidableEq, Repr

/-- `strlcpy(dst, src, l)` for 0 < l: what is in `dst`, and the length of `src`. -/
def cpy (src : List Nat) (l : Nat) : List Nat × Nat := (src.take (l - 1), src.length)

/-- The end of `vsyslog_async`, rtpp_syslog_async.c:275-285: `d` is in the buffer, `l` bytes are left.  The result is the
text and `len`. -/
def post (d : List Nat) (l : Nat) (r : Raw) : List Nat × Nat :=
  if l ≤ 1 then (d, dataLen - l)
  else match r.post with
    | none => (d, dataLen - l)
    | some p =>
      let c := cpy p l
      let s3 := if c.2 ≥ l then l - 1 else c.2
      (d ++ c.1, dataLen - (l - s3))

/-- The text that `vsyslog_async` makes, rtpp_syslog_async.c:258-285.  An error of `vsnprintf` gives `s2 = -1`: one goes back
by one byte, to before the buffer if nothing is there. -/
def format (r : Raw) : Except Fault (List Nat × Nat) :=
  let c := cpy r.pre dataLen
  let s1 := if c.2 ≥ dataLen then dataLen - 1 else c.2
  let l := dataLen - s1
  if l ≤ 1 then .ok (c.1, dataLen - l)
  else match r.user with
    | some u =>
      let w := u.take (l - 1)
      let s2 := if u.length ≥ l then l - 1 else u.length
      .ok (post (c.1 ++ w) (l - s2) r)
    | none =>
      if s1 = 0 then .error .ub
      else
        match r.post with
        | none => .ok (c.1, dataLen - (l + 1))
        | some _ => .ok (post (c.1.take (s1 - 1)) (l + 1) r)

/-- A call of `syslog`. -/
structure Msg where
  prio : Nat
  text : List Nat
  deriving DecidableEq, Repr

/-- `item_types`, rtpp_syslog_async.c:52-55. -/
inductive Ty where
  | write
  | exit
  deriving DecidableEq, Repr

/-- `struct syslog_wi` without `next`, rtpp_syslog_async.c:57-64. -/
structure Cell where
  ty : Ty
  msg : Msg
  deriving DecidableEq, Repr

/-- A thread that logs: it has taken an item; it has written it. -/
inductive Pr where
  | idle
  | got (i : Nat) (r : Raw)
  | filled (i : Nat)
  deriving DecidableEq, Repr

/-- The thread of the queue: it has an item; it has dealt with it. -/
inductive Wk where
  | idle
  | has (i : Nat)
  | did (i : Nat)
  | ended
  deriving DecidableEq, Repr

/-- `syslog_async_atexit`: not running; has an item; has written it; waits for the thread. -/
inductive Ex where
  | no
  | got (i : Nat)
  | filled (i : Nat)
  | join
  deriving DecidableEq, Repr

structure St where
  next : Nat → Option Nat
  cell : Nat → Cell
  /-- `syslog_wi_free` -/
  free : Option Nat
  /-- `syslog_wi_queue` -/
  queue : Option Nat
  /-- `syslog_wi_queue_tail` -/
  tail : Option Nat
  /-- `syslog_dropped_items` -/
  dropped : Nat
  wk : Wk
  pr : Nat → Pr
  ex : Ex
  /-- handlers registered with `atexit` that have not run -/
  todo : Nat
  /-- the thread has been joined -/
  joined : Bool
  /-- the calls of `syslog` -/
  out : List Msg

/-- `syslog_queue_init` and the rest of `syslog_async_init`, rtpp_syslog_async.c:121-151, 240-241. -/
def init : St :=
  { next := fun i => if i + 1 < poolSize then some (i + 1) else none
    cell := fun _ => ⟨.write, ⟨0, []⟩⟩
    free := some 0, queue := none, tail := none, dropped := 0, wk := .idle, pr := fun _ => .idle, ex := .no, todo := 1
    joined := false, out := [] }

inductive Ev where
  /-- thread `t` calls `vsyslog_async` -/
  | get (t : Nat) (r : Raw)
  | fill (t : Nat)
  | put (t : Nat)
  | take
  | work
  | rel
  | xget
  | xfill
  | xput
  | xjoin
  /-- `syslog_async_init` is called once more -/
  | init
  deriving DecidableEq, Repr

/-- A function changed in one place. -/
def upd {α : Type} (f : Nat → α) (i : Nat) (a : α) : Nat → α := fun j => if j = i then a else f j

/-- `syslog_queue_put_item`, rtpp_syslog_async.c:190-209. -/
def putItem (s : St) (i : Nat) : Except Fault St :=
  let nx := upd s.next i none
  match s.queue with
  | none => .ok { s with next := nx, queue := some i, tail := some i }
  | some _ =>
    match s.tail with
    | none => .error .ub
    | some t => .ok { s with next := upd nx t (some i), tail := some i }

/-- Under the lock `syslog_wi_free_mutex`, rtpp_syslog_async.c:165-188, with `SYSLOG_WI_NOWAIT`.  The counter is an `int`. -/
def stepGet (s : St) (t : Nat) (r : Raw) : Option (Except Fault St) :=
  match s.pr t with
  | .idle =>
    match s.free with
    | none => if s.dropped + 1 < 2 ^ 31 then some (.ok { s with dropped := s.dropped + 1 }) else some (.error .ub)
    | some i => some (.ok { s with free := s.next i, pr := upd s.pr t (.got i r) })
  | _ => none

/-- rtpp_syslog_async.c:258-288. -/
def stepFill (s : St) (t : Nat) : Option (Except Fault St) :=
  match s.pr t with
  | .got i r =>
    match format r with
    | .error f => some (.error f)
    | .ok x => some (.ok { s with cell := upd s.cell i ⟨.write, ⟨r.prio, x.1⟩⟩, pr := upd s.pr t (.filled i) })
  | _ => none

/-- rtpp_syslog_async.c:289. -/
def stepPut (s : St) (t : Nat) : Option (Except Fault St) :=
  match s.pr t with
  | .filled i => some (putItem { s with pr := upd s.pr t .idle } i)
  | _ => none

/-- rtpp_syslog_async.c:89-95. -/
def stepTake (s : St) : Option (Except Fault St) :=
  match s.wk with
  | .idle =>
    match s.queue with
    | none => none
    | some i => some (.ok { s with queue := s.next i, wk := .has i })
  | _ => none

/-- rtpp_syslog_async.c:98-108. -/
def stepWork (s : St) : Option (Except Fault St) :=
  match s.wk with
  | .has i =>
    match (s.cell i).ty with
    | .write => some (.ok { s with out := s.out ++ [(s.cell i).msg], wk := .did i })
    | .exit => some (.ok { s with wk := .ended })
  | _ => none

/-- rtpp_syslog_async.c:110-117. -/
def stepRel (s : St) : Option (Except Fault St) :=
  match s.wk with
  | .did i => some (.ok { s with next := upd s.next i s.free, free := some i, wk := .idle })
  | _ => none

/-- rtpp_syslog_async.c:215-220, with `SYSLOG_WI_WAIT`. -/
def stepXget (s : St) : Option (Except Fault St) :=
  match s.ex, s.todo, s.free with
  | .no, _ + 1, some i => some (.ok { s with free := s.next i, ex := .got i })
  | _, _, _ => none

/-- rtpp_syslog_async.c:221. -/
def stepXfill (s : St) : Option (Except Fault St) :=
  match s.ex with
  | .got i => some (.ok { s with cell := upd s.cell i ⟨.exit, (s.cell i).msg⟩, ex := .filled i })
  | _ => none

/-- rtpp_syslog_async.c:222. -/
def stepXput (s : St) : Option (Except Fault St) :=
  match s.ex with
  | .filled i => some (putItem { s with ex := .join } i)
  | _ => none

/-- rtpp_syslog_async.c:223.  Joining a thread that has been joined is not allowed. -/
def stepXjoin (s : St) : Option (Except Fault St) :=
  match s.ex with
  | .join =>
    if s.joined then some (.error .ub)
    else match s.wk with
      | .ended => some (.ok { s with ex := .no, joined := true, todo := s.todo - 1 })
      | _ => none
  | _ => none

def step (s : St) : Ev → Option (Except Fault St)
  | .get t r => stepGet s t r
  | .fill t => stepFill s t
  | .put t => stepPut s t
  | .take => stepTake s
  | .work => stepWork s
  | .rel => stepRel s
  | .xget => stepXget s
  | .xfill => stepXfill s
  | .xput => stepXput s
  | .xjoin => stepXjoin s
  -- rtpp_syslog_async.c:230-241
  | .init => some (.ok { s with todo := s.todo + 1 })

/-- An execution: none if a step is not there. -/
def run (s : St) : List Ev → Option (Except Fault St)
  | [] => some (.ok s)
  | e :: es =>
    match step s e with
    | none => none
    | some (.error f) => some (.error f)
    | some (.ok s') => run s' es

end Verif.Log
