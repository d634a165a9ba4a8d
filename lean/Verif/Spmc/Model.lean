import Verif.Basic

/-!
# Model of the lock-free ring (`external/RTQueue/src/SPMCQueue.c`)

One producer and any number of consumers interleave at single loads, stores and compare-and-swaps of shared memory,
executed in program order (sequential consistency; see `Verif.Spmc.Relaxed` for the one place where this matters).
Indices do not wrap (fewer than 2^64 items).  `memcpy` of slots goes one slot at a time.  `x & mask` is the remainder
by the capacity, a power of two (`create_queue`, SPMCQueue.c:81-99, asserts it; only positivity is used here).
`try_push`, `try_push_many` and `try_push_many_pre` are `try_push_many_kv` with keys that all have values; `try_pop` is
`try_pop_many` with one item.
-/

namespace Verif.Spmc

/-- The producer's program counter. -/
inductive Prod where
  | idle
  /-- SPMCQueue.c:240, the cached read index does not leave enough room. -/
  | refresh (keys : List (Option Nat))
  /-- SPMCQueue.c:246-258: keys dealt with (their number is `consumed`), keys left, room, values written. -/
  | writing (done keys : List (Option Nat)) (avail : Nat) (acc : List Nat)
  deriving DecidableEq, Repr

/-- A consumer's program counter; `n` is the number of items asked for. -/
inductive Cons where
  | idle
  /-- SPMCQueue.c:298. -/
  | loadR (n : Nat)
  /-- SPMCQueue.c:300. -/
  | loadC (n r : Nat)
  /-- SPMCQueue.c:303 (`LOAD_W_IDX`). -/
  | loadW (n r : Nat)
  /-- SPMCQueue.c:303 (`UPDATE_W_CACHE`). -/
  | storeC (n r w : Nat)
  /-- SPMCQueue.c:310-323: from `r` to `e`, values read so far. -/
  | copy (n r e : Nat) (acc : List Nat)
  deriving DecidableEq, Repr

inductive Obs where
  /-- `try_push_many_kv` for the keys `asked` makes `vs` available and returns `consumed`. -/
  | push (asked : List (Option Nat)) (consumed : Nat) (vs : List Nat)
  /-- The producer finds this much room. -/
  | room (n : Nat)
  /-- A consumer asking for `n` gets these. -/
  | pop (tid n : Nat) (vs : List Nat)
  /-- A consumer finds nothing. -/
  | empty (tid : Nat)
  deriving DecidableEq, Repr

/-- `struct SPMCQueue`, SPMCQueue.c:38-46, with the threads and what they did (latest first). -/
structure St where
  cap : Nat
  wIdx : Nat
  rCache : Nat
  rIdx : Nat
  wCache : Nat
  slots : Nat → Nat
  prod : Prod
  cons : List Cons
  log : List Obs

inductive Ev where
  /-- The producer calls `try_push_many_kv`; `none`: the callback gives NULL for the key. -/
  | push (keys : List (Option Nat))
  /-- The producer's next step. -/
  | prod
  /-- A consumer calls `try_pop_many`. -/
  | pop (tid n : Nat)
  /-- Its next step. -/
  | cons (tid : Nat)
  /-- Its weak compare-and-swap fails without reason. -/
  | spurious (tid : Nat)
  deriving DecidableEq, Repr

inductive Stop where
  | disabled
  | fault (f : Fault)
  deriving DecidableEq, Repr

def init (cap threads : Nat) (garbage : Nat → Nat) : St :=
  ⟨cap, 0, 0, 0, 0, garbage, .idle, List.replicate threads .idle, []⟩

def setS (f : Nat → Nat) (i v : Nat) : Nat → Nat := fun j => if j = i then v else f j

/-- `try_push_many_kv` up to the test, SPMCQueue.c:234-239. -/
def pushStart (s : St) (keys : List (Option Nat)) : St :=
  let avail := s.cap - (s.wIdx - s.rCache)
  if avail < keys.length then { s with prod := .refresh keys } else { s with prod := .writing [] keys avail [] }

/-- `UPDATE_W_IDX` and the return, SPMCQueue.c:259-262 (storing an unchanged index when nothing was written). -/
def publish (s : St) (done keys : List (Option Nat)) (acc : List Nat) : St :=
  { s with wIdx := s.wIdx + acc.length, prod := .idle, log := .push (done ++ keys) done.length acc :: s.log }

/-- The producer's steps, SPMCQueue.c:239-262. -/
def prodStep (s : St) : Except Stop St :=
  match s.prod with
  | .idle => .error .disabled
  | .refresh keys =>
    let avail := s.cap - (s.wIdx - s.rIdx)
    .ok { s with rCache := s.rIdx, prod := .writing [] keys avail [], log := .room avail :: s.log }
  | .writing done [] _ acc => .ok (publish s done [] acc)
  | .writing done (k :: keys) avail acc =>
    if acc.length = avail then .ok (publish s done (k :: keys) acc)
    else match k with
      | none => .ok { s with prod := .writing (done ++ [k]) keys avail acc }
      | some v => .ok { s with slots := setS s.slots ((s.wIdx % s.cap + acc.length) % s.cap) v,
                               prod := .writing (done ++ [k]) keys avail (acc ++ [v]) }

def setC (s : St) (tid : Nat) (c : Cons) : St := { s with cons := s.cons.set tid c }

/-- `newReadIdx`, SPMCQueue.c:310-312. -/
def newR (n r w : Nat) : Nat := if r + n > w then w else r + n

/-- A consumer's steps, SPMCQueue.c:297-325. -/
def consStep (s : St) (tid : Nat) (c : Cons) : Except Stop St :=
  match c with
  | .idle => .error .disabled
  | .loadR n => .ok (setC s tid (.loadC n s.rIdx))
  | .loadC n r => .ok (setC s tid (if r ≥ s.wCache then .loadW n r else .copy n r (newR n r s.wCache) []))
  | .loadW n r =>
    .ok { setC s tid (.storeC n r s.wIdx) with log := if r = s.wIdx then .empty tid :: s.log else s.log }
  | .storeC n r w =>
    let s := { s with wCache := w }
    if r = w then .ok (setC s tid .idle)
    else if r < w then .ok (setC s tid (.copy n r (newR n r w) []))
    else .error (.fault .abort)
  | .copy n r e acc =>
    if acc.length < e - r then .ok (setC s tid (.copy n r e (acc ++ [s.slots ((r + acc.length) % s.cap)])))
    else if s.rIdx = r then .ok { setC s tid .idle with rIdx := e, log := .pop tid n acc :: s.log }
    else .ok (setC s tid (.loadR n))

/-- The compare-and-swap of SPMCQueue.c:324 fails spuriously. -/
def casFail (s : St) (tid : Nat) : Cons → Except Stop St
  | .copy n r e acc => if acc.length < e - r then .error .disabled else .ok (setC s tid (.loadR n))
  | _ => .error .disabled

def popStart (s : St) (tid n : Nat) : Cons → Except Stop St
  | .idle => .ok (setC s tid (.loadR n))
  | _ => .error .disabled

def step (s : St) : Ev → Except Stop St
  | .push keys => if s.prod = .idle then .ok (pushStart s keys) else .error .disabled
  | .prod => prodStep s
  | .pop tid n => match s.cons[tid]? with
    | none => .error .disabled
    | some c => popStart s tid n c
  | .cons tid => match s.cons[tid]? with
    | none => .error .disabled
    | some c => consStep s tid c
  | .spurious tid => match s.cons[tid]? with
    | none => .error .disabled
    | some c => casFail s tid c

def run (s : St) : List Ev → Except Stop St
  | [] => .ok s
  | e :: es => match step s e with
    | .error x => .error x
    | .ok s' => run s' es

end Verif.Spmc
