import Verif.Basic

/-!
# Model of the inter-thread queue (`src/rtpp_queue.c`, `src/rtpp_queue.h`)

A queue is a circular buffer followed by an overflow list linked through the items.  Items are numbers (their
addresses); `nxt` is the memory of their `next` fields.  Every operation runs under the queue's mutex and is
atomic.  The `unsigned int` indices are natural numbers: for a capacity plus request size below 2^32 they do not
wrap.  Reading outside the buffer or following a NULL item is a fault; `assert` failures abort.
-/

namespace Verif.Queue

/-- `circ_buf_t`, rtpp_queue.c:51-56. -/
structure Circ where
  buflen : Nat
  head : Nat
  tail : Nat
  buf : List Nat

/-- `circ_buf_isempty`, rtpp_queue.c:58-63. -/
def Circ.isempty (c : Circ) : Bool := c.head == c.tail

/-- `circ_buf_push`, rtpp_queue.c:65-83; `none`: full. -/
def Circ.push (c : Circ) (x : Nat) : Except Fault (Option Circ) :=
  let next := if c.head + 1 = c.buflen then 0 else c.head + 1
  if next = c.tail then .ok none
  else if c.head < c.buf.length then .ok (some { c with buf := c.buf.set c.head x, head := next })
  else .error .ub

/-- `circ_buf_popmany`, rtpp_queue.c:85-125; `acc` holds the items popped so far (`rval` is its length).  The loop of
the C code is not bounded; running out of `fuel` (shown not to happen) is a fault. -/
def Circ.popmany (howmany : Nat) : Nat → Circ → List Nat → Except Fault (Circ × List Nat)
  | 0, _, _ => .error .ub
  | fuel + 1, c, acc =>
    if c.isempty then .ok (c, acc)
    else
      let want := c.tail + howmany - acc.length
      let (last, next) :=
        if c.head < c.tail then (if want ≥ c.buflen then (c.buflen, 0) else (want, want))
        else (if want > c.head then (c.head, c.head) else (want, want))
      let copyn := last - c.tail
      if c.tail + copyn ≤ c.buf.length then
        let acc' := acc ++ (c.buf.drop c.tail).take copyn
        let c' := { c with tail := next }
        if acc'.length = howmany then .ok (c', acc') else Circ.popmany howmany fuel c' acc'
      else .error .ub

/-- Number of items in the buffer, rtpp_queue.c:135-139. -/
def Circ.clen (c : Circ) : Nat := if c.head < c.tail then (c.head + c.buflen) - c.tail else c.head - c.tail

/-- Slot of the item at `offset`, rtpp_queue.c:143-145. -/
def Circ.slot (c : Circ) (offset : Nat) : Nat :=
  if c.tail + offset ≥ c.buflen then c.tail + offset - c.buflen else c.tail + offset

/-- `circ_buf_peek`, rtpp_queue.c:127-153. -/
def Circ.peek (c : Circ) (offset : Nat) : Except Fault (Option Nat) :=
  if c.isempty then .ok none
  else if offset ≥ c.clen then .ok none
  else match c.buf[c.slot offset]? with
    | some x => .ok (some x)
    | none => .error .ub

/-- `circ_buf_replace`, rtpp_queue.c:155-186: the new buffer (and the old item, unused by the caller). -/
def Circ.replace (c : Circ) (offset : Nat) (x : Nat) : Except Fault (Option Circ) :=
  if c.isempty then .ok none
  else if offset ≥ c.clen then .ok none
  else if c.slot offset < c.buf.length then .ok (some { c with buf := c.buf.set (c.slot offset) x })
  else .error .ub

/-- The loop of `circ_buf_remove`, rtpp_queue.c:205-208. -/
def Circ.shift : Nat → Circ → Except Fault Circ
  | 0, c => .ok c
  | offset + 1, c =>
    match c.peek offset with
    | .error e => .error e
    | .ok none => .error .abort
    | .ok (some x) =>
      match c.replace (offset + 1) x with
      | .error e => .error e
      | .ok none => .error .abort
      | .ok (some c') => Circ.shift offset c'

/-- `circ_buf_remove`, rtpp_queue.c:188-217; `none` for the error return. -/
def Circ.remove (c : Circ) (offset : Nat) : Except Fault (Option Circ) :=
  if c.isempty then .ok none
  else if offset ≥ c.clen then .ok none
  else match Circ.shift offset c with
    | .error e => .error e
    | .ok c' => .ok (some { c' with tail := if c'.tail + 1 = c'.buflen then 0 else c'.tail + 1 })

/-- `struct rtpp_queue`, rtpp_queue.c:219-230, with the `next` fields. -/
structure Q where
  head : Option Nat
  tail : Option Nat
  length : Nat
  qlen : Nat
  mlen : Nat
  circb : Circ
  nxt : Nat → Option Nat

def setN (f : Nat → Option Nat) (a : Nat) (v : Option Nat) : Nat → Option Nat := fun b => if b = a then v else f b

def unlimited : Nat := 4294967295

/-- `rtpp_queue_init`, rtpp_queue.c:232-280. -/
def init (capacity : Nat) (nxt : Nat → Option Nat) : Q :=
  ⟨none, none, 0, 1, unlimited, ⟨capacity + 1, 0, 0, List.replicate (capacity + 1) 0⟩, nxt⟩

/-- `rtpp_queue_getclen`, rtpp_queue.c:306-319. -/
def Q.getclen (q : Q) : Nat :=
  q.length + (if q.circb.head < q.circb.tail then (q.circb.head + q.circb.buflen) - q.circb.tail
    else if q.circb.head > q.circb.tail then q.circb.head - q.circb.tail else 0)

/-- `RTPPQ_APPEND`, rtpp_queue.h:60-70. -/
def Q.append (q : Q) (x : Nat) : Except Fault Q :=
  let n := setN q.nxt x none
  match q.head with
  | none => .ok { q with nxt := n, head := some x, tail := some x, length := q.length + 1 }
  | some _ => match q.tail with
    | none => .error .ub
    | some t => .ok { q with nxt := setN n t (some x), tail := some x, length := q.length + 1 }

/-- `rtpp_queue_put_item`, rtpp_queue.c:357-387; the flag tells success.  Waking the reader is not modelled. -/
def Q.put (q : Q) (x : Nat) : Except Fault (Q × Bool) :=
  if q.mlen ≠ unlimited ∧ q.getclen ≥ q.mlen then .ok (q, false)
  else if q.length > 0 then
    match q.append x with
    | .error e => .error e
    | .ok q' => .ok (q', true)
  else match q.circb.push x with
    | .error e => .error e
    | .ok (some c) => .ok ({ q with circb := c }, true)
    | .ok none => match q.append x with
      | .error e => .error e
      | .ok q' => .ok (q', true)

/-- The loop over the overflow list, rtpp_queue.c:331-339: new head, tail and items. -/
def takeList (nxt : Nat → Option Nat) : Nat → Option Nat → Option Nat → List Nat →
    Except Fault (Option Nat × Option Nat × List Nat)
  | 0, h, t, acc => .ok (h, t, acc)
  | n + 1, h, t, acc =>
    match h with
    | none => .error .ub
    | some a => match nxt a with
      | none => .ok (none, none, acc ++ [a])
      | some b => takeList nxt n (some b) t (acc ++ [a])

/-- `rtpp_queue_extract_items`, rtpp_queue.c:321-343. -/
def Q.extract (q : Q) (ilen : Nat) : Except Fault (Q × List Nat) :=
  match q.circb.popmany ilen 3 [] with
  | .error e => .error e
  | .ok (c, items) =>
    if items.length = ilen ∨ q.length = 0 then .ok ({ q with circb := c }, items)
    else match takeList q.nxt (ilen - items.length) q.head q.tail [] with
      | .error e => .error e
      | .ok (h, t, l) =>
        .ok ({ q with circb := c, head := h, tail := t, length := q.length - l.length }, items ++ l)

/-- `rtpp_queue_get_items`, rtpp_queue.c:434-450, and the timed variant (452-471) when the wait ends: nothing if
the queue is empty. -/
def Q.getItems (q : Q) (ilen : Nat) : Except Fault (Q × List Nat) :=
  if q.getclen = 0 then .ok (q, []) else q.extract ilen

/-- `rtpp_queue_get_item`, rtpp_queue.c:412-432: one item, whose `next` field is cleared after the mutex is released
(the item belongs to the caller then). -/
def Q.getItem (q : Q) : Except Fault (Q × List Nat) :=
  match q.getItems 1 with
  | .error e => .error e
  | .ok (q', [x]) => .ok ({ q' with nxt := setN q'.nxt x none }, [x])
  | .ok (q', l) => .ok (q', l)

/-- `RTPPQ_REMOVE_HEAD`, rtpp_queue.h:35-41. -/
def Q.removeHead (q : Q) : Except Fault Q :=
  match q.head with
  | none => .error .ub
  | some h => .ok { q with tail := if q.tail = q.head then none else q.tail, head := q.nxt h, length := q.length - 1 }

/-- `RTPPQ_REMOVE_AFTER`, rtpp_queue.h:43-58. -/
def Q.removeAfter (q : Q) (prev : Option Nat) : Except Fault Q :=
  match prev with
  | none => match q.head with
    | none => .error .ub
    | some h => match q.removeHead with
      | .error e => .error e
      | .ok q' => .ok { q' with nxt := setN q'.nxt h none }
  | some p => match q.nxt p with
    | none => .error .ub
    | some a =>
      if q.tail = some a then
        .ok { q with nxt := setN (setN q.nxt p none) a none, tail := some p, length := q.length - 1 }
      else
        .ok { q with nxt := setN (setN q.nxt p (q.nxt a)) a none, length := q.length - 1 }

/-- First loop of `rtpp_queue_get_first_matching`, rtpp_queue.c:510-518: offset and item.  Ends when `peek` fails;
`fuel` as above. -/
def findRing (p : Nat → Bool) (c : Circ) : Nat → Nat → Except Fault (Option (Nat × Nat))
  | 0, _ => .error .ub
  | fuel + 1, i =>
    match c.peek i with
    | .error e => .error e
    | .ok none => .ok none
    | .ok (some x) => if p x then .ok (some (i, x)) else findRing p c fuel (i + 1)

/-- Second loop, rtpp_queue.c:519-526: predecessor and item. -/
def findList (p : Nat → Bool) (nxt : Nat → Option Nat) : Nat → Option Nat → Option Nat →
    Except Fault (Option (Option Nat × Nat))
  | 0, _, _ => .error .ub
  | fuel + 1, prev, wi =>
    match wi with
    | none => .ok none
    | some a => if p a then .ok (some (prev, a)) else findList p nxt fuel (some a) (nxt a)

/-- `rtpp_queue_get_first_matching`, rtpp_queue.c:503-529; `p` says that `match_fn` returns 0. -/
def Q.getFirstMatching (q : Q) (p : Nat → Bool) : Except Fault (Q × Option Nat) :=
  match findRing p q.circb (q.circb.buflen + 1) 0 with
  | .error e => .error e
  | .ok (some (i, x)) => match q.circb.remove i with
    | .error e => .error e
    | .ok none => .error .abort
    | .ok (some c) => .ok ({ q with circb := c }, some x)
  | .ok none => match findList p q.nxt (q.length + 1) none q.head with
    | .error e => .error e
    | .ok none => .ok (q, none)
    | .ok (some (prev, x)) => match q.removeAfter prev with
      | .error e => .error e
      | .ok q' => .ok (q', some x)

/-- `rtpp_queue_setmaxlen`, rtpp_queue.c:282-291. -/
def Q.setmaxlen (q : Q) (m : Nat) : Q := { q with mlen := m % 4294967296 }

inductive Op where
  | put (x : Nat)
  | get
  | getMany (n : Nat)
  | getMatching (p : Nat → Bool)
  | setMax (m : Nat)
  | length

/-- Observable result: items taken, success of a put, or a length. -/
inductive Out where
  | put (ok : Bool)
  | items (l : List Nat)
  | unit
  | len (n : Nat)
  deriving DecidableEq, Repr

def step (q : Q) : Op → Except Fault (Q × Out)
  | .put x => match q.put x with
    | .error e => .error e
    | .ok (q', b) => .ok (q', .put b)
  | .get => match q.getItem with
    | .error e => .error e
    | .ok (q', l) => .ok (q', .items l)
  | .getMany n => match q.getItems n with
    | .error e => .error e
    | .ok (q', l) => .ok (q', .items l)
  | .getMatching p => match q.getFirstMatching p with
    | .error e => .error e
    | .ok (q', o) => .ok (q', .items o.toList)
  | .setMax m => .ok (q.setmaxlen m, .unit)
  | .length => .ok (q, .len q.getclen)

def run (q : Q) : List Op → Except Fault (Q × List Out)
  | [] => .ok (q, [])
  | o :: os => match step q o with
    | .error e => .error e
    | .ok (q', r) => match run q' os with
      | .error e => .error e
      | .ok (q'', rs) => .ok (q'', r :: rs)

end Verif.Queue
