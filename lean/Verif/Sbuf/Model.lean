import Verif.Basic

/-!
# Model of the growable string buffer (`src/rtpp_sbuf.c`)

The allocated block is the list `mem` of its bytes at address `bp`.  What `vsnprintf` formats is a parameter: the bytes
`w`, or a failure (negative return value) that may leave some bytes behind.  The allocator is a parameter as well.
-/

namespace Verif.Sbuf

/-- `struct rtpp_sbuf`, rtpp_sbuf.h, with its block. -/
structure Buf where
  alen : Nat
  bp : Nat
  cp : Nat
  mem : List UInt8
  deriving DecidableEq, Repr

/-- `SBW_OK`, `SBW_ERR`, `SBW_SHRT`, rtpp_sbuf.h. -/
inductive Res where
  | ok
  | err
  | short
  deriving DecidableEq, Repr

/-- Store bytes at an address. -/
def Buf.store (b : Buf) (a : Nat) (w : List UInt8) : Except Fault Buf :=
  if b.bp ≤ a ∧ a - b.bp + w.length ≤ b.mem.length then
    .ok { b with mem := b.mem.take (a - b.bp) ++ w ++ b.mem.drop (a - b.bp + w.length) }
  else .error .ub

/-- `vsnprintf` of the string `w` with room for `n ≥ 1` bytes. -/
def Buf.snprintf (b : Buf) (a n : Nat) (w : List UInt8) : Except Fault Buf := b.store a (w.take (n - 1) ++ [0])

inductive Fmt where
  | out (w : List UInt8)
  /-- A negative return value, with this left at the start of the room. -/
  | fail (junk : List UInt8)
  deriving DecidableEq, Repr

/-- `rtpp_sbuf_write`, rtpp_sbuf.c:40-59. -/
def write (b : Buf) (f : Fmt) : Except Fault (Buf × Res) :=
  let len := b.alen - (b.cp - b.bp)
  if len = 0 then .error .abort
  else match f with
    | .fail junk => match b.store b.cp (junk.take len) with
      | .error e => .error e
      | .ok b' => .ok (b', .err)
    | .out w => match b.snprintf b.cp len w with
      | .error e => .error e
      | .ok b' =>
        if w.length ≥ len then
          match b'.store b'.cp [0] with
          | .error e => .error e
          | .ok b'' => .ok (b'', .short)
        else .ok ({ b' with cp := b'.cp + w.length }, .ok)

/-- `rtpp_sbuf_ctor`, rtpp_sbuf.c:61-90, the allocation having succeeded with this block. -/
def ctor (a : Nat) (mem : List UInt8) : Except Fault Buf := (Buf.mk mem.length a a mem).store a [0]

inductive Realloc where
  | fail
  /-- The block is now at `a`, followed by these bytes. -/
  | at (a : Nat) (more : List UInt8)
  deriving DecidableEq, Repr

/-- `rtpp_sbuf_extend`, rtpp_sbuf.c:109-133; the new length is `alen` plus the number of bytes added.  Adding none (or a
negative number) fails the assertion. -/
def extend (b : Buf) (n : Nat) (r : Realloc) : Except Fault (Buf × Bool) :=
  if n = 0 then .error .abort
  else match r with
    | .fail => .ok (b, false)
    | .at a more =>
      let b' := { b with alen := b.alen + n, mem := b.mem ++ (more ++ List.replicate n 0).take n }
      .ok (if b.bp ≠ a then { b' with cp := a + (b.cp - b.bp), bp := a } else b', true)

/-- `rtpp_sbuf_reset`, rtpp_sbuf.c:211-217. -/
def reset (b : Buf) : Except Fault Buf := Buf.store { b with cp := b.bp } b.bp [0]

inductive Op where
  | write (f : Fmt)
  | extend (n : Nat) (r : Realloc)
  | reset
  deriving DecidableEq, Repr

def step (b : Buf) : Op → Except Fault (Buf × Res)
  | .write f => write b f
  | .extend n r => match extend b n r with
    | .error e => .error e
    | .ok (b', ok) => .ok (b', if ok then .ok else .err)
  | .reset => match reset b with
    | .error e => .error e
    | .ok b' => .ok (b', .ok)

def run (b : Buf) : List Op → Except Fault (Buf × List Res)
  | [] => .ok (b, [])
  | o :: os => match step b o with
    | .error e => .error e
    | .ok (b', r) => match run b' os with
      | .error e => .error e
      | .ok (b'', rs) => .ok (b'', r :: rs)

end Verif.Sbuf
