import Verif.Basic

/-!
# Model of `src/rtpp_ringbuf.c`
-/

namespace Verif.Ringbuf

/-- `struct rtpp_ringbuf_priv`, rtpp_ringbuf.c:40-48.  `elements` is the zero-initialised
array (`zero` stands for the all-zero element). -/
structure Ring (α : Type) where
  elements : List α
  nelements : Nat
  cElem : Nat
  bFull : Bool
  deriving DecidableEq, Repr

variable {α : Type}

/-- `rtpp_ringbuf_ctor`, rtpp_ringbuf.c:61-84 (allocation failures not modelled). -/
def ctor (zero : α) (n : Nat) : Ring α := ⟨List.replicate n zero, n, 0, false⟩

/-- `rtpp_ringbuf_push`, rtpp_ringbuf.c:94-111.  Writing outside the array is undefined
behaviour. -/
def push (r : Ring α) (d : α) : Except Fault (Ring α) :=
  if r.cElem < r.elements.length then
    let els := r.elements.set r.cElem d
    let c := r.cElem + 1
    if c = r.nelements then .ok { r with elements := els, bFull := true, cElem := 0 }
    else .ok { r with elements := els, cElem := c }
  else .error .ub

/-- `rtpp_ringbuf_flush`, rtpp_ringbuf.c:113-121. -/
def flush (r : Ring α) : Ring α := { r with bFull := false, cElem := 0 }

/-- The loop of `rtpp_ringbuf_locate`, rtpp_ringbuf.c:132-137: `left` iterations remain. -/
def scan [DecidableEq α] (els : List α) (d : α) : (i left : Nat) → Except Fault (Option Nat)
  | _, 0 => .ok none
  | i, left + 1 =>
    match els[i]? with
    | none => .error .ub
    | some x => if x = d then .ok (some i) else scan els d (i + 1) left

/-- `rtpp_ringbuf_locate`, rtpp_ringbuf.c:123-139; `none` is the result -1. -/
def locate [DecidableEq α] (r : Ring α) (d : α) : Except Fault (Option Nat) :=
  scan r.elements d 0 (if r.bFull then r.nelements else r.cElem)

/-- Calls. -/
inductive Op (α : Type) where
  | push (d : α)
  | flush
  deriving DecidableEq, Repr

/-- A history of calls. -/
def run (r : Ring α) : List (Op α) → Except Fault (Ring α)
  | [] => .ok r
  | .push d :: ops =>
    match push r d with
    | .error e => .error e
    | .ok r' => run r' ops
  | .flush :: ops => run (flush r) ops

end Verif.Ringbuf
