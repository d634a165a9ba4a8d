import Verif.Basic

/-!
# Model of the RTP port table

* `src/rtpp_port_table.c`: constructor, `get_port`;
* `src/rtpp_command.c:107-178`: the pair of listeners bound to a port;
* `src/main.c:354-356, 600-624, 779-793, 1019-1023`: settings and construction.

`random()` is an arbitrary sequence `rnd 0, rnd 1, …` of non-negative numbers; `k` counts the calls made.
The operating system's answers are arbitrary too.  The mutex makes each allocation atomic.
-/

namespace Verif.Port

/-- `enum rtpp_ptu_rval`, rtpp_port_table.h:32. -/
inductive PTU where
  | brkerr
  | ok
  | onemore
  deriving DecidableEq, Repr

/-- `struct rtpp_ptbl_priv`, rtpp_port_table.c:41-49. -/
structure Ptbl where
  ports : List Nat
  idx : Nat
  ctl : Nat
  seq : Bool
  deriving DecidableEq, Repr

def rd (l : List Nat) (i : Nat) : Except Fault Nat :=
  match l[i]? with
  | some v => .ok v
  | none => .error .ub

def wr (l : List Nat) (i v : Nat) : Except Fault (List Nat) :=
  if i < l.length then .ok (l.set i v) else .error .ub

/-- `table[idx] = table[j]; table[j] = port`, rtpp_port_table.c:85-87, 135-136. -/
def exchange (l : List Nat) (idx j port : Nat) : Except Fault (List Nat) :=
  match rd l j with
  | .error e => .error e
  | .ok v => match wr l idx v with
    | .error e => .error e
    | .ok l' => wr l' j port

/-- Linear table, rtpp_port_table.c:76-80 (`portnum` is 16 bits wide). -/
def linear : Nat → Nat → List Nat
  | 0, _ => []
  | n + 1, p => p :: linear n ((p + 2) % 65536)

/-- Shuffling at start, rtpp_port_table.c:83-88; `n` iterations are left. -/
def shuffle (rnd : Nat → Nat) (len : Nat) : Nat → Nat → List Nat → Nat → Except Fault (List Nat × Nat)
  | 0, _, l, k => .ok (l, k)
  | n + 1, i, l, k =>
    match rd l i with
    | .error e => .error e
    | .ok port => match exchange l i (rnd k % len) port with
      | .error e => .error e
      | .ok l' => shuffle rnd len n (i + 1) l' (k + 1)

/-- `rtpp_port_table_ctor`, rtpp_port_table.c:54-105, without memory failures.  A range that gives no element makes
the length zero or negative (`malloc` of a huge or empty block; not reached, see `init`): a fault here. -/
def ctor (rnd : Nat → Nat) (min max : Int) (seq : Bool) (ctl : Nat) (k : Nat) : Except Fault (Ptbl × Nat) :=
  let len := (max - min).tdiv 2 + 1
  if len ≤ 0 then .error .ub
  else
    let l := linear len.toNat (min % 65536).toNat
    if seq then .ok (⟨l, len.toNat - 1, ctl % 65536, seq⟩, k)
    else match shuffle rnd len.toNat len.toNat 0 l k with
      | .error e => .error e
      | .ok (l', k') => .ok (⟨l', len.toNat - 1, ctl % 65536, seq⟩, k')

/-- Outcome of `get_port`: the table, calls of `random()`, state of the user of the port, the ports offered with
the answers, and success. -/
structure Res (σ : Type) where
  tbl : Ptbl
  k : Nat
  env : σ
  log : List (Nat × PTU)
  ok : Bool

/-- "Shuffle table as we go", rtpp_port_table.c:132-137. -/
def reshuffle (rnd : Nat → Nat) (len : Nat) (t : Ptbl) (idx port k : Nat) : Except Fault (List Nat × Nat) :=
  if t.seq then .ok (t.ports, k)
  else match exchange t.ports idx (rnd k % len) port with
    | .error e => .error e
    | .ok l => .ok (l, k + 1)

/-- The loop of `rtpp_ptbl_get_port`, rtpp_port_table.c:126-147; `n` iterations are left, `i` is the counter. -/
def getLoop {σ : Type} (rnd : Nat → Nat) (use : σ → Nat → PTU × σ) (base len : Nat) :
    Nat → Nat → Ptbl → Nat → σ → List (Nat × PTU) → Except Fault (Res σ)
  | 0, _, t, k, s, log => .ok ⟨t, k, s, log, false⟩
  | n + 1, i, t, k, s, log =>
    let idx := (base + i) % len
    match rd t.ports idx with
    | .error e => .error e
    | .ok port =>
      if port = t.ctl ∨ (port : Int) = (t.ctl : Int) - 1 then getLoop rnd use base len n (i + 1) t k s log
      else
        let (rval, s') := use s port
        let log' := log ++ [(port, rval)]
        match reshuffle rnd len t idx port k with
        | .error e => .error e
        | .ok (l, k') =>
          match rval with
          | .ok => .ok ⟨{ t with ports := l, idx := idx }, k', s', log', true⟩
          | .brkerr => .ok ⟨{ t with ports := l, idx := idx }, k', s', log', false⟩
          | .onemore => getLoop rnd use base len n (i + 1) { t with ports := l } k' s' log'

/-- `rtpp_ptbl_get_port`, rtpp_port_table.c:116-150. -/
def getPort {σ : Type} (rnd : Nat → Nat) (use : σ → Nat → PTU × σ) (t : Ptbl) (k : Nat) (s : σ) :
    Except Fault (Res σ) :=
  getLoop rnd use t.idx t.ports.length (t.ports.length - 1) 1 t k s []

/-- Any number of allocations, each with its own user of the port. -/
def allocs {σ : Type} (rnd : Nat → Nat) : List (σ → Nat → PTU × σ) → Ptbl → Nat → σ → List (List (Nat × PTU) × Bool) →
    Except Fault (Ptbl × Nat × σ × List (List (Nat × PTU) × Bool))
  | [], t, k, s, hist => .ok (t, k, s, hist)
  | u :: us, t, k, s, hist =>
    match getPort rnd u t k s with
    | .error e => .error e
    | .ok r => allocs rnd us r.tbl r.k r.env (hist ++ [(r.log, r.ok)])

/-! ### The pair of listeners -/

/-- What the system does when a listener is created, rtpp_command.c:107-150: no socket, the port is taken, another
error of `bind`, failure to make it non-blocking, or success. -/
inductive Sys where
  | noSocket
  | inUse
  | bindErr
  | noNonblock
  | good
  deriving DecidableEq, Repr

/-- Sockets open for the caller (by port), number of listeners tried so far, the port reported. -/
structure Net where
  opened : List Nat
  calls : Nat
  reported : Option Nat
  deriving DecidableEq, Repr

/-- `create_listener`, rtpp_command.c:107-150. -/
def listener (sys : Nat → Nat → Sys) (n : Net) (port : Nat) : PTU × Net :=
  let n' := { n with calls := n.calls + 1 }
  match sys n.calls port with
  | .noSocket => (.brkerr, n')
  | .inUse => (.onemore, n')
  | .bindErr => (.brkerr, n')
  | .noNonblock => (.brkerr, n')
  | .good => (.ok, { n' with opened := port :: n'.opened })

/-- `create_twinlistener`, rtpp_command.c:152-178. -/
def twin (sys : Nat → Nat → Sys) (n : Net) (port : Nat) : PTU × Net :=
  match listener sys n port with
  | (.ok, n1) =>
    match listener sys n1 (port + 1) with
    | (.ok, n2) => (.ok, { n2 with reported := some port })
    | (rv, n2) => (rv, { n2 with opened := n2.opened.drop 1 })
  | (rv, n1) => (rv, n1)

/-! ### Settings -/

/-- main.c:779-793: the range used; `none` when start-up is refused. -/
def normalise (min max : Int) : Option (Int × Int) :=
  let min' := if min.tmod 2 ≠ 0 then min + 1 else min
  let max' := if max.tmod 2 ≠ 0 then max - 1 else max - 2
  if min' > max' then none else some (min', max')

/-- Construction of a port table at start-up, main.c:1019-1023.  `controls` are the UDP ports of the control sockets:
they are stored in the control sockets (`csp->port_ctl`, rtpp_controlfd.c:151, 193) and never in `cfsp->port_ctl`,
which keeps its initial value 0 (main.c:356). -/
def init (rnd : Nat → Nat) (min max : Int) (seq : Bool) (_controls : List Nat) (k : Nat) :
    Option (Except Fault (Ptbl × Nat)) :=
  match normalise min max with
  | none => none
  | some (a, b) => some (ctor rnd a b seq 0 k)

end Verif.Port
