import Verif.Hash.Model

/-!
# Model of `src/rtpp_weakref.c` — registry of objects by 64-bit identifier

The registry is a hash table created with `RTPP_HT_NODUPS | RTPP_HT_DUP_ABRT`
(rtpp_weakref.c:78-101) plus two optional callbacks.  The callback lock makes each
operation atomic with its callback.  `V` stands for the object; its reference count is
modelled in `Verif.Refcnt`.
-/

namespace Verif.Weakref

open Verif.Hash

/-- `struct rtpp_weakref_priv`, rtpp_weakref.c:44-49; the two flags say whether the
callbacks are installed. -/
structure Reg (V : Type) where
  tbl : Table Nat V
  onFirst : Bool
  onLast : Bool

/-- Callback invocations. -/
inductive Ev where
  | first
  | last
  deriving DecidableEq, Repr

/-- Table configuration used by `rtpp_weakref_ctor`, rtpp_weakref.c:87-88. -/
def cfg (hash : Nat → Nat) : Cfg Nat := ⟨hash, false, true, true⟩

/-- `rtpp_weakref_ctor`, rtpp_weakref.c:78-101, followed by `set_on_first`/`set_on_last`
(280-305). -/
def init {V} (onFirst onLast : Bool) : Reg V := ⟨Hash.init, onFirst, onLast⟩

/-- `rtpp_weakref_reg`, rtpp_weakref.c:104-132. -/
def reg {V} (hash : Nat → Nat) (w : Reg V) (suid : Nat) (v : V) (memOk : Bool) :
    Except Fault (Reg V × Bool × List Ev) :=
  match append (cfg hash) w.tbl suid v memOk with
  | .error e => .error e
  | .ok (t, h, first) =>
    .ok ({ w with tbl := t }, h.isSome,
      if w.onFirst && h.isSome && first then [.first] else [])

/-- `rtpp_weakref_unreg`, rtpp_weakref.c:134-160. -/
def unreg {V} (hash : Nat → Nat) (w : Reg V) (suid : Nat) :
    Except Fault (Reg V × Option V × List Ev) :=
  match removeByKey (cfg hash) w.tbl suid with
  | .error e => .error e
  | .ok (t, v, last) =>
    .ok ({ w with tbl := t }, v, if w.onLast && v.isSome && last then [.last] else [])

/-- `rtpp_weakref_move`, rtpp_weakref.c:162-197.  Events of the source registry come
first. -/
def move {V} (hash hash' : Nat → Nat) (w o : Reg V) (suid : Nat) (memOk : Bool) :
    Except Fault (Reg V × Reg V × Option V × List Ev × List Ev) :=
  match transfer (cfg hash) (cfg hash') w.tbl o.tbl suid memOk with
  | .error e => .error e
  | .ok (t, u, v, last, first) =>
    .ok ({ w with tbl := t }, { o with tbl := u }, v,
      (if w.onLast && v.isSome && last then [.last] else []),
      (if o.onFirst && v.isSome && first then [.first] else []))

/-- `rtpp_wrt_get_by_idx`, rtpp_weakref.c:208-221. -/
def getByIdx {V} (hash : Nat → Nat) (w : Reg V) (suid : Nat) : Option V :=
  find (cfg hash) w.tbl suid

/-- `rtpp_wrt_foreach`, rtpp_weakref.c:223-247. -/
def foreach {V S} (w : Reg V) (f : V → S → S × MVal) (s : S) :
    Except Fault (Reg V × S × List Ev) :=
  match Hash.foreach w.tbl f s with
  | .error e => .error e
  | .ok (t, last, s') => .ok ({ w with tbl := t }, s', if w.onLast && last then [.last] else [])

/-- `rtpp_wrt_get_length`, rtpp_weakref.c:249-256. -/
def length {V} (w : Reg V) : Nat := getLength w.tbl

/-- `rtpp_wrt_purge`, rtpp_weakref.c:258-278; also returns the released objects. -/
def purge {V} (w : Reg V) : Except Fault (Reg V × Nat × List V × List Ev) :=
  match Hash.purge (w.tbl.l1.num + 1) w.tbl with
  | .error e => .error e
  | .ok (t, n, vs) =>
    .ok ({ w with tbl := t }, n, vs, if w.onLast && decide (n > 0) then [.last] else [])

/-- Calls on one registry. -/
inductive Op (V : Type) where
  | reg (suid : Nat) (v : V) (memOk : Bool)
  | unreg (suid : Nat)
  | get (suid : Nat)
  | length
  | purge

/-- Observable results together with the callbacks fired. -/
inductive Out (V : Type) where
  | ok (b : Bool)
  | value (v : Option V)
  | count (n : Nat)
  deriving DecidableEq, Repr

def step {V} (hash : Nat → Nat) (w : Reg V) : Op V → Except Fault (Reg V × Out V × List Ev)
  | .reg i v m =>
    match reg hash w i v m with
    | .error e => .error e
    | .ok (w', b, ev) => .ok (w', .ok b, ev)
  | .unreg i =>
    match unreg hash w i with
    | .error e => .error e
    | .ok (w', v, ev) => .ok (w', .value v, ev)
  | .get i => .ok (w, .value (getByIdx hash w i), [])
  | .length => .ok (w, .count (length w), [])
  | .purge =>
    match purge w with
    | .error e => .error e
    | .ok (w', n, _, ev) => .ok (w', .count n, ev)

def run {V} (hash : Nat → Nat) (w : Reg V) :
    List (Op V) → Except Fault (Reg V × List (Out V × List Ev))
  | [] => .ok (w, [])
  | op :: ops =>
    match step hash w op with
    | .error e => .error e
    | .ok (w', o, ev) =>
      match run hash w' ops with
      | .error e => .error e
      | .ok (w'', os) => .ok (w'', (o, ev) :: os)

end Verif.Weakref
