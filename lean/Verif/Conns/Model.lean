import Verif.Basic

/-!
# The table of control connections (src/rtpp_command_async.c)

Modelled: `init_pollset` (543-595), the part of `rtpp_cmd_acceptor_run` that is done with `pfds_mutex` held (353-377), the part of
`rtpp_cmd_queue_run` that is done with it held (407-466), `rtpp_cmd_connection_ctor` and `_dtor` (266-297).  That only one thread at a time is in
these parts is proved in `Conns.LockProps`; here they follow one another in any order.

The answers of `poll`, `accept` and the allocator are those of the environment, and so is what the commands of a connection come to (the value of
`process_commands` or `process_commands_stream`, see C21, C58).  A record has a number in the place of its address; numbers are not used again.
Not modelled: the peer address kept in the record, `events`, `POLLNVAL`, the counters.
-/

namespace Verif.Conns

/-- `enum rtpp_ctrl_type`, rtpp_controlfd.h 29-30. -/
inductive Kind where
  | ifsun | udp4 | udp6 | sysd | stdio | fd | ifsunC | tcp4 | tcp6
  deriving DecidableEq, Repr

/-- `RTPP_CTRL_ISDG`, rtpp_controlfd.h 47. -/
def Kind.isDg (k : Kind) : Bool := k == .udp4 || k == .udp6

/-- `RTPP_CTRL_ISSTREAM`, rtpp_controlfd.h 49-51. -/
def Kind.isStream (k : Kind) : Bool :=
  k == .ifsunC || k == .stdio || k == .tcp4 || k == .tcp6 || k == .fd || k == .sysd

/-- `RTPP_CTRL_ACCEPTABLE`, rtpp_controlfd.h 52-53. -/
def Kind.acceptable (k : Kind) : Bool :=
  k == .ifsun || k == .ifsunC || k == .tcp4 || k == .tcp6 || k == .sysd

/-- `struct rtpp_ctrl_sock`. -/
structure Sock where
  kind : Kind
  fdIn : Nat
  fdOut : Nat
  exitOnClose : Bool
  deriving DecidableEq, Repr

/-- `revents`: `inp`: `POLLIN`, `bad`: `POLLERR` or `POLLHUP`. -/
structure Rev where
  inp : Bool
  bad : Bool
  deriving DecidableEq, Repr

/-- `struct pollfd`. -/
structure Pfd where
  fd : Nat
  rev : Rev
  deriving DecidableEq, Repr

/-- `struct rtpp_cmd_connection`; `id` stands for its address. -/
structure Conn where
  id : Nat
  fdIn : Nat
  fdOut : Nat
  sock : Sock
  deriving DecidableEq, Repr

/-- `struct rtpp_cmd_pollset`, lines 75-80, `pfds` with all of the memory it has, with the number for the next record and `slowshutdown`. -/
structure Tbl where
  pfds : List Pfd
  rccs : List (Option Conn)
  used : Nat
  fresh : Nat
  slow : Bool
  deriving DecidableEq, Repr

/-- What is done.  `took`: `accept` gives a descriptor; `close`; `served`: the commands of a record are processed; `gone`: a record is freed;
`drained`: the wake-up descriptor is read. -/
inductive Ev where
  | took (fd : Nat)
  | close (fd : Nat)
  | served (id : Nat)
  | gone (id : Nat)
  | drained (fd : Nat)
  deriving DecidableEq, Repr

/-- `RTPC_MAX_CONNECTIONS`, line 73; `rccs` has one more place (line 78). -/
def maxConns : Nat := 100

/-- `rtpp_cmd_connection_dtor`, lines 286-297. -/
def destroy (c : Conn) : List Ev :=
  .gone c.id ::
    (if c.fdIn ≠ c.sock.fdIn then .close c.fdIn :: (if c.fdOut ≠ c.fdIn then [.close c.fdOut] else []) else [])

/-- `memmove` of `n` elements from place `i + 1` to place `i`. -/
def moveDown {α : Type} (l : List α) (i n : Nat) : Except Fault (List α) :=
  if i + 1 + n ≤ l.length then .ok (l.take i ++ (l.drop (i + 1)).take n ++ l.drop (i + n)) else .error .ub

/-- `realloc` of `pfds` to `n` elements; what is new is not initialised (here: zero) and is written before it is read. -/
def regrow (l : List Pfd) (n : Nat) : List Pfd :=
  (l ++ List.replicate n (⟨0, ⟨false, false⟩⟩ : Pfd)).take n

/-- Lines 353-377, after `accept` has given `fd` on the socket `s`; `mem1`: `realloc` works, `mem2`: the constructor works. -/
def accept (t : Tbl) (s : Sock) (fd : Nat) (mem1 mem2 : Bool) : Except Fault (Tbl × List Ev) :=
  if maxConns ≤ t.used then .ok (t, [.took fd, .close fd])
  else if !mem1 then .ok (t, [.took fd, .close fd])
  else
    let pfds := regrow t.pfds (t.used + 1)
    if !mem2 then .ok ({ t with pfds := pfds }, [.took fd, .close fd])
    else if t.used < pfds.length ∧ t.used < t.rccs.length then
      .ok ({ t with
        pfds := pfds.set t.used ⟨fd, ⟨false, false⟩⟩
        rccs := t.rccs.set t.used (some ⟨t.fresh, fd, fd, s⟩)
        used := t.used + 1
        fresh := t.fresh + 1 }, [.took fd])
    else .error .ub

/-- Lines 426-433: the connection is closed without looking for commands. -/
def hangup (r : Rev) (k : Kind) : Bool :=
  r.bad && (k.acceptable || (k == .stdio && !r.inp))

/-- Line 449. -/
def recycle (k : Kind) (rval : Int) : Bool :=
  !k.isDg && (rval == -1 || !k.isStream)

/-- Lines 451-455: `closefd`, before the tables are moved. -/
def shut (t : Tbl) (c : Conn) : Tbl :=
  { t with
    used := t.used - 1
    slow := t.slow || (c.sock.kind == .stdio && c.sock.exitOnClose) }

/-- Lines 456-460. -/
def squeeze (t : Tbl) (i : Nat) : Except Fault Tbl :=
  match moveDown t.pfds i (t.used - i), moveDown t.rccs i (t.used - i) with
  | .ok p, .ok r => .ok { t with pfds := p, rccs := r }
  | _, _ => .error .ub

/-- What a place of the table comes to: the events, and whether the connection stays.  Lines 426-449 and `closefd`. -/
def look (out : Nat → Int) (p : Pfd) (c : Conn) : List Ev × Bool :=
  if hangup p.rev c.sock.kind then (destroy c, false)
  else if !p.rev.inp then ([], true)
  else if recycle c.sock.kind (out c.id) then (.served c.id :: destroy c, false)
  else ([.served c.id], true)

/-- Lines 417-464 from place `i` on; `out`: what the commands of a record come to.  `n`: the places left, `used - i`; each time around there is
one less. -/
def sweep (out : Nat → Int) : Nat → Tbl → Nat → Except Fault (Tbl × List Ev)
  | 0, t, _ => .ok (t, [])
  | n + 1, t, i =>
    if i < t.used then
      match t.pfds[i]?, t.rccs[i]? with
      | some p, some (some c) =>
        match look out p c with
        | (evs, true) =>
          match sweep out n t (i + 1) with
          | .error e => .error e
          | .ok (t', l) => .ok (t', evs ++ l)
        | (evs, false) =>
          if 0 < (shut t c).used ∧ i < (shut t c).used then
            match squeeze (shut t c) i with
            | .error e => .error e
            | .ok t1 =>
              match sweep out n t1 i with
              | .error e => .error e
              | .ok (t', l) => .ok (t', evs ++ l)
          else .ok (shut t c, evs)
      | _, _ => .error .ub
    else .ok (t, [])

/-- `poll` writes `revents` of the first `used` places. -/
def fill (revs : Nat → Rev) (used : Nat) (l : List Pfd) : List Pfd :=
  l.mapIdx fun i p => if i < used then { p with rev := revs i } else p

/-- Lines 407-466: `nready` is the value of `poll`. -/
def round (t : Tbl) (nready : Int) (revs : Nat → Rev) (out : Nat → Int) : Except Fault (Tbl × List Ev) :=
  if nready ≤ 0 then .ok (t, [])
  else
    let t1 := { t with pfds := fill revs t.used t.pfds }
    match t1.pfds[0]? with
    | none => .error .ub
    | some p =>
      match sweep out (t1.used - 1) t1 1 with
      | .error e => .error e
      | .ok (t', l) => .ok (t', (if p.rev.inp then [.drained p.fd] else []) ++ l)

/-- Lines 571-587.  A record that cannot be had leads to `rtpp_cmd_connection_dtor(rccs[0])`, and `rccs[0]` is NULL (line 569). -/
def initLoop (mem : Nat → Bool) : List Sock → Nat → Tbl → Except Fault (Tbl × Nat)
  | [], i, t => .ok (t, i)
  | s :: ss, i, t =>
    if s.kind.acceptable then initLoop mem ss i t
    else if i < t.pfds.length ∧ i < t.rccs.length then
      if mem i then
        initLoop mem ss (i + 1) { t with
          pfds := t.pfds.set i ⟨s.fdIn, ⟨false, false⟩⟩
          rccs := t.rccs.set i (some ⟨t.fresh, s.fdIn, s.fdOut, s⟩)
          fresh := t.fresh + 1 }
      else .error .ub
    else .error .ub

/-- Line 588-590: `exit_on_close` of the only socket. -/
def leave (t : Tbl) (i : Nat) : Except Fault Tbl :=
  if i = 2 then
    match t.rccs[1]? with
    | some (some c) =>
      .ok (if c.sock.kind.isStream then { t with rccs := t.rccs.set 1 (some { c with sock := { c.sock with exitOnClose := true } }) } else t)
    | _ => .error .ub
  else .ok t

/-- `init_pollset`, lines 543-595, for the list of control sockets; `rccs` is zeroed memory (line 663). -/
def init (socks : List Sock) (wakefd : Nat) (mem0 : Bool) (mem : Nat → Bool) : Except Fault (Option Tbl) :=
  let n := 1 + (socks.filter fun s => !s.kind.acceptable).length
  if !mem0 then .ok none
  else
    let t : Tbl := {
      pfds := (List.replicate n ⟨0, ⟨false, false⟩⟩).set 0 ⟨wakefd, ⟨false, false⟩⟩
      rccs := List.replicate (maxConns + 1) none
      used := n
      fresh := 0
      slow := false }
    match initLoop mem socks 1 t with
    | .error e => .error e
    | .ok (t', i) =>
      match leave t' i with
      | .error e => .error e
      | .ok t'' => .ok (some t'')

/-- One turn of one of the two threads in its critical section. -/
inductive Act where
  | accept (s : Sock) (fd : Nat) (mem1 mem2 : Bool)
  | round (nready : Int) (revs : Nat → Rev) (out : Nat → Int)

def act (t : Tbl) : Act → Except Fault (Tbl × List Ev)
  | .accept s fd m1 m2 => accept t s fd m1 m2
  | .round n revs out => round t n revs out

/-- Any number of turns, in any order. -/
def run (t : Tbl) : List Act → Except Fault (Tbl × List Ev)
  | [] => .ok (t, [])
  | a :: as =>
    match act t a with
    | .error e => .error e
    | .ok (t1, l1) =>
      match run t1 as with
      | .error e => .error e
      | .ok (t2, l2) => .ok (t2, l1 ++ l2)

end Verif.Conns
