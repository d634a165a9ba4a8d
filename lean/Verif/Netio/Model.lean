import Verif.Basic

/-!
# The asynchronous sender

Model of `src/rtpp_netio_async.c`, `src/rtpp_wi_pkt.c`, `rtp_packet_get_wi` (`src/rtp_packet.c`) and
of the part of `src/rtpp_socket.c` and `src/rtpp_queue.c` (`rtpp_queue_destroy`) that matters to them:
packets and replies are handed over, put into a queue and sent by a thread of its own.

Kept: every interleaving of the threads that hand over, of the owners of sockets, packets and
addresses, of the sending thread, and of the shutdown; the reference counts of packets and sockets;
the numbers of descriptors, which the kernel gives out again after `close`; the results of `sendto`;
failing allocations.

Simplified: the queue is a list (C27 proves that of `rtpp_queue.c`), its put and get are one step each
(they hold its mutex), and the thread may take items whenever there are some (C67 and the condition
variable of the queue are about when it wakes up). Nobody writes to a packet that has been handed
over. Results of `sendto` are: accepted, `EPERM` or `ENOBUFS`, any other error. There is one sender
(`SEND_THREADS` is 1). A socket that is held for good is a control socket (they are never closed).
-/

namespace Verif.Netio

/-- A `struct rtpp_socket`, or a control socket. -/
structure Sock where
  fd : Nat
  refs : Nat
  /-- references held by others than packets -/
  ext : Nat
  pinned : Bool
  deriving DecidableEq, Repr

/-- A packet, or a reply; freed if `refs = 0`. -/
structure Obj where
  data : List Nat
  refs : Nat
  /-- references held by others than items of the queue -/
  ext : Nat
  /-- sockets its destructors release -/
  held : List Nat
  deriving DecidableEq, Repr

/-- `struct rtpp_wi_sendargs`, without flags. -/
structure Item where
  obj : Nat
  fd : Nat
  to : Nat
  nsend : Nat
  deriving DecidableEq, Repr

/-- What is in the queue. -/
inductive Work
  | pkt (i : Item)
  | term
  deriving DecidableEq, Repr

/-- Result of `sendto`. -/
inductive Res
  | ok
  /-- `EPERM` or `ENOBUFS` -/
  | soft
  | hard
  deriving DecidableEq, Repr

/-- One call of `sendto`: the socket the descriptor stands for at that time, what is sent, where to,
and the result. -/
structure Tx where
  via : Option Nat
  data : List Nat
  to : Nat
  res : Res
  deriving DecidableEq, Repr

/-- The item the thread is at; `over`: the loop over copies is left. -/
structure Cur where
  it : Item
  ncopies : Nat
  nretry : Nat
  over : Bool
  deriving DecidableEq, Repr

structure St where
  dmode : Bool
  socks : List Sock
  fdt : Nat → Option Nat
  objs : List Obj
  addrs : Nat → Nat
  queue : List Work
  batch : List Work
  cur : Option Cur
  /-- the thread has ended -/
  out : Bool
  /-- the item that ends it was put into the queue -/
  sig : Bool
  /-- the queue was destroyed -/
  gone : Bool
  /-- items that the thread had taken when it ended -/
  lost : List Item
  /-- the calls of `sendto`, oldest first -/
  log : List Tx

def init (dmode : Bool) : St :=
  ⟨dmode, [], fun _ => none, [], fun _ => 0, [], [], none, false, false, false, [], []⟩

/-- `RTPP_ANETIO_MAX_RETRY`, rtpp_netio_async.c:86. -/
def maxRetry : Nat := 3
/-- `RTPP_ANETIO_BATCH_LEN`, rtpp_netio_async.c:87, `RTPQ_LARGE_CB_LEN`, rtpp_queue.h:76. -/
def batchLen : Nat := 1024 / 8
/-- `LBR_THRS`, rtpp_defines.h:43. -/
def lbrThrs : Nat := 128

def upd {β : Type} (f : Nat → β) (a : Nat) (b : β) : Nat → β := fun x => if x = a then b else f x

/-- A reference to a socket is given back; with the last one `rtpp_socket_dtor`
(rtpp_socket.c:165-180) closes it. -/
def decSock (st : St) (s : Nat) : Except Fault St :=
  match st.socks[s]? with
  | none => .error .ub
  | some k =>
    if k.refs = 0 then .error .ub
    else if k.refs = 1 then
      .ok { st with socks := st.socks.set s { k with refs := 0 }, fdt := upd st.fdt k.fd none }
    else .ok { st with socks := st.socks.set s { k with refs := k.refs - 1 } }

def decSocks (st : St) : List Nat → Except Fault St
  | [] => .ok st
  | s :: l => match decSock st s with
    | .error e => .error e
    | .ok st' => decSocks st' l

/-- A reference to a packet is given back (the item of a packet has the counter of the packet,
rtpp_wi_pkt.c:130-133; that of a reply gives back the one to the reply, 153-169); with the last one
its destructors run (`rtpp_wi_pkt_free`, 159-169). -/
def decObj (st : St) (p : Nat) : Except Fault St :=
  match st.objs[p]? with
  | none => .error .ub
  | some o =>
    if o.refs = 0 then .error .ub
    else if o.refs = 1 then
      decSocks { st with objs := st.objs.set p { o with refs := 0 } } o.held
    else .ok { st with objs := st.objs.set p { o with refs := o.refs - 1 } }

inductive Ev
  /-- `rtpp_socket_ctor`, rtpp_socket.c:124-163: the kernel gives the number -/
  | sopen (fd : Nat) (pinned : Bool)
  /-- somebody with a reference to socket `s` takes another one -/
  | sget (s : Nat)
  /-- somebody gives back a reference to socket `s` -/
  | sput (s : Nat)
  /-- `rtp_packet_alloc` and `recvfrom`, or a reply is made -/
  | onew (data : List Nat)
  | oget (p : Nat)
  | oput (p : Nat)
  /-- the address object `a` is given another value -/
  | addr (a v : Nat)
  /-- `rtpp_socket_send_pkt_na`; `ok`: nothing fails for lack of memory -/
  | hand (s p a : Nat) (ok : Bool)
  /-- `rtpp_anetio_sendto_na` -/
  | reply (s p v : Nat) (ok : Bool)
  /-- the first loop of `rtpp_netio_async_destroy` -/
  | stop
  /-- `rtpp_queue_get_items` of the thread -/
  | take
  /-- the thread goes on, `r` is the result of `sendto` if that is what it does -/
  | go (r : Res)
  /-- `rtpp_queue_destroy` -/
  | destroy
  deriving DecidableEq, Repr

/-- The copies to be sent, rtpp_netio_async.c:255-259. -/
def nsend (dmode : Bool) (size : Nat) : Nat := if dmode = true ∧ size < lbrThrs then 2 else 1

/-- `rtpp_anetio_send_pkt_na` (rtpp_netio_async.c:247-284) as called by `rtpp_socket_send_pkt_na`
(rtpp_socket.c:256-268), with `rtpp_wi_malloc_pkt_na` (rtpp_wi_pkt.c:118-151): the address is copied,
a destructor is attached to the packet, the socket gets a reference. The reference of the caller to the
packet goes to the item, or is given back. -/
def hand (st : St) (s : Nat) (k : Sock) (p : Nat) (o : Obj) (a : Nat) (ok : Bool) : Except Fault St :=
  if ok = false then
    decObj { st with objs := st.objs.set p { o with ext := o.ext - 1 } } p
  else
    .ok { st with objs := st.objs.set p { o with ext := o.ext - 1, held := o.held ++ [s] }
                  socks := st.socks.set s { k with refs := k.refs + 1 }
                  queue := st.queue ++ [.pkt ⟨p, k.fd, st.addrs a, nsend st.dmode o.data.length⟩] }

/-- `rtpp_anetio_sendto_na` (rtpp_netio_async.c:217-231) with `rtpp_wi_malloc_na`
(rtpp_wi_pkt.c:88-116), as called by `rtpc_reply_deliver` (rtpp_command_reply.c:153-159) and
`rtpp_command_guard_retrans` (rtpp_command.c:353-356): no reference to the socket. -/
def reply (st : St) (k : Sock) (p : Nat) (o : Obj) (v : Nat) (ok : Bool) : Except Fault St :=
  if ok = false then
    decObj { st with objs := st.objs.set p { o with ext := o.ext - 1 } } p
  else
    .ok { st with objs := st.objs.set p { o with ext := o.ext - 1 }
                  queue := st.queue ++ [.pkt ⟨p, k.fd, v, 1⟩] }

def items : List Work → List Item
  | [] => []
  | .pkt i :: l => i :: items l
  | .term :: l => items l

/-- `sendto`: the data is read from the packet, an unused descriptor is an error (`EBADF`). -/
def sendto (st : St) (it : Item) (r : Res) : Except Fault (Tx × Res) :=
  match st.objs[it.obj]? with
  | none => .error .ub
  | some o =>
    if o.refs = 0 then .error .ub
    else
      let r' := if (st.fdt it.fd).isNone then .hard else r
      .ok (⟨st.fdt it.fd, o.data, it.to, r'⟩, r')

/-- What the loop over copies does with a result, rtpp_netio_async.c:149-161. -/
def after (c : Cur) : Res → Cur
  | .ok => { c with ncopies := c.ncopies - 1, over := decide (¬ c.ncopies - 1 > 0) }
  | .soft => if c.nretry < maxRetry then { c with nretry := c.nretry + 1, over := decide (¬ c.ncopies > 0) }
      else { c with over := true }
  | .hard => { c with over := true }

/-- One step of `rtpp_anetio_sthread`, rtpp_netio_async.c:110-163: the next item is looked at, or
`sendto` is called, or the item is released. -/
def go (st : St) (r : Res) : Option (Except Fault St) :=
  match st.cur with
  | some c =>
    if c.over = true then some (decObj { st with cur := none } c.it.obj)
    else match sendto st c.it r with
      | .error e => some (.error e)
      | .ok (t, r') => some (.ok { st with log := st.log ++ [t], cur := some (after c r') })
  | none => match st.batch with
    | [] => none
    | .term :: b => some (.ok { st with out := true, batch := [], lost := st.lost ++ items b })
    | .pkt i :: b => some (.ok { st with batch := b, cur := some ⟨i, i.nsend, 0, false⟩ })

/-- `rtpp_queue_destroy`, rtpp_queue.c:293-304, one item at a time. -/
def destroy (st : St) : Except Fault St :=
  match st.queue with
  | [] => .ok { st with gone := true }
  | .pkt i :: q => decObj { st with queue := q } i.obj
  | .term :: q => .ok { st with queue := q }

/-- `none`: not possible. -/
def step (st : St) : Ev → Option (Except Fault St)
  | .sopen fd pin =>
    if st.fdt fd = none then
      some (.ok { st with socks := st.socks ++ [⟨fd, 1, 1, pin⟩]
                          fdt := upd st.fdt fd (some st.socks.length) })
    else none
  | .sget s => match st.socks[s]? with
    | none => none
    | some k => if k.ext = 0 then none
      else some (.ok { st with socks := st.socks.set s { k with refs := k.refs + 1, ext := k.ext + 1 } })
  | .sput s => match st.socks[s]? with
    | none => none
    | some k => if k.ext = 0 ∨ (k.pinned = true ∧ k.ext = 1) then none
      else some (decSock { st with socks := st.socks.set s { k with ext := k.ext - 1 } } s)
  | .onew d => some (.ok { st with objs := st.objs ++ [⟨d, 1, 1, []⟩] })
  | .oget p => match st.objs[p]? with
    | none => none
    | some o => if o.ext = 0 then none
      else some (.ok { st with objs := st.objs.set p { o with refs := o.refs + 1, ext := o.ext + 1 } })
  | .oput p => match st.objs[p]? with
    | none => none
    | some o => if o.ext = 0 then none
      else some (decObj { st with objs := st.objs.set p { o with ext := o.ext - 1 } } p)
  | .addr a v => some (.ok { st with addrs := upd st.addrs a v })
  | .hand s p a ok => match st.socks[s]?, st.objs[p]? with
    | some k, some o => if k.ext = 0 ∨ o.ext = 0 ∨ st.gone = true then none
      else some (hand st s k p o a ok)
    | _, _ => none
  | .reply s p v ok => match st.socks[s]?, st.objs[p]? with
    | some k, some o => if k.ext = 0 ∨ k.pinned = false ∨ o.ext = 0 ∨ st.gone = true then none
      else some (reply st k p o v ok)
    | _, _ => none
  | .stop => if st.sig = true then none
      else some (.ok { st with sig := true, queue := st.queue ++ [.term] })
  | .take => if st.out = true ∨ st.batch ≠ [] ∨ st.cur ≠ none ∨ st.queue = [] then none
      else some (.ok { st with batch := st.queue.take batchLen, queue := st.queue.drop batchLen })
  | .go r => if st.out = true then none else go st r
  | .destroy => if st.out = false ∨ st.gone = true then none else some (destroy st)

def run (st : St) : List Ev → Option (Except Fault St)
  | [] => some (.ok st)
  | e :: es => match step st e with
    | none => none
    | some (.error f) => some (.error f)
    | some (.ok st') => run st' es

end Verif.Netio
