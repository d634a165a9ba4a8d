import Verif.Basic

/-!
# Model of the delivery of records to the accounting modules (`src/rtpp_modman.c`, `src/rtpp_module_if.c`)

The modules have all been loaded and started (see Load for that).  Sessions come and go on any number of threads; at the end
of a session its record is put into the queue of every module that wants it, rtpp_session.c:283-340.  Threads that receive
an RTCP packet put a record of it into the queue of every module that wants those.  Each module has a thread that takes the
records out and calls the module.  The shutdown ends the sessions, waits until no stream is left, and releases the module
manager.  Each access to a queue or a count is a step.

Simplifications: a session has one stream; the modules that want RTCP packets are tried in the order of the list; the queue
is a list (Queue shows that it is one), and its lock is not modelled; a thread that finds the queue empty waits, so that the
step is not there; in the same way the loop of `rtpp_mif_kaput` that tries to put the last item into a full queue, and the
loop of `rtpp_shutdown`, are steps that are not there until they can succeed.  Modules with `wapi` and without `aapi` have a
thread of their own making and are left out.  A count of references is the number of references.  The record of a session
is freed with its references; that a function of a module returns is assumed.
-/

namespace Verif.Modman

/-- What a module asks for: `aapi`, `on_session_end`, `on_rtcp_rcvd`, rtpp_module_acct.h. -/
structure MCfg where
  aapi : Bool
  acct : Bool
  rtcp : Bool
  deriving DecidableEq, Repr

/-- `has.do_acct`, rtpp_module_if.c:319. -/
def MCfg.doAcct (c : MCfg) : Bool := c.aapi && c.acct

/-- The processor of packets is registered, rtpp_module_if.c:512-522. -/
def MCfg.doRtcp (c : MCfg) : Bool := c.aapi && c.rtcp

/-- A record: of the session with this number, or of the packet, made for the module `j`. -/
inductive Rec where
  | sess (i : Nat)
  | pkt (p j : Nat)
  deriving DecidableEq, Repr

inductive Item where
  | job (r : Rec)
  /-- `sigterm` -/
  | term
  deriving DecidableEq, Repr

/-- The thread of a module. -/
inductive Thr where
  | off
  | idle
  /-- in the function of the module with this record -/
  | busy (r : Rec)
  | ended
  deriving DecidableEq, Repr

/-- `struct rtpp_module_if_priv`, rtpp_module_if.c:93-103.  The queue is none when it has been destroyed; `built`: the
module has been constructed and not destroyed, `live`: the structure has not been freed. -/
structure Mod where
  cfg : MCfg
  q : Option (List Item)
  thr : Thr
  built : Bool
  live : Bool
  deriving DecidableEq, Repr

/-- Where the end of a session is, rtpp_session.c:283-340. -/
inductive Spc where
  | live
  /-- the module with this number is next -/
  | acct (j : Nat)
  | relMm
  | relAcct
  | relStrm
  | gone
  deriving DecidableEq, Repr

/-- A packet being handled: its session, and the module that is next, or none at the end. -/
structure Pkt where
  i : Nat
  pc : Option Nat
  deriving DecidableEq, Repr

/-- The main thread, main.c:825-845. -/
inductive Mpc where
  | run
  | stop
  | rel
  | after
  | ended
  deriving DecidableEq, Repr

/-- Where `rtpp_mif_kaput` is. -/
inductive Kpc where
  | put
  | join
  | destroy
  | dtor
  | rel
  deriving DecidableEq, Repr

/-- The destructor of the manager. -/
inductive Kap where
  | no
  | run (j : Nat) (k : Kpc)
  | done
  deriving DecidableEq, Repr

/-- What can be seen from outside: the functions of a module called, messages in the log, records freed. -/
inductive Out where
  | call (j : Nat) (r : Rec)
  | full (j : Nat) (r : Rec)
  | nomem (j : Nat) (r : Rec)
  | dtor (j : Nat)
  | free (r : Rec)
  deriving DecidableEq, Repr

structure St where
  mods : List Mod
  sess : List Spc
  pkts : List Pkt
  /-- references to the manager -/
  mm : Nat
  /-- references to the stream of a session -/
  strm : Nat → Nat
  refs : Rec → Nat
  main : Mpc
  kap : Kap
  /-- the session whose end runs the destructor of the manager; none: the main thread -/
  owner : Option Nat
  out : List Out

/-- How far the making of a record for a packet gets. -/
inductive Made where
  /-- the session is not found, or there is no memory for the record -/
  | no
  /-- there is no memory for the work item -/
  | noWi
  | ok
  deriving DecidableEq, Repr

inductive Ev where
  | newSess
  /-- the last reference to a session goes -/
  | endSess (i : Nat)
  /-- `do_acct` at module `j`; `mem`: there is memory for the work item -/
  | acct (i j : Nat) (mem : Bool)
  | relMm (i : Nat)
  | relAcct (i : Nat)
  | relStrm (i : Nat)
  | newPkt (i : Nat)
  | pkt (p j : Nat) (m : Made)
  | endPkt (p : Nat)
  /-- the thread of module `j` takes an item -/
  | take (j : Nat)
  /-- the function of the module returns -/
  | ret (j : Nat)
  | stop
  | wait
  | rel
  | kap
  | fin
  deriving DecidableEq, Repr

/-- `RTPQ_SMALL_CB_LEN * 8`, rtpp_module_if.c:305. -/
def qmax : Nat := 128

/-- `count.sess_acct > 0`, rtpp_modman.c:103. -/
def anyAcct (ms : List Mod) : Bool := ms.any fun m => m.cfg.doAcct

def St.setM (s : St) (j : Nat) (m : Mod) : St := { s with mods := s.mods.set j m }

def St.setS (s : St) (i : Nat) (pc : Spc) : St := { s with sess := s.sess.set i pc }

def St.setK (s : St) (p : Nat) (k : Pkt) : St := { s with pkts := s.pkts.set p k }

def St.emit (s : St) (o : Out) : St := { s with out := s.out ++ [o] }

def St.setR (s : St) (r : Rec) (n : Nat) : St := { s with refs := fun x => if x = r then n else s.refs x }

def St.setT (s : St) (i n : Nat) : St := { s with strm := fun x => if x = i then n else s.strm x }

def St.incr (s : St) (r : Rec) : Except Fault St := if s.refs r = 0 then .error .ub else .ok (s.setR r (s.refs r + 1))

/-- `RTPP_OBJ_DECREF` of a record. -/
def St.decr (s : St) (r : Rec) : Except Fault St :=
  match s.refs r with
  | 0 => .error .ub
  | 1 => .ok ((s.setR r 0).emit (.free r))
  | n + 1 => .ok (s.setR r n)

/-- The destructor of the manager begins, rtpp_modman.c:81-92. -/
def kstart (ms : List Mod) : Kap := if ms = [] then .done else .run 0 .put

def knext (ms : List Mod) (j : Nat) : Kap := if j + 1 < ms.length then .run (j + 1) .put else .done

/-- `RTPP_OBJ_DECREF` of the manager, by the end of a session or by the main thread. -/
def St.decMm (s : St) (who : Option Nat) : Except Fault St :=
  match s.mm with
  | 0 => .error .ub
  | 1 => .ok { s with mm := 0, kap := kstart s.mods, owner := who }
  | n + 1 => .ok { s with mm := n }

/-- The thread may go on: it does not run the destructor of the manager, or that has returned. -/
def St.free (s : St) (who : Option Nat) : Bool := s.kap == .no || s.kap == .done || s.owner != who

/-- `rtpp_queue_put_item`, rtpp_queue.c:357-387, of a record whose reference goes with it; if the queue is full,
rtpp_module_if.c:447-450 and 469-472. -/
def St.put (s : St) (j : Nat) (r : Rec) : Except Fault St :=
  match s.mods[j]? with
  | none => .error .ub
  | some m => match m.live, m.q with
    | true, some l =>
      if l.length < qmax then .ok (s.setM j { m with q := some (l ++ [.job r]) }) else (s.emit (.full j r)).decr r
    | _, _ => .error .ub

/-- `rtpp_mif_do_acct`, rtpp_module_if.c:431-451. -/
def St.doAcct (s : St) (j i : Nat) (mem : Bool) : Except Fault St :=
  if s.mm = 0 then .error .ub
  else if mem then match s.incr (.sess i) with
    | .error e => .error e
    | .ok s1 => s1.put j (.sess i)
  else .ok (s.emit (.nomem j (.sess i)))

/-- `rtpp_modman_do_acct`, rtpp_modman.c:146-157, one module. -/
def St.stepAcct (s : St) (i j : Nat) (mem : Bool) : Except Fault St :=
  match s.mods[j]? with
  | none => .ok (s.setS i .relMm)
  | some m =>
    if m.cfg.doAcct then match s.doAcct j i mem with
      | .error e => .error e
      | .ok s1 => .ok (s1.setS i (.acct (j + 1)))
    else .ok (s.setS i (.acct (j + 1)))

/-- `acct_rtcp_enqueue` and `rtpp_mif_do_acct_rtcp`, rtpp_module_if.c:182-200 and 453-473. -/
def St.doRtcp (s : St) (j p i : Nat) (m : Made) : Except Fault St :=
  match m with
  | .no => .ok (s.setK p ⟨i, some s.mods.length⟩)
  | .noWi => match ((s.setR (.pkt p j) 1).emit (.nomem j (.pkt p j))).decr (.pkt p j) with
    | .error e => .error e
    | .ok s1 => .ok (s1.setK p ⟨i, some (j + 1)⟩)
  | .ok => match (s.setR (.pkt p j) 1).put j (.pkt p j) with
    | .error e => .error e
    | .ok s1 => .ok (s1.setK p ⟨i, some (j + 1)⟩)

/-- `rtpp_pproc_mgr_handle`, advanced/pproc_manager.c:202-219: after `PPROC_ACT_DROP` the rest is not tried. -/
def St.stepPkt (s : St) (p i j : Nat) (m : Made) (md : Mod) : Except Fault St :=
  if md.cfg.doRtcp then
    if md.live then s.doRtcp j p i m else .error .ub
  else .ok (s.setK p ⟨i, some (j + 1)⟩)

/-- `rtpp_mif_run_acct`, rtpp_module_if.c:389-429, up to the call of the module. -/
def St.stepTake (s : St) (j : Nat) (m : Mod) : Option (Except Fault St) :=
  match m.thr, m.q with
  | .idle, none => some (.error .ub)
  | .idle, some [] => none
  | .idle, some (.term :: l) => some (.ok (s.setM j { m with q := some l, thr := .ended }))
  | .idle, some (.job r :: l) =>
    if m.built ∧ m.live ∧ 0 < s.refs r then
      some (.ok ((s.setM j { m with q := some l, thr := .busy r }).emit (.call j r)))
    else some (.error .ub)
  | _, _ => none

/-- The rest of the loop. -/
def St.stepRet (s : St) (j : Nat) (m : Mod) : Option (Except Fault St) :=
  match m.thr with
  | .busy r => some ((s.setM j { m with thr := .idle }).decr r)
  | _ => none

/-- `rtpp_mif_kaput`, rtpp_module_if.c:361-387, and the loop of `rtpp_modman_dtor`, rtpp_modman.c:87-91.  Destroying the
queue does not release the records in it, rtpp_queue.c:296-300. -/
def St.stepKap (s : St) (j : Nat) (k : Kpc) (m : Mod) : Option (Except Fault St) :=
  match k with
  | .put =>
    if m.thr = .off then some (.ok { s with kap := .run j .destroy })
    else match m.q with
      | none => some (.error .ub)
      | some l =>
        if l.length < qmax then
          some (.ok { s.setM j { m with q := some (l ++ [.term]) } with kap := .run j .join })
        else none
  | .join => if m.thr = .ended then some (.ok { s with kap := .run j .destroy }) else none
  | .destroy => match m.q with
    | none => some (.error .ub)
    | some _ => some (.ok { s.setM j { m with q := none } with kap := .run j .dtor })
  | .dtor =>
    if m.built then some (.ok { (s.setM j { m with built := false }).emit (.dtor j) with kap := .run j .rel })
    else some (.error .ub)
  | .rel =>
    if m.live then some (.ok { s.setM j { m with live := false } with kap := knext s.mods j }) else some (.error .ub)

def step (s : St) : Ev → Option (Except Fault St)
  | .newSess =>
    if s.main = .run then
      let s1 : St := { s with sess := s.sess ++ [.live] }
      let s2 := (s1.setT s.sess.length 1).setR (.sess s.sess.length) 1
      if anyAcct s.mods then
        if s.mm = 0 then some (.error .ub) else some (.ok { s2 with mm := s.mm + 1 })
      else some (.ok s2)
    else none
  | .endSess i => match s.sess[i]? with
    | some .live => some (.ok (s.setS i (if anyAcct s.mods then .acct 0 else .relAcct)))
    | _ => none
  | .acct i j mem => if s.sess[i]? = some (.acct j) then some (s.stepAcct i j mem) else none
  | .relMm i =>
    if s.sess[i]? = some .relMm then
      match s.decMm (some i) with
      | .error e => some (.error e)
      | .ok s1 => some (.ok (s1.setS i .relAcct))
    else none
  | .relAcct i =>
    if s.sess[i]? = some .relAcct ∧ s.free (some i) then
      match s.decr (.sess i) with
      | .error e => some (.error e)
      | .ok s1 => some (.ok (s1.setS i .relStrm))
    else none
  | .relStrm i =>
    if s.sess[i]? = some .relStrm then
      if s.strm i = 0 then some (.error .ub) else some (.ok ((s.setT i (s.strm i - 1)).setS i .gone))
    else none
  | .newPkt i =>
    if 0 < s.strm i then some (.ok { s.setT i (s.strm i + 1) with pkts := s.pkts ++ [⟨i, some 0⟩] }) else none
  | .pkt p j m => match s.pkts[p]? with
    | some ⟨i, some j'⟩ =>
      if j' = j then match s.mods[j]? with
        | some md => some (s.stepPkt p i j m md)
        | none => none
      else none
    | _ => none
  | .endPkt p => match s.pkts[p]? with
    | some ⟨i, some j⟩ =>
      if j = s.mods.length then
        if s.strm i = 0 then some (.error .ub) else some (.ok ((s.setT i (s.strm i - 1)).setK p ⟨i, none⟩))
      else none
    | _ => none
  | .take j => match s.mods[j]? with
    | some m => s.stepTake j m
    | none => none
  | .ret j => match s.mods[j]? with
    | some m => s.stepRet j m
    | none => none
  | .stop => if s.main = .run then some (.ok { s with main := .stop }) else none
  | .wait =>
    if s.main = .stop ∧ (List.range s.sess.length).all (fun i => s.strm i == 0) then some (.ok { s with main := .rel })
    else none
  | .rel =>
    if s.main = .rel then
      match s.decMm none with
      | .error e => some (.error e)
      | .ok s1 => some (.ok { s1 with main := .after })
    else none
  | .kap => match s.kap with
    | .run j k => match s.mods[j]? with
      | some m => s.stepKap j k m
      | none => some (.error .ub)
    | _ => none
  | .fin => if s.main = .after ∧ s.free none then some (.ok { s with main := .ended }) else none

def run (s : St) : List Ev → Option (Except Fault St)
  | [] => some (.ok s)
  | e :: es => match step s e with
    | none => none
    | some (.error f) => some (.error f)
    | some (.ok s') => run s' es

def Mod.init (c : MCfg) : Mod := ⟨c, some [], if c.aapi then .idle else .off, true, true⟩

/-- The modules have been started, rtpp_modman.c:107-127. -/
def St.init (cs : List MCfg) : St :=
  ⟨cs.map Mod.init, [], [], 1, fun _ => 0, fun _ => 0, .run, .no, none, []⟩

end Verif.Modman
