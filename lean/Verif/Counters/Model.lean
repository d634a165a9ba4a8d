import Verif.Basic

/-!
# Model of command handling as seen by the counters (`src/rtpp_command.c`, `src/commands/*.c`)

`handle_command` and the handlers it calls are modelled as the sequence of things they do that a counter or a table can
see: replies delivered, option objects allocated and released, sessions created and put into the tables.  What the rest
of the program answers (memory, listeners, table lookups, contents of the message) is a parameter of each definition.
Replies are assumed to fit the buffer (C19 is about that); the assertions compiled in by `RTPP_DEBUG` only are left out.
-/

namespace Verif.Counters

/-- A reply handed to `rtpc_reply_deliver`, rtpp_command_reply.c:128-164. -/
inductive Rep where
  /-- `deliver(self, 0)`. -/
  | ok
  /-- `deliver_error(self, code)`, which ends in `deliver(self, 1)`. -/
  | err (code : Nat)
  /-- `ul_reply_port(cmd, NULL)`: the text "0", and `deliver(self, 1)`, rpcpv1_ul.c:178. -/
  | noport
  deriving DecidableEq, Repr

/-- The `errd` argument of `rtpc_reply_deliver`. -/
def Rep.errd : Rep → Bool
  | .ok => false
  | .err _ => true
  | .noport => true

inductive Ev where
  | reply (r : Rep)
  /-- `struct ul_opts` or `struct play_opts` allocated / freed: nothing else frees these two. -/
  | alloc
  | free
  /-- `rtpp_session_ctor` has returned an object with one reference, rpcpv1_ul.c:820-826. -/
  | sessNew
  /-- Put into / taken out of the table of sessions (one reference). -/
  | htAdd
  | htDel
  /-- Put into the registry of sessions (one reference). -/
  | wrtAdd
  /-- `RTPP_OBJ_DECREF(spa)`. -/
  | decref
  /-- The remaining reference is handed to the command, which gives it up when it is disposed of
  (rpcpv1_ul.c:879-880). -/
  | attach
  deriving DecidableEq, Repr

/-- `enum rtpp_cmd_op`. -/
inductive Op where
  | delete | record | play | noplay | copy | update | lookup | query | verFeature | getVer | deleteAll | info
  | getStats | norecord
  deriving DecidableEq, Repr

/-- What decides the course of `rtpp_command_ul_handle_impl`, rpcpv1_ul.c:648-994. -/
structure UlEnv where
  /-- `ulop->notify_socket != NULL`; `isenabled` of the notification set. -/
  notify : Bool
  tnEnabled : Bool
  /-- The condition at lines 684-686; `lppip != NULL`; results of the listener and of `reg_streams`. -/
  needPort : Bool
  packetport : Bool
  listenOk : Bool
  regOk : Bool
  /-- `cfsp->slowshutdown`; the test at lines 804-805 and the code configured. -/
  slow : Bool
  overload : Bool
  overloadCode : Nat
  ctorOk : Bool
  htOk : Bool
  wrtOk : Bool
  /-- `ulop->lpacketport != NULL`. -/
  lpp : Bool

/-- A subcommand to run after success: the lookup of rpcpv1_ul_subc.c:91-117, or one that neither replies nor touches
the tables in a way that matters here; `r` is its result. -/
inductive Sub where
  | look (u : UlEnv) (fmtOk : Bool)
  | other (r : Int)

/-- Reply only if the command has a reply object (`UL_FAIL`, rpcpv1_ul.c:672-676). -/
def ulFail (hasReply : Bool) (code : Nat) : List Ev := if hasReply then [.reply (.err code)] else []

/-- `handle_nomem`, rpcpv1_ul.c:606-615; it does not look whether there is a reply object. -/
def handleNomem (hasReply : Bool) (code : Nat) (log : List Ev) : Except Fault (List Ev × Int) :=
  if hasReply then .ok (log ++ [.decref, .reply (.err code)], -1) else .error .ub

/-- rpcpv1_ul.c:684-755, for a session found: `none` to carry on, `some code` if it fails. -/
def ulPort (u : UlEnv) : Option Nat :=
  if u.needPort then
    if u.packetport then (if u.regOk then none else some 89)
    else (if u.listenOk then none else some 71)
  else none

/-- rpcpv1_ul.c:773-881, for a session not found: the log so far and whether to carry on, or the final result. -/
def ulCreate (hasReply : Bool) (u : UlEnv) : Except Fault (List Ev × Option Int) :=
  if u.slow then .ok (ulFail hasReply 99, some (-1))
  else if u.overload then .ok (ulFail hasReply u.overloadCode, some (-1))
  else if !u.ctorOk then .ok (ulFail hasReply 72, some (-1))
  else if !u.htOk then (handleNomem hasReply 85 [.sessNew]).map fun r => (r.1, some r.2)
  else if !u.wrtOk then (handleNomem hasReply 88 [.sessNew, .htAdd, .htDel]).map fun r => (r.1, some r.2)
  else if u.lpp && !u.regOk then
    (handleNomem hasReply 89 [.sessNew, .htAdd, .wrtAdd]).map fun r => (r.1, some r.2)
  else .ok ([.sessNew, .htAdd, .wrtAdd, .attach], none)

/-- Lines 677-681: notification asked for but not permitted. -/
def ulNotifyOff (op : Op) (u : UlEnv) : Bool := op = .update && !u.tnEnabled && u.notify

/-- `rtpp_command_ul_handle_impl` without subcommands, as `rtpp_command_ul_as_subc` calls it. -/
def ulImpl0 (hasReply : Bool) (op : Op) (found : Bool) (u : UlEnv) : Except Fault (List Ev × Int) :=
  if ulNotifyOff op u then .ok (ulFail hasReply 75, -1)
  else if found then
    match ulPort u with
    | some c => .ok (ulFail hasReply c, -1)
    | none => .ok (if hasReply then [.reply .ok] else [], 0)
  else
    match ulCreate hasReply u with
    | .error e => .error e
    | .ok (log, some r) => .ok (log, r)
    | .ok (log, none) => .ok (log ++ (if hasReply then [.reply .ok] else []), 0)

/-- `rtpp_command_ul_as_subc`, rpcpv1_ul_subc.c:91-117: the session is there, and the command has no reply object. -/
def asSubc (u : UlEnv) (fmtOk : Bool) : Except Fault (List Ev × Int) :=
  match ulImpl0 false .lookup true u with
  | .error e => .error e
  | .ok (log, r) => .ok (log, if r = 0 then (if fmtOk then 0 else -1) else r)

/-- The loop at rpcpv1_ul.c:974-986 (and rpcpv1_query.c:258-294): run until one fails. -/
def runSubs : List Sub → Except Fault (List Ev)
  | [] => .ok []
  | .look u f :: ss =>
    match asSubc u f with
    | .error e => .error e
    | .ok (log, r) => if r ≠ 0 then .ok log else (runSubs ss).map (log ++ ·)
  | .other r :: ss => if r ≠ 0 then .ok [] else runSubs ss

/-- The end of `rtpp_command_ul_handle_impl`, lines 974-990, for the command itself. -/
def ulFinish (subs : List Sub) (log : List Ev) : Except Fault (List Ev) :=
  (runSubs subs).map fun l => log ++ l ++ [.reply .ok]

/-- `rtpp_command_ul_handle_impl`, rpcpv1_ul.c:648-994, for a command with a reply object. -/
def ulImpl (op : Op) (found : Bool) (u : UlEnv) (subs : List Sub) : Except Fault (List Ev) :=
  if ulNotifyOff op u then .ok [.reply (.err 75)]
  else if found then
    match ulPort u with
    | some c => .ok [.reply (.err c)]
    | none => ulFinish subs []
  else
    match ulCreate true u with
    | .error e => .error e
    | .ok (log, some _) => .ok log
    | .ok (log, none) => ulFinish subs log

/-- What decides the course of `handle_copy`, rpcpv1_copy.c:96-177, called for a command. -/
structure CopyEnv where
  remote : Bool
  replyPort : Bool
  single : Bool
  busy : Bool
  ctorOk : Bool
  rctorOk : Bool
  argsOk : Bool
  /-- `deliver_port_addr` had room for the address. -/
  fits : Bool

/-- `handle_copy`; `false` for `-1`. -/
def handleCopy (e : CopyEnv) : List Ev × Bool :=
  if e.replyPort && !e.remote then ([], false)
  else if !e.remote && e.single then
    if e.busy || !e.ctorOk then ([], false) else ([.reply .ok], true)
  else if e.remote && !e.argsOk then ([], false)
  else if !e.ctorOk then ([], false)
  else if !e.rctorOk then ([], false)
  else if e.replyPort && e.remote then (if e.fits then ([.reply .ok], true) else ([], false))
  else ([.reply .ok], true)

/-- What decides the course of `rtpp_command_play_handle`, rpcpv1_play.c:94-132. -/
structure PlayEnv where
  /-- The codecs are the word "session"; the stream has codecs saved. -/
  session : Bool
  saved : Bool
  countNZ : Bool
  playOk : Bool

def playHandle (e : PlayEnv) : List Ev :=
  if e.session && !e.saved then [.reply (.err 35), .free]
  else if e.countNZ && !e.playOk then [.reply (.err 60), .free]
  else [.reply .ok, .free]

/-- What decides the course of `handle_command`. -/
structure Env where
  /-- Option parsing: memory for the options, letters accepted (and the code if not). -/
  optMem : Bool
  optOk : Bool
  optCode : Nat
  /-- One for each subcommand: accepted by `rtpp_subcommand_ul_opts_parse`. -/
  subcOk : List Bool
  subs : List Sub
  /-- `handle_delete`, `handle_record`, `handle_norecord` or `find_stream` found something. -/
  found : Bool
  ul : UlEnv
  copy : CopyEnv
  play : PlayEnv
  /-- What stopped `handle_get_stats` or `handle_query`, if anything: the output buffer was full, or an unknown name. -/
  full : Bool
  unknown : Bool

/-- `handle_info`, rtpp_command.c:710-815. -/
def handleInfo (e : Env) : List Ev :=
  if !e.optOk then [.reply (.err 18)] else if e.full then [.reply (.err 86)] else [.reply .ok]

/-- `handle_get_stats`, rpcpv1_stats.c:54-80: the value returned. -/
def handleGetStats (e : Env) : List Ev × Nat :=
  if e.unknown then ([], 68) else if e.full then ([], 25) else ([.reply .ok], 0)

/-- `handle_query`, rpcpv1_query.c:115-302: the value returned. -/
def handleQuery (e : Env) : Except Fault (List Ev × Nat) :=
  if !e.optOk then .ok ([], 19)
  else if e.unknown then .ok ([], 62)
  else if e.full then .ok ([], 26)
  else (runSubs e.subs).map fun l => (l ++ [.reply .ok], 0)

/-- Step II of `handle_command`, rtpp_command.c:478-589: the log and whether the command is finished. -/
def parseOpts (op : Op) (e : Env) : List Ev × Bool :=
  match op with
  | .verFeature => ([.reply .ok], true)
  | .getVer => ([.reply .ok], true)
  | .deleteAll => ([.reply .ok], true)
  | .info => (handleInfo e, true)
  | .play =>
    -- rpcpv1_play.c:57-85
    if !e.optMem then ([.reply (.err 81)], true)
    else if !e.optOk then ([.alloc, .reply (.err 17), .free], true)
    else ([.alloc], false)
  | .copy | .record | .delete =>
    -- the options object is attached to the command
    if !e.optMem then ([.reply (.err 81)], true)
    else if !e.optOk then ([.reply (.err e.optCode)], true)
    else ([], false)
  | .norecord => if !e.optOk then ([.reply (.err e.optCode)], true) else ([], false)
  | .update | .lookup =>
    -- rpcpv1_ul.c:588-604
    if !e.optMem then ([.reply (.err 81)], true)
    else if !e.optOk then ([.alloc, .free, .reply (.err e.optCode)], true)
    else ([.alloc], false)
  | .getStats =>
    if !e.optOk then ([.reply (.err 9)], true)
    else
      let r := handleGetStats e
      (r.1 ++ (if r.2 ≠ 0 then [.reply (.err r.2)] else []), true)
  | .noplay | .query => ([], false)

def Op.isUl (op : Op) : Bool := op = .update || op = .lookup

/-- The loop over the subcommands, rtpp_command.c:591-600: `none` if all are accepted. -/
def parseSubs (op : Op) (e : Env) : Option (List Ev) :=
  if e.subcOk.all id then none else some ((if op.isUl then [.free] else []) ++ [.reply (.err 3)])

/-- The last part of `handle_command`, rtpp_command.c:667-705. -/
def run (op : Op) (e : Env) : Except Fault (List Ev) :=
  match op with
  | .delete | .norecord => .ok [.reply .ok]
  | .noplay => .ok [.reply .ok]
  | .play => .ok (playHandle e.play)
  | .copy =>
    let r := handleCopy e.copy
    .ok (r.1 ++ (if r.2 then [] else [.reply (.err 65)]))
  | .record => .ok []
  | .query =>
    match handleQuery e with
    | .error f => .error f
    | .ok (l, c) => .ok (l ++ (if c ≠ 0 then [.reply (.err c)] else []))
  | .lookup | .update => (ulImpl op e.found e.ul e.subs).map (· ++ [.free])
  | _ => .error .abort

/-- Lines 606-665: the lookup, and what happens when nothing is found; `none` to carry on. -/
def lookFor (op : Op) (e : Env) : List Ev × Bool :=
  -- `handle_record` delivers the reply itself, rpcpv1_record.c:104
  let l : List Ev := if op = .record ∧ e.found then [.reply .ok] else []
  if !e.found && op ≠ .update then
    match op with
    | .lookup => ([.free, .reply .noport], true)
    | .play => ([.free, .reply (.err 50)], true)
    | _ => ([.reply (.err 50)], true)
  else (l, false)

/-- `handle_command`, rtpp_command.c:465-708. -/
def handle (op : Op) (e : Env) : Except Fault (List Ev) :=
  let a := parseOpts op e
  if a.2 then .ok a.1
  else
    match parseSubs op e with
    | some l => .ok (a.1 ++ l)
    | none =>
      let b := lookFor op e
      if b.2 then .ok (a.1 ++ b.1) else (run op e).map fun l => a.1 ++ b.1 ++ l

/-! ## The counters -/

/-- The counters that matter here, of `struct rtpp_command_stats` (the command thread's own) or of `rtpp_stats`;
unbounded. -/
structure Cnt where
  rcvd : Nat
  ndups : Nat
  succd : Nat
  errs : Nat
  repld : Nat
  deriving DecidableEq, Repr

def Cnt.zero : Cnt := ⟨0, 0, 0, 0, 0⟩
def Cnt.add (a b : Cnt) : Cnt :=
  ⟨a.rcvd + b.rcvd, a.ndups + b.ndups, a.succd + b.succd, a.errs + b.errs, a.repld + b.repld⟩

/-- The counting at the end of `rtpc_reply_deliver`, rtpp_command_reply.c:158-163. -/
def Cnt.deliver (c : Cnt) (r : Rep) : Cnt :=
  if r.errd then { c with repld := c.repld + 1, errs := c.errs + 1 }
  else { c with repld := c.repld + 1, succd := c.succd + 1 }

def Cnt.apply (c : Cnt) : List Ev → Cnt
  | [] => c
  | .reply r :: es => Cnt.apply (c.deliver r) es
  | _ :: es => Cnt.apply c es

structure St where
  /-- The thread's own counters, moved into the shared ones now and then. -/
  own : Cnt
  shared : Cnt
  deriving DecidableEq, Repr

def St.init : St := ⟨.zero, .zero⟩

/-- `flush_cstats`, rtpp_command_async.c:141-155. -/
def St.flush (s : St) : St := ⟨.zero, s.shared.add s.own⟩

/-- What arrives at the command thread. -/
inductive In where
  /-- Datagram, and no memory for the command: `get_command`, rtpp_command.c:317-322. -/
  | nomemDgram
  /-- Stream, and no memory for the command: `rcs_reply_nomem`, rtpp_command_stream.c:107-119; was the reply written? -/
  | nomemStream (written : Bool)
  /-- A retransmission: rtpp_command.c:379, 352-359. -/
  | dup
  /-- The reply cache could not be borrowed: rtpp_command.c:379, 345-347. -/
  | noBorrow
  /-- A message that `rtpp_command_split` or `rtpp_command_pre_parse` refuses with `code`: rtpp_command.c:379, 456-461;
  rtpp_command_parse.c:252-280. -/
  | refused (code : Nat)
  | cmd (op : Op) (e : Env)
  /-- The end of a round of `rtpp_cmd_queue_run`, rtpp_command_async.c. -/
  | idle

/-- One turn of `process_commands` or `process_commands_stream`. -/
def step (s : St) : In → Except Fault St
  | .nomemDgram => .ok { s with own := { s.own with rcvd := s.own.rcvd + 1, errs := s.own.errs + 1 } }
  | .nomemStream w =>
    .ok { s with own := { s.own with errs := s.own.errs + 1, repld := s.own.repld + (if w then 1 else 0) } }
  | .dup => .ok { s with own := { s.own with rcvd := s.own.rcvd + 1 - 1, ndups := s.own.ndups + 1 } }
  | .noBorrow => .ok { s with own := { s.own with rcvd := s.own.rcvd + 1 } }
  | .refused c => .ok { s with own := { s.own with rcvd := s.own.rcvd + 1 }.deliver (.err c) }
  | .cmd op e =>
    let s : St := { s with own := { s.own with rcvd := s.own.rcvd + 1 } }
    let s := if op = .getStats ∨ op = .info then s.flush else s
    match handle op e with
    | .error f => .error f
    | .ok log => .ok { s with own := s.own.apply log }
  | .idle => .ok s.flush

def runAll (s : St) : List In → Except Fault St
  | [] => .ok s
  | i :: is => match step s i with
    | .error f => .error f
    | .ok s' => runAll s' is

end Verif.Counters
