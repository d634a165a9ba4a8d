import Verif.Hash.Model

/-!
# Model of the session table and of the commands and timers acting on it

`src/rtpp_session.c` (tags, look-up), `src/commands/rpcpv1_delete.c`, the parts of
`src/commands/rpcpv1_ul.c` that create a session or add a hold to it, `src/rtpp_proc_ttl.c`,
`src/rtpp_ttl.c` and the timer part of `src/rtpp_pipe.c`.

A session is addressed by a number that stands both for its pointer and for its unique
id `seuid`.  The session table is the hash table of `Hash/Model.lean` keyed by call-id, the
registry `sessions_wrt` the list of registered ids (that it is a map is C53).  Tags are byte
strings without NUL (the command splitter refuses NUL inside an argument, C15), so
`strrchr`/`strcmp` see the same text as `memcmp`.  Left out: sockets, addresses, notification,
statistics, logging (and with it `medianum`, which is only logged), failures of `malloc` for a
session or a table entry.
-/

namespace Verif.Sess

abbrev Bytes := List UInt8

/-- `';'` -/
def semi : UInt8 := 59

/-- `compare_session_tags`, rtpp_session.c:341-358.  `tag1` is the tag of the session.  For an omitted
argument `tag0->s` is `NULL` with length 0; `memcmp` of no bytes is taken to be 0. -/
def compareTags (tag1 tag0 : Bytes) : Nat :=
  if tag1.length < tag0.length then 0
  else if tag1.take tag0.length = tag0 then
    if tag1.length = tag0.length then 1
    else if tag1[tag0.length]? = some semi then 2 else 0
  else 0

/-- `strrchr(s, c)`: the suffix from the last occurrence on. -/
def strrchr (c : UInt8) : Bytes → Option Bytes
  | [] => none
  | b :: s => match strrchr c s with
    | some r => some r
    | none => if b = c then some (b :: s) else none

/-- Return value `map->rval` of `rtpp_session_ematch`, rtpp_session.c:367-412, for a session with tag
`st`; `none` is `RTPP_HT_MATCH_CONT`.  `cp1 == NULL` in `strcmp(cp1, cp2)` would be undefined. -/
def ematch (ft : Bytes) (tt : Option Bytes) (st : Bytes) : Except Fault (Option Nat) :=
  if st.length = ft.length ∧ st.take st.length = ft.take st.length then .ok (some 0)
  else match tt with
    | none => .ok none
    | some t =>
      match compareTags st t with
      | 1 => .ok (some 1)
      | 2 => match strrchr semi ft with
        | none => .ok none
        | some c2 => match strrchr semi st with
          | none => .error .ub
          | some c1 => if c1 = c2 then .ok (some 1) else .ok none
      | _ => .ok none

/-- The modelled fields of `struct rtpp_session` and of its two RTP streams.  `ttl i`/`maxTtl i` is timer `i`;
with `shared` both streams use timer 0 (rtpp_session.c:176-189). -/
structure Sess where
  fromTag : Bytes
  strong : Bool
  weak : Bool → Bool
  complete : Bool
  shared : Bool
  ttl : Bool → Int
  maxTtl : Bool → Int
  streamTtl : Bool → Int

/-- Direction index of the C code: stream 0 is `false`, stream 1 is `true`. -/
def cell (s : Sess) (d : Bool) : Bool := if s.shared then false else d

def upd {α : Type} (f : Bool → α) (i : Bool) (v : α) : Bool → α := fun j => if j = i then v else f j

/-- `rtpp_ttl_reset` of the timer of stream `d`, rtpp_ttl.c:84-93. -/
def ttlReset (s : Sess) (d : Bool) : Sess := { s with ttl := upd s.ttl (cell s d) (s.maxTtl (cell s d)) }

/-- `rtpp_ttl_reset_with`, rtpp_ttl.c:95-103. -/
def ttlResetWith (s : Sess) (d : Bool) (v : Int) : Sess :=
  { s with ttl := upd s.ttl (cell s d) v, maxTtl := upd s.maxTtl (cell s d) v }

/-- `rtpp_ttl_get_remaining`, rtpp_ttl.c:105-116. -/
def ttlRemaining (s : Sess) (d : Bool) : Int :=
  let r := s.ttl (cell s d)
  if r < 0 then 0 else r

/-- `rtpp_ttl_decr`, rtpp_ttl.c:118-129 (an `int` counter; below it is only called above zero). -/
def ttlDecr (s : Sess) (d : Bool) : Sess := { s with ttl := upd s.ttl (cell s d) (s.ttl (cell s d) - 1) }

/-- `rtpp_pipe_get_ttl`, rtpp_pipe.c:166-174. -/
def pipeTtl (s : Sess) : Int :=
  let a := ttlRemaining s false
  let b := ttlRemaining s true
  if a < b then a else b

/-- `rtpp_pipe_decr_ttl`, rtpp_pipe.c:176-183. -/
def pipeDecr (s : Sess) : Sess :=
  let s1 := ttlDecr s false
  if s.shared then s1 else ttlDecr s1 true

/-- Does anything still hold the session?  The test of rtpp_cmd_delete_ematch, rpcpv1_delete.c:107. -/
def holds (s : Sess) : Bool := s.strong || s.weak false || s.weak true

structure World where
  ht : Hash.Table Bytes Nat
  heap : Nat → Sess
  /-- ids registered in `sessions_wrt` -/
  wrt : List Nat
  next : Nat

/-- Settings: `ttl_mode == TTL_UNIFIED`, `max_setup_ttl`, `max_ttl`. -/
structure Conf where
  hash : Bytes → Nat
  shared : Bool
  setupTtl : Int
  maxTtl : Int

/-- The session table: string keys, duplicates allowed (main.c:993). -/
def htCfg (c : Conf) : Hash.Cfg Bytes := ⟨c.hash, true, false, false⟩

def setS (h : Nat → Sess) (p : Nat) (s : Sess) : Nat → Sess := fun q => if q = p then s else h q

/-- Start-up: empty tables (main.c:397, 993). -/
def world0 : World := ⟨Hash.init, fun _ => ⟨[], false, fun _ => false, false, false, fun _ => 0, fun _ => 0, fun _ => 0⟩, [], 0⟩

/-- `rtpp_session_ematch` as a callback: the state of the traversal is the result so far (session, `rval`); an
undefined comparison is carried as a fault. -/
def findCb (heap : Nat → Sess) (ft : Bytes) (tt : Option Bytes) (p : Nat) (st : Except Fault (Option (Nat × Nat))) :
    Except Fault (Option (Nat × Nat)) × Hash.MVal :=
  match ematch ft tt (heap p).fromTag with
  | .error e => (.error e, ⟨false, true⟩)
  | .ok none => (st, ⟨false, false⟩)
  | .ok (some r) => (.ok (some (p, r)), ⟨false, true⟩)

/-- `find_stream`, rtpp_session.c:414-431. -/
def findStream (c : Conf) (w : World) (cid ft : Bytes) (tt : Option Bytes) : Except Fault (Option (Nat × Nat)) :=
  match Hash.foreachKey (htCfg c) w.ht cid (findCb w.heap ft tt) (.ok none) with
  | .error e => .error e
  | .ok (_, r) => r

/-- `struct delete_ematch_arg.res` and the memory. -/
structure DelSt where
  heap : Nat → Sess
  ndeleted : Nat
  spa : Option Nat
  cmpr : Nat

/-- Does a session with tag `st` match the tags of the DELETE?  Index of the stream whose weak hold is meant and
the result of the comparison, rpcpv1_delete.c:86-97. -/
def delMatch (ft : Bytes) (tt : Option Bytes) (st : Bytes) : Option (Bool × Nat) :=
  if compareTags st ft ≠ 0 then some (true, compareTags st ft)
  else match tt with
    | some t => if compareTags st t ≠ 0 then some (false, compareTags st t) else none
    | none => none

/-- Give up one hold, rpcpv1_delete.c:99-102. -/
def clearHold (weak idx : Bool) (s : Sess) : Sess :=
  if weak then { s with weak := upd s.weak idx false } else { s with strong := false }

/-- `rtpp_cmd_delete_ematch`, rpcpv1_delete.c:75-123. -/
def deleteEmatch (ft : Bytes) (tt : Option Bytes) (weak : Bool) (p : Nat) (st : DelSt) : DelSt × Hash.MVal :=
  match delMatch ft tt (st.heap p).fromTag with
  | none => (st, ⟨false, false⟩)
  | some (idx, cmpr) =>
    let s' := clearHold weak idx (st.heap p)
    let h' := setS st.heap p s'
    if holds s' then ({ st with heap := h', ndeleted := st.ndeleted + 1 }, ⟨false, false⟩)
    else ({ st with heap := h', spa := some p, cmpr := cmpr }, ⟨true, true⟩)

/-- The loop of `do_delete`, rpcpv1_delete.c:130-148.  `gone` collects the sessions removed from the table.
The loop of the C code is not bounded; `fuel` is, and running out of it (shown never to happen) is reported as
a fault. -/
def deleteLoop (c : Conf) (cid ft : Bytes) (tt : Option Bytes) (weak : Bool) :
    Nat → Hash.Table Bytes Nat → List Nat → DelSt → List Nat →
    Except Fault (Hash.Table Bytes Nat × List Nat × DelSt × List Nat)
  | 0, _, _, _, _ => .error .ub
  | fuel + 1, ht, wrt, st, gone =>
    match Hash.foreachKey (htCfg c) ht cid (deleteEmatch ft tt weak) st with
    | .error e => .error e
    | .ok (ht', st') =>
      match st'.spa with
      | none => .ok (ht', wrt, st', gone)
      | some p =>
        let n := if wrt.contains p then st'.ndeleted + 1 else st'.ndeleted
        let st'' : DelSt := { st' with ndeleted := n, spa := none }
        if st'.cmpr = 2 then deleteLoop c cid ft tt weak fuel ht' (wrt.filter (· != p)) st'' (gone ++ [p])
        else .ok (ht', wrt.filter (· != p), st'', gone ++ [p])

/-- `handle_delete`/`do_delete`, rpcpv1_delete.c:130-163: success and the sessions removed. -/
def handleDelete (c : Conf) (w : World) (cid ft : Bytes) (tt : Option Bytes) (weak : Bool) :
    Except Fault (World × Bool × List Nat) :=
  match deleteLoop c cid ft tt weak (w.ht.l1.num + 1) w.ht w.wrt ⟨w.heap, 0, none, 0⟩ [] with
  | .error e => .error e
  | .ok (ht, wrt, st, gone) =>
    .ok ({ w with ht := ht, wrt := wrt, heap := st.heap }, st.ndeleted != 0, gone)

/-- `rtpp_proc_ttl_foreach`, rtpp_proc_ttl.c:82-109.  State: memory, registry, sessions removed. -/
def ttlForeach (p : Nat) (st : (Nat → Sess) × List Nat × List Nat) :
    ((Nat → Sess) × List Nat × List Nat) × Hash.MVal :=
  if pipeTtl (st.1 p) = 0 then ((st.1, st.2.1.filter (· != p), st.2.2 ++ [p]), ⟨true, false⟩)
  else ((setS st.1 p (pipeDecr (st.1 p)), st.2.1, st.2.2), ⟨false, false⟩)

/-- `rtpp_proc_ttl`, rtpp_proc_ttl.c:111-116: one tick. -/
def tick (w : World) : Except Fault (World × List Nat) :=
  match Hash.foreach w.ht ttlForeach (w.heap, w.wrt, []) with
  | .error e => .error e
  | .ok (ht, _, st) => .ok ({ w with ht := ht, heap := st.1, wrt := st.2.1 }, st.2.2)

/-- What becomes of the listening socket of the stream in an UPDATE or LOOKUP of an existing session,
rpcpv1_ul.c:672-756: kept, (re)created, or the creation failed. -/
inductive Listen where
  | keep
  | fresh
  | failed
  deriving DecidableEq, Repr

/-- UPDATE or LOOKUP of an existing session on stream `d`, rpcpv1_ul.c:668-777. -/
def ulExisting (s : Sess) (d update weak : Bool) : Listen → Option Sess
  | .failed => none
  | l =>
    let s1 : Sess := if l = .fresh then
        let s0 := if s.complete then s
          else ttlResetWith (ttlResetWith s false (s.streamTtl false)) true (s.streamTtl true)
        { s0 with complete := true }
      else s
    let s2 : Sess := if weak then { s1 with weak := upd s1.weak d true }
      else if update then { s1 with strong := true } else s1
    some (ttlReset (ttlReset s2 false) true)

/-- A new session, rtpp_session.c:160-189, 93-; `stream_ttl` from rtpp_stream.c:356. -/
def newSess (c : Conf) (ft : Bytes) (weak : Bool) : Sess :=
  { fromTag := ft, strong := !weak, weak := fun d => weak && !d, complete := false, shared := c.shared,
    ttl := fun _ => c.setupTtl, maxTtl := fun _ => c.setupTtl, streamTtl := fun _ => c.maxTtl }

/-- `rtpp_subc_set_handler` for `ttl`, rpcpv1_ul_subc_set.c:99-105, on stream `d` and its opposite. -/
def setTtl (s : Sess) (d : Bool) (v : Int) : Sess :=
  let s1 := { s with streamTtl := if s.shared then fun _ => v else upd s.streamTtl d v }
  ttlResetWith s1 d v

/-- The to-tag handed to the look-up (`cmd->cca.to_tag`).  `rtpp_command_pre_parse` points it at the argument
slot whether or not the argument was given (rtpp_command_parse.c:287-289; an unused slot is `{NULL, 0}`); only
UPDATE and LOOKUP correct that (rpcpv1_ul.c:538-577, 601). -/
def toTagArg (isUL : Bool) (arg : Option Bytes) : Option Bytes :=
  if isUL then arg else some (arg.getD [])

/-- What can happen to the table. -/
inductive Ev where
  /-- UPDATE (`update`) or LOOKUP with options; `mem`: memory for growing the table is available -/
  | ul (update : Bool) (cid ft : Bytes) (tt : Option Bytes) (weak : Bool) (l : Listen) (mem : Bool)
  /-- a command that only looks a session up -/
  | look (cid ft : Bytes) (tt : Option Bytes)
  | delete (cid ft : Bytes) (tt : Option Bytes) (weak : Bool)
  /-- `X`: delete everything, rtpp_command.c:489-495 -/
  | deleteAll
  /-- a packet arrived on stream `d` of session `p`, rtpp_proc_async.c:275 -/
  | packet (p : Nat) (d : Bool)
  | setTtl (p : Nat) (d : Bool) (v : Int)
  | tick

inductive Out where
  | created (p : Nat) (cid ft : Bytes)
  /-- an existing session was found (and, for UPDATE/LOOKUP, used) -/
  | found (p : Nat) (leg : Nat)
  | notFound
  | failed
  | deleted (ok : Bool) (gone : List Nat)
  | purged
  | expired (gone : List Nat)
  | unit
  deriving DecidableEq, Repr

/-- One event.  For LOOKUP the stream is the opposite one (rtpp_command.c:622-625). -/
def step (c : Conf) (w : World) : Ev → Except Fault (World × Out)
  | .ul update cid ft tt weak l mem =>
    match findStream c w cid ft tt with
    | .error e => .error e
    | .ok (some (p, r)) =>
      let d : Bool := if update then decide (r = 1) else !decide (r = 1)
      match ulExisting (w.heap p) d update weak l with
      | none => .ok (w, .failed)
      | some s => .ok ({ w with heap := setS w.heap p s }, .found p r)
    | .ok none =>
      if update then
        if l = .failed then .ok (w, .failed)
        else match Hash.append (htCfg c) w.ht cid w.next mem with
        | .error e => .error e
        | .ok (ht, none, _) => .ok ({ w with ht := ht }, .failed)
        | .ok (ht, some _, _) =>
          .ok ({ w with ht := ht, heap := setS w.heap w.next (newSess c ft weak), wrt := w.wrt ++ [w.next],
                        next := w.next + 1 }, .created w.next cid ft)
      else .ok (w, .notFound)
  | .look cid ft tt =>
    match findStream c w cid ft tt with
    | .error e => .error e
    | .ok (some (p, r)) => .ok (w, .found p r)
    | .ok none => .ok (w, .notFound)
  | .delete cid ft tt weak =>
    match handleDelete c w cid ft tt weak with
    | .error e => .error e
    | .ok (w', ok, gone) => .ok (w', .deleted ok gone)
  | .deleteAll =>
    match Hash.purge (w.ht.l1.num + 1) w.ht with
    | .error e => .error e
    | .ok (ht, _, _) => .ok ({ w with ht := ht, wrt := [] }, .purged)
  | .packet p d => .ok ({ w with heap := setS w.heap p (ttlReset (w.heap p) d) }, .unit)
  | .setTtl p d v => .ok ({ w with heap := setS w.heap p (setTtl (w.heap p) d v) }, .unit)
  | .tick =>
    match tick w with
    | .error e => .error e
    | .ok (w', gone) => .ok (w', .expired gone)

/-- A history. -/
def run (c : Conf) (w : World) : List Ev → Except Fault (World × List Out)
  | [] => .ok (w, [])
  | e :: es =>
    match step c w e with
    | .error f => .error f
    | .ok (w', o) =>
      match run c w' es with
      | .error f => .error f
      | .ok (w'', os) => .ok (w'', o :: os)

end Verif.Sess
