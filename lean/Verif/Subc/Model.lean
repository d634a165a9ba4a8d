import Verif.Str.Num

/-!
# Model of the subcommands of `U`, `L` and `Q` acting on one session

`src/commands/rpcpv1_ul_subc.c`, `src/commands/rpcpv1_ul_subc_set.c`, the parts of `rtpp_command_ul_handle_impl`
(rpcpv1_ul.c:648-994) that concern timers, types of service and the order of subcommands, the loop of `handle_query`
(rpcpv1_query.c:256-290), `src/rtpp_ttl.c`.

One session, whose two directions ("legs") are `false` for stream 0 and `true` for stream 1.  A command is one step: there
is one command thread.  Packets restart a timer from other threads in two steps, a load and a store (rtpp_ttl.c:84-93).
What the system answers (listener created, option set) is a parameter of the commands.  Left out: packet ports (library
only), addresses, recording, weak and strong holds (C23), allocation failures.  The subcommands `M`, `C` and `D` are left
out but for their result: they do not change timers or types of service.
-/

namespace Verif.Subc

/-- `enum rtpp_subcommand_set_param`. -/
inductive Param where
  | ttl | tos
  deriving DecidableEq, Repr

/-- `struct rtpp_subcommand_set`. -/
structure Set_ where
  rev : Bool
  param : Param
  val : Int
  deriving DecidableEq, Repr

/-- `handle_set_subc_parse`, rpcpv1_ul_subc_set.c:125-157: `m` is what follows the letter `S`, `v` the argument. -/
def parseSet (m v : List UInt8) : Option Set_ :=
  let rev := m.head? = some 114 ∨ m.head? = some 82
  if v.length < 5 then none
  else
    match (if v.take 4 = [116, 116, 108, 61] then some Param.ttl
      else if v.take 4 = [116, 111, 115, 61] then some Param.tos else none) with
    | none => none
    | some p => match Str.atoiSafe (v.drop 4) with
      | .ok n => if n ≤ 0 then none else some ⟨rev, p, n⟩
      | _ => none

/-- The case `S` of `rtpp_subcommand_ul_opts_parse`, rpcpv1_ul_subc.c:219-231, for the arguments of a subcommand. -/
def parseS (args : List (List UInt8)) : Option Set_ :=
  match args with
  | [v0, v1] => if v0.length < 1 ∨ v0.length > 2 then none else parseSet (v0.drop 1) v1
  | _ => none

structure Sess where
  /-- One timer for both directions (rtpp_session.c:176-189): timer `false`. -/
  shared : Bool
  complete : Bool
  ttl : Bool → Int
  maxTtl : Bool → Int
  /-- `stream_ttl` of the RTP streams. -/
  streamTtl : Bool → Int
  /-- The address the stream listens on is an `AF_INET` one. -/
  v4 : Bool → Bool
  /-- `tos` of the RTP and the RTCP streams. -/
  tos : Bool → Int
  tosC : Bool → Int
  /-- The sockets, if there are any, with the type of service they were given. -/
  sock : Bool → Option Int
  sockC : Bool → Option Int

def upd {α : Type} (f : Bool → α) (i : Bool) (v : α) : Bool → α := fun j => if j = i then v else f j

/-- The timer of a stream. -/
def cell (s : Sess) (d : Bool) : Bool := if s.shared then false else d

/-- `rtpp_ttl_reset`, rtpp_ttl.c:84-93. -/
def reset (s : Sess) (d : Bool) : Sess := { s with ttl := upd s.ttl (cell s d) (s.maxTtl (cell s d)) }

/-- `rtpp_ttl_reset_with`, rtpp_ttl.c:95-103. -/
def resetWith (s : Sess) (d : Bool) (v : Int) : Sess :=
  { s with ttl := upd s.ttl (cell s d) v, maxTtl := upd s.maxTtl (cell s d) v }

/-- What is asked for by a look-up and what the system answers. -/
structure Look where
  /-- `ulop->new_port`. -/
  newPort : Bool
  /-- The family of the address to listen on, if the command changes it (rpcpv1_ul.c:700-704). -/
  fam : Option Bool
  /-- `rtpp_create_listener` succeeds; `settos` of its sockets succeeds. -/
  listenOk : Bool
  tosOk : Bool

/-- A socket created with a type of service, rtpp_command.c:133-135: zero unless it is set. -/
def newSock (v4 ok : Bool) (tos : Int) : Int := if v4 ∧ 0 ≤ tos ∧ ok then tos else 0

/-- The address to listen on is changed, rpcpv1_ul.c:700-704. -/
def relocate (s : Sess) (sidx : Bool) (l : Look) : Sess := match l.fam with
  | none => s
  | some f => { s with v4 := upd s.v4 sidx f }

/-- New sockets for a stream, and its session is complete, rpcpv1_ul.c:713-738. -/
def listen (s : Sess) (sidx : Bool) (l : Look) : Sess :=
  let t := newSock (s.v4 sidx) l.tosOk (s.tos sidx)
  let s1 := { s with sock := upd s.sock sidx (some t), sockC := upd s.sockC sidx (some t) }
  let s2 := if s.complete then s1 else resetWith (resetWith s1 false (s.streamTtl false)) true (s.streamTtl true)
  { s2 with complete := true }

/-- The part of `rtpp_command_ul_handle_impl` for a session found, rpcpv1_ul.c:683-777: `false` for an error. -/
def look (s : Sess) (sidx : Bool) (l : Look) : Sess × Bool :=
  if s.sock sidx = none ∨ l.newPort then
    if l.listenOk = false then (relocate s sidx l, false)
    else (reset (reset (listen (relocate s sidx l) sidx l) false) true, true)
  else (reset (reset s false) true, true)

/-- The subcommands. -/
inductive Sub where
  /-- `S`; the two calls of `settos` succeed or not. -/
  | set (x : Set_) (ok okC : Bool)
  /-- `L`. -/
  | look (l : Look)
  /-- `M`, `C`, `D` and their result. -/
  | other (r : Int)

/-- `strmp_settos`, rpcpv1_ul_subc_set.c:55-72, of the RTP stream. -/
def setTos (s : Sess) (d : Bool) (v : Int) (ok : Bool) : Sess × Bool :=
  if s.v4 d = false then (s, false)
  else match s.sock d with
    | none => ({ s with tos := upd s.tos d v }, true)
    | some _ => if ok = false then (s, false) else ({ s with sock := upd s.sock d (some v), tos := upd s.tos d v }, true)

/-- The same of the RTCP stream, which listens on the same address. -/
def setTosC (s : Sess) (d : Bool) (v : Int) (ok : Bool) : Sess × Bool :=
  if s.v4 d = false then (s, false)
  else match s.sockC d with
    | none => ({ s with tosC := upd s.tosC d v }, true)
    | some _ => if ok = false then (s, false) else ({ s with sockC := upd s.sockC d (some v), tosC := upd s.tosC d v }, true)

/-- `rtpp_subcommand_set_handler`, rpcpv1_ul_subc_set.c:74-123; `inn` is the index of `strmp_in`. -/
def setH (s : Sess) (inn : Bool) (x : Set_) (ok okC : Bool) : Sess × Bool :=
  let d := if x.rev then !inn else inn
  match x.param with
  | .ttl =>
    let s1 := { s with streamTtl := upd s.streamTtl d x.val }
    let s2 := if s1.shared then { s1 with streamTtl := upd s1.streamTtl (!d) x.val } else s1
    (resetWith s2 d x.val, true)
  | .tos => match setTos s d x.val ok with
    | (s1, false) => (s1, false)
    | (s1, true) => setTosC s1 d x.val okC

/-- One subcommand: the session, `strmp_in`, the result.  `rtpp_command_ul_as_subc`, rpcpv1_ul_subc.c:91-124. -/
def sub1 (s : Sess) (inn : Bool) : Sub → Sess × Bool × Int
  | .set x ok okC => match setH s inn x ok okC with
    | (s', true) => (s', inn, 0)
    | (s', false) => (s', inn, -1)
  | .look l => match look s inn l with
    | (s', true) => (s', !inn, 0)
    | (s', false) => (s', inn, -1)
  | .other r => (s, inn, r)

/-- The loop, rpcpv1_ul.c:969-981, rpcpv1_query.c:261-290: the session and the results of those that were run. -/
def subs (s : Sess) (inn : Bool) : List Sub → Sess × List Int
  | [] => (s, [])
  | x :: xs =>
    let (s1, inn1, r) := sub1 s inn x
    if r ≠ 0 then (s1, [r])
    else
      let (s2, rs) := subs s1 inn1 xs
      (s2, r :: rs)

/-- The configuration: `max_setup_ttl`, `max_ttl`, `tos`, `ttl_mode`. -/
structure Conf where
  setup : Int
  max : Int
  tos : Int
  shared : Bool

/-- A new session, rtpp_session.c:106-200, rtpp_stream.c:352-356; the families are those of `lia[0]` and `lia[1]`. -/
def create (c : Conf) (v4a v4b tosOk : Bool) : Sess :=
  let t := newSock v4a tosOk c.tos
  ⟨c.shared, false, fun _ => c.setup, fun _ => c.setup, fun _ => c.max, fun d => if d then v4b else v4a,
    fun _ => c.tos, fun _ => c.tos, fun d => if d then none else some t, fun d => if d then none else some t⟩

/-- Commands for a session that exists.  The index is what the tags amount to (C22); for `L` and `Q` it is the other
one (rtpp_command.c:618-622). -/
inductive Cmd where
  /-- `U` or `L` for stream `sidx`. -/
  | ul (sidx : Bool) (l : Look) (xs : List Sub)
  /-- `Q`. -/
  | q (idx : Bool) (xs : List Sub)

/-- A command: the results of its subcommands, `none` if it fails. -/
def cmd (s : Sess) : Cmd → Sess × Option (List Int)
  | .ul sidx l xs => match look s sidx l with
    | (s1, false) => (s1, none)
    | (s1, true) =>
      let (s2, rs) := subs s1 (!sidx) xs
      (s2, some rs)
  | .q idx xs =>
    let (s2, rs) := subs s idx xs
    (s2, some rs)

/-- The session with the packets whose `rtpp_ttl_reset` has loaded a maximum and not stored it. -/
structure St where
  s : Sess
  pk : List (Bool × Int)

inductive Ev where
  | cmd (c : Cmd)
  /-- A packet of stream `d`: `atomic_load(max_ttl)`; the `k`-th such packet: `atomic_store(ttl)`. -/
  | load (d : Bool)
  | store (k : Nat)
  /-- `rtpp_pipe_decr_ttl`, rtpp_pipe.c:176-183, of a session that has not run out. -/
  | tick

def decr (s : Sess) : Sess :=
  if s.shared then { s with ttl := upd s.ttl false (s.ttl false - 1) }
  else { s with ttl := fun d => s.ttl d - 1 }

def step (st : St) : Ev → Option St
  | .cmd c => some { st with s := (cmd st.s c).1 }
  | .load d => some { st with pk := st.pk ++ [(cell st.s d, st.s.maxTtl (cell st.s d))] }
  | .store k => match st.pk[k]? with
    | none => none
    | some (c, v) => some ⟨{ st.s with ttl := upd st.s.ttl c v }, st.pk.eraseIdx k⟩
  | .tick => some { st with s := decr st.s }

/-- A history: the new session with the subcommands that came with `U` (for which `strmp_in` is stream 1,
rpcpv1_ul.c:662), and what followed. -/
def run (st : St) : List Ev → Option St
  | [] => some st
  | e :: es => match step st e with
    | none => none
    | some st' => run st' es

def start (c : Conf) (v4a v4b tosOk : Bool) (xs : List Sub) : St := ⟨(subs (create c v4a v4b tosOk) true xs).1, []⟩

end Verif.Subc
