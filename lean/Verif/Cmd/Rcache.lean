import Verif.Hash.Model

/-!
# Model of the cache of replies (src/rtpp_command_rcache.c)

The table is the one of `Hash/Model.lean` with string keys and `RTPP_HT_NODUPS` (release build: no
`RTPP_HT_DUP_ABRT`, rtpp_command_rcache.c:81-86).  Clock readings and the retention time are exact integers of
an arbitrary unit, not `double`s.  An entry holds the reply text; the code holds a pointer to the buffer
of the reply together with a reference to it, and a reply is delivered once.  Reference counting is
the subject of `Refcnt/`.

Commands are processed one after another by one thread (rtpp_command_async.c:377-470); the clean-up runs
in the thread of the timer, so it may fall between the look-up and the insertion made for a command.
-/

namespace Verif.Cmd

abbrev Bytes := List UInt8

/-- `struct rtpp_cmd_rcache_entry_pvt`, rtpp_command_rcache.c:58-63. -/
structure CEnt where
  reply : Bytes
  etime : Int
  deriving DecidableEq, Repr

abbrev Cache := Hash.Table Bytes CEnt

/-- The table made by `rtpp_cmd_rcache_ctor`, rtpp_command_rcache.c:72-113. -/
def rcCfg (hash : Bytes → Nat) : Hash.Cfg Bytes := ⟨hash, true, true, false⟩

def cacheNew : Cache := Hash.init

/-- `rtpp_cmd_rcache_insert`, rtpp_command_rcache.c:124-149.  `memOk`: the allocation of the entry;
`growOk`: the one made when the table grows. -/
def cacheInsert (hash : Bytes → Nat) (ttl : Int) (c : Cache) (cookie reply : Bytes) (ctime : Int)
    (memOk growOk : Bool) : Except Fault Cache :=
  if memOk then
    match Hash.append (rcCfg hash) c cookie ⟨reply, ctime + ttl⟩ growOk with
    | .error e => .error e
    | .ok (c', _, _) => .ok c'
  else .ok c

/-- `rtpp_cmd_rcache_lookup`, rtpp_command_rcache.c:151-170. -/
def cacheLookup (hash : Bytes → Nat) (c : Cache) (cookie : Bytes) : Option CEnt :=
  Hash.find (rcCfg hash) c cookie

/-- `rtpp_cmd_rcache_ematch`, rtpp_command_rcache.c:192-209. -/
def ematch (ctime : Int) (e : CEnt) (u : Unit) : Unit × Hash.MVal := (u, ⟨decide (e.etime < ctime), false⟩)

/-- `rtpp_cmd_rcache_cleanup`, rtpp_command_rcache.c:211-219. -/
def cacheCleanup (c : Cache) (ctime : Int) : Except Fault Cache :=
  match Hash.foreach c (ematch ctime) () with
  | .error e => .error e
  | .ok (c', _, _) => .ok c'

def cleanups (c : Cache) : List Int → Except Fault Cache
  | [] => .ok c
  | t :: ts => match cacheCleanup c t with
    | .error e => .error e
    | .ok c' => cleanups c' ts

/-- What happens: a datagram arrives, or the clean-up runs. -/
inductive CEv where
  /-- `t`: time of arrival; `reply`: what the command, if executed, is answered (`none`: not at all);
  `mid`: times of the clean-ups during its execution. -/
  | arrive (t : Int) (cookie : Bytes) (reply : Option Bytes) (mid : List Int) (memOk growOk : Bool)
  | cleanup (t : Int)

inductive COut where
  /-- `rtpp_command_guard_retrans` found nothing: the command is executed and answered -/
  | executed (reply : Option Bytes)
  /-- the reply in the cache is sent and the command dropped -/
  | resent (reply : Bytes)
  | none
  deriving DecidableEq, Repr

/-- `rtpp_command_guard_retrans`, rtpp_command.c:335-360, and `rtpc_reply_deliver`,
rtpp_command_reply.c:148-152. -/
def cstep (hash : Bytes → Nat) (ttl : Int) (c : Cache) : CEv → Except Fault (Cache × COut)
  | .cleanup t => match cacheCleanup c t with
    | .error e => .error e
    | .ok c' => .ok (c', .none)
  | .arrive t cookie reply mid memOk growOk =>
    match cacheLookup hash c cookie with
    | some e => .ok (c, .resent e.reply)
    | none => match cleanups c mid with
      | .error e => .error e
      | .ok c1 => match reply with
        | none => .ok (c1, .executed none)
        | some r => match cacheInsert hash ttl c1 cookie r t memOk growOk with
          | .error e => .error e
          | .ok c2 => .ok (c2, .executed (some r))

/-- A history, with what came of each event. -/
def crun (hash : Bytes → Nat) (ttl : Int) (c : Cache) : List CEv → Except Fault (Cache × List (CEv × COut))
  | [] => .ok (c, [])
  | ev :: evs => match cstep hash ttl c ev with
    | .error e => .error e
    | .ok (c', o) => match crun hash ttl c' evs with
      | .error e => .error e
      | .ok (c'', os) => .ok (c'', (ev, o) :: os)

end Verif.Cmd
