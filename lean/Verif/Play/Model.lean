import Verif.Basic

/-!
# Starting, stopping, ending and destroying players of prompts

Model of the part of `rtpp_stream.c` and `rtpp_proc_servers.c` that decides which prompt is being
played to which stream: the commands PLAY and NOPLAY, the thread that sends the prompts, the
threads that learn the address of a party, and the destruction of streams.

Every function is cut into steps at the points where another thread may run. A step is refused
(`none`) while the mutex it needs is held by another thread.

Kept: `rtps.uid`, `rtps.inact`, `_is_sendable` and the mutex of each stream; the number of
"drop while playing" processors registered under the key of the stream in the manager of the
opposite stream; the tables of active and of waiting players; whether the stream is in
`rtp_streams_wrt`; references to a stream held by the player thread and by anybody else; where the
player thread stands.

Simplified: all streams exist from the start (creation is not modelled). All references to a
stream other than the one of the player thread are one flag, `own`. The reference to the opposite
stream taken by the player thread is not modelled. The pace of the prompt and its contents are not
modelled (see `Verif/Player`); the player thread is told by the event whether the next packet is
due, or the prompt is over. Condition variables do not wake up spuriously.
-/

namespace Verif.Play

/-- The mutex of a stream (`pvt->lock`) between steps: free, held by `handle_play` that is about to
register player `u`, or held by a thread that is moving player `u` from the waiting to the active
table. -/
inductive Lk
  | free
  | play (u : Nat)
  | mov (u : Nat)
  deriving DecidableEq, Repr

/-- src/rtpp_stream.c:62-130 `struct rtpp_stream_priv`, the fields that matter here.
`dt`: 0 the stream is in use; 1 its destructor is about to look for the player in the waiting
table; 2 the same for the active table; 3 destroyed. -/
structure Strm where
  uid : Option Nat := none
  inact : Bool := false
  snd : Bool := false
  drops : Nat := 0
  reg : Bool := true
  own : Bool := true
  lk : Lk := .free
  dt : Nat := 0
  deriving DecidableEq, Repr

/-- An entry of a table of players: number of the player, number of its stream. -/
abbrev Entry := Nat × Nat

/-- Where the player thread stands. -/
inductive Plr
  /-- src/rtpp_proc_servers.c:184 top of the loop -/
  | top
  /-- line 185 found no active player, about to wait -/
  | empty
  /-- line 186, in `pthread_cond_wait` -/
  | wait
  /-- inside `foreach`, with the mutex of the active table held, `rest` still to be visited -/
  | next (rest : List Entry)
  /-- in the callback for player `u` of stream `s`, with a reference to `s` -/
  | body (u s : Nat) (rest : List Entry)
  /-- same, about to take the mutex of stream `d` to send a packet -/
  | lock (d u s : Nat) (rest : List Entry)
  /-- same, the prompt is over and `finish_playback` has returned -/
  | ended (u s : Nat) (rest : List Entry)
  /-- the callback has dropped the last reference to `s`: destructor, first table -/
  | killI (s : Nat) (del : Option Nat) (rest : List Entry)
  /-- the same, second table -/
  | killA (s : Nat) (del : Option Nat) (rest : List Entry)
  deriving DecidableEq, Repr

/-- Where the command thread stands. `k` tells PLAY from NOPLAY. -/
inductive Cmd
  | idle
  /-- `handle_noplay` entered -/
  | np (s : Nat) (k : Bool)
  /-- about to look for player `u` in the waiting table -/
  | npI (s u : Nat) (k : Bool)
  /-- about to look for it in the active table -/
  | npA (s u : Nat) (k : Bool)
  /-- found and removed, about to clear the stream -/
  | npC (s u : Nat) (k : Bool)
  /-- `handle_play` entered -/
  | pl (s : Nat)
  /-- about to register player `u`, with the mutex of the stream held -/
  | plR (s u : Nat)
  deriving DecidableEq, Repr

structure St where
  st : Nat → Strm
  act : List Entry
  ina : List Entry
  plr : Plr
  cmd : Cmd
  nuid : Nat
  ab : Bool

def init : St :=
  { st := fun _ => {}, act := [], ina := [], plr := .top, cmd := .idle, nuid := 0, ab := false }

/-- The player thread holds the mutex of the table of active players
(src/rtpp_hash_table.c:638-661). -/
def Plr.holds : Plr → Bool
  | .top | .empty | .wait => false
  | _ => true

/-- The stream whose reference the player thread holds. -/
def Plr.ref : Plr → Option Nat
  | .body _ s _ | .lock _ _ s _ | .ended _ s _ => some s
  | _ => none

/-- The stream the command thread works on. -/
def Cmd.on : Cmd → Option Nat
  | .idle => none
  | .np s _ | .npI s _ _ | .npA s _ _ | .npC s _ _ | .pl s | .plR s _ => some s

def upd (f : Nat → Strm) (s : Nat) (v : Strm) : Nat → Strm := fun t => if t = s then v else f t

/-- Removal of a player from a table. -/
def del (l : List Entry) (u : Nat) : List Entry := l.filter (fun e => e.1 != u)

def has (l : List Entry) (u : Nat) : Bool := l.any (fun e => e.1 == u)

/-- src/rtpp_stream.c:379-391 `_s_rtps`. -/
def setUid (x : Strm) (u : Option Nat) : Strm :=
  { x with uid := u, inact := x.inact || !x.snd }

/-- `rtpp_queue_wakeup`, src/rtpp_queue.c:402-410. Sent right after the insertion in the table of
active players; the two are one step here. A thread that looks at the table between the two finds
it non-empty, so no wait is lost or gained by merging them. -/
def wakeup : Plr → Plr
  | .wait => .top
  | p => p

inductive PAct
  /-- go on -/
  | go
  /-- the next packet is due and one of the processors sends it through stream `d` -/
  | send (d : Nat)
  /-- no packet is due now -/
  | later
  /-- the prompt is over -/
  | eof
  deriving DecidableEq, Repr

inductive Ev
  /-- a NOPLAY command for stream `s` -/
  | noplay (s : Nat)
  /-- a PLAY command for stream `s` -/
  | play (s : Nat)
  /-- the command thread goes on inside `handle_noplay` -/
  | cmd
  /-- the command thread goes on inside `handle_play`: the prompt could not be opened (`none`), or
  it could, and the registration of the processor succeeds or fails -/
  | open (r : Option Bool)
  /-- the registration of the player succeeds or fails -/
  | regT (ok : Bool)
  /-- some thread has changed the socket or the address of stream `s`, which now can (`b`) or
  cannot be sent to -/
  | addr (s : Nat) (b : Bool)
  /-- the thread that moves a player puts it in the active table -/
  | moved (s : Nat)
  /-- stream `s` is removed from `rtp_streams_wrt` -/
  | unregS (s : Nat)
  /-- the last reference to `s`, other than that of the player thread, is dropped -/
  | release (s : Nat)
  /-- the destructor of `s`, running in the thread that dropped that reference, goes on -/
  | dtor (s : Nat)
  /-- the player thread -/
  | plr (a : PAct)
  deriving DecidableEq, Repr

/-- src/rtpp_stream.c:570-598 `rtpp_stream_handle_noplay`, and after it, for PLAY,
src/commands/rpcpv1_play.c:57-132 continues with `handle_play`. -/
def npDone (s : Nat) (k : Bool) : Cmd := if k then .pl s else .idle

/-- src/rtpp_stream.c:570-598, src/rtpp_proc_servers.c:328-340. -/
def stepCmd (σ : St) : Option St :=
  match σ.cmd with
  | .np s k =>
    if (σ.st s).lk = .free then
      match (σ.st s).uid with
      | none => some { σ with cmd := npDone s k }
      | some u => some { σ with cmd := .npI s u k }
    else none
  | .npI s u k =>
    if has σ.ina u then some { σ with ina := del σ.ina u, cmd := .npC s u k }
    else some { σ with cmd := .npA s u k }
  | .npA s u k =>
    if σ.plr.holds then none
    else if has σ.act u then some { σ with act := del σ.act u, cmd := .npC s u k }
    else some { σ with cmd := npDone s k }
  | .npC s u k =>
    if (σ.st s).lk = .free then
      if (σ.st s).drops = 0 then some { σ with ab := true }
      else
        let x := { σ.st s with drops := (σ.st s).drops - 1 }
        let x := if x.uid = some u then { x with uid := none, inact := false } else x
        some { σ with st := upd σ.st s x, cmd := npDone s k }
    else none
  | _ => none

/-- src/rtpp_stream.c:488-541 `rtpp_stream_handle_play` up to the registration of the player.
When the processor cannot be registered, `rtps` is left as it is (lines 562-567). -/
def stepOpen (σ : St) (r : Option Bool) : Option St :=
  match σ.cmd with
  | .pl s =>
    if (σ.st s).lk = .free then
      match r with
      | none => some { σ with cmd := .idle }
      | some ok =>
        let u := σ.nuid
        let x := setUid (σ.st s) (some u)
        if ok then
          some { σ with
            st := upd σ.st s { x with drops := x.drops + 1, lk := .play u },
            cmd := .plR s u, nuid := u + 1 }
        else some { σ with st := upd σ.st s x, cmd := .idle, nuid := u + 1 }
    else none
  | _ => none

/-- src/rtpp_stream.c:542-567, src/rtpp_proc_servers.c:289-306 `rtpp_proc_servers_reg`. -/
def stepReg (σ : St) (ok : Bool) : Option St :=
  match σ.cmd with
  | .plR s u =>
    let x := σ.st s
    if x.inact then
      if ok then
        some { σ with st := upd σ.st s { x with lk := .free }, ina := (u, s) :: σ.ina,
                      cmd := .idle }
      else if x.drops = 0 then some { σ with ab := true }
      else
        some { σ with st := upd σ.st s { x with drops := x.drops - 1, lk := .free }, cmd := .idle }
    else if σ.plr.holds then none
    else if ok then
      some { σ with st := upd σ.st s { x with lk := .free }, act := (u, s) :: σ.act, cmd := .idle,
                    plr := wakeup σ.plr }
    else if x.drops = 0 then some { σ with ab := true }
    else
      some { σ with st := upd σ.st s { x with drops := x.drops - 1, lk := .free }, cmd := .idle }
  | _ => none

/-- src/rtpp_stream.c:789-811 `_rtpp_stream_update_sendable` and `_rtpp_stream_plr_start`,
src/rtpp_proc_servers.c:308-318, src/rtpp_hash_table.c:553-570 `hash_table_transfer`, first half:
the player leaves the table of waiting players. -/
def stepAddr (σ : St) (s : Nat) (b : Bool) : Option St :=
  let x := σ.st s
  if x.own ∧ x.lk = .free then
    let x := { x with snd := b }
    if b ∧ x.inact then
      match x.uid with
      | none => some { σ with st := upd σ.st s { x with inact := false } }
      | some u =>
        if has σ.ina u then
          some { σ with st := upd σ.st s { x with lk := .mov u }, ina := del σ.ina u }
        else some { σ with st := upd σ.st s { x with inact := false } }
    else some { σ with st := upd σ.st s x }
  else none

/-- src/rtpp_hash_table.c:571-576, second half of the transfer: the player enters the table of
active players. Then src/rtpp_proc_servers.c:321-325 and src/rtpp_stream.c:795. -/
def stepMoved (σ : St) (s : Nat) : Option St :=
  let x := σ.st s
  match x.lk with
  | .mov u =>
    if σ.plr.holds then none
    else
      some { σ with st := upd σ.st s { x with lk := .free, inact := false },
                    act := (u, s) :: σ.act, plr := wakeup σ.plr }
  | _ => none

/-- src/rtpp_pipe.c:156-164 `rtpp_pipe_dtor`: the stream is removed from `rtp_streams_wrt`. -/
def stepUnregS (σ : St) (s : Nat) : Option St :=
  some { σ with st := upd σ.st s { σ.st s with reg := false } }

/-- The last reference of everybody but the player thread. A command that works on the stream, and
a thread that is moving its player, hold a reference. If the player thread holds one too, it is the
one to run the destructor. -/
def stepRelease (σ : St) (s : Nat) : Option St :=
  let x := σ.st s
  if x.own ∧ x.reg = false ∧ x.lk = .free ∧ σ.cmd.on ≠ some s then
    if σ.plr.ref = some s then some { σ with st := upd σ.st s { x with own := false } }
    else
      some { σ with st := upd σ.st s { x with own := false,
                                              dt := if x.uid = none then 3 else 1 } }
  else none

/-- src/rtpp_stream.c:453-454 in `rtpp_stream_dtor`, src/rtpp_proc_servers.c:328-340. -/
def stepDtor (σ : St) (s : Nat) : Option St :=
  let x := σ.st s
  match x.uid with
  | none => none
  | some u =>
    if x.dt = 1 then
      if has σ.ina u then
        some { σ with st := upd σ.st s { x with dt := 3 }, ina := del σ.ina u }
      else some { σ with st := upd σ.st s { x with dt := 2 } }
    else if x.dt = 2 then
      if σ.plr.holds then none
      else some { σ with st := upd σ.st s { x with dt := 3 }, act := del σ.act u }
    else none

/-- The callback returns: the entry is removed (`RTPP_WR_MATCH_DEL`) or kept,
src/rtpp_hash_table.c:648-654. -/
def cbRet (act : List Entry) (d : Option Nat) : List Entry :=
  match d with
  | none => act
  | some u => del act u

/-- Drop of the reference to `s` at the end of the callback, src/rtpp_proc_servers.c:129-131 and
148-152. -/
def cbDrop (σ : St) (s : Nat) (d : Option Nat) (rest : List Entry) : St :=
  if (σ.st s).own then { σ with act := cbRet σ.act d, plr := .next rest }
  else { σ with plr := .killI s d rest }

/-- src/rtpp_proc_servers.c:184-205 (loop), 156-168, 102-153 (callback),
src/rtpp_stream.c:613-627 `rtpp_stream_finish_playback`, 1070-1088 `rtpp_stream_send_pkt`. -/
def stepPlr (σ : St) (a : PAct) : Option St :=
  match σ.plr, a with
  | .top, .go =>
    if σ.act = [] then some { σ with plr := .empty } else some { σ with plr := .next σ.act }
  | .empty, .go => some { σ with plr := .wait }
  | .next [], .go => some { σ with plr := .top }
  | .next ((u, s) :: rest), .go =>
    if (σ.st s).reg then some { σ with plr := .body u s rest } else some { σ with plr := .next rest }
  | .body u s rest, .send d => some { σ with plr := .lock d u s rest }
  | .body _ s rest, .later => some (cbDrop σ s none rest)
  | .body u s rest, .eof =>
    let x := σ.st s
    if x.lk = .free then
      if x.uid = some u then
        if x.drops = 0 then some { σ with ab := true }
        else
          some { σ with st := upd σ.st s (setUid { x with drops := x.drops - 1 } none),
                        plr := .ended u s rest }
      else some { σ with plr := .ended u s rest }
    else none
  | .lock d u s rest, .go =>
    if (σ.st d).lk = .free then some { σ with plr := .body u s rest } else none
  | .ended u s rest, .go => some (cbDrop σ s (some u) rest)
  | .killI s d rest, .go =>
    match (σ.st s).uid with
    | none =>
      some { σ with st := upd σ.st s { σ.st s with dt := 3 }, act := cbRet σ.act d,
                    plr := .next rest }
    | some v =>
      if has σ.ina v then
        some { σ with st := upd σ.st s { σ.st s with dt := 3 }, ina := del σ.ina v,
                      act := cbRet σ.act d, plr := .next rest }
      else some { σ with plr := .killA s d rest }
  /- The mutex of the active table is held by this very thread, and is not recursive
  (src/rtpp_hash_table.c:162, 516). -/
  | .killA _ _ _, _ => none
  | _, _ => none

/-- One step of the process. Nothing happens after an abort. -/
def step (σ : St) (e : Ev) : Option St :=
  if σ.ab then none
  else
    match e with
    | .noplay s =>
      if σ.cmd = .idle ∧ (σ.st s).own then some { σ with cmd := .np s false } else none
    | .play s =>
      if σ.cmd = .idle ∧ (σ.st s).own then some { σ with cmd := .np s true } else none
    | .cmd => stepCmd σ
    | .open r => stepOpen σ r
    | .regT ok => stepReg σ ok
    | .addr s b => stepAddr σ s b
    | .moved s => stepMoved σ s
    | .unregS s => stepUnregS σ s
    | .release s => stepRelease σ s
    | .dtor s => stepDtor σ s
    | .plr a => stepPlr σ a

/-- An execution; an event that is not possible is skipped. -/
def run (σ : St) : List Ev → St
  | [] => σ
  | e :: es => run ((step σ e).getD σ) es

end Verif.Play
