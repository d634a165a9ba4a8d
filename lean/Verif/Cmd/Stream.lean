import Verif.Basic

/-!
# Model of stream control connections (src/rtpp_command_stream.c:57-168)

Also the loop of their only caller, `process_commands_stream`
(src/rtpp_command_async.c:222-262).  `handle_command` returns 0 on every path
(rtpp_command.c:465-708), so the loop in the caller ends only when no complete line is left.
The retry of an interrupted `read` (lines 93-97) and logging are left out.  What happens to a line once
it has been copied into a command is the subject of `Cmd/Split.lean`.
-/

namespace Verif.Cmd

/-- Size of `inbuf` in `struct rtpp_cmd_connection`, rtpp_command_stream.h, and of `buf` in
`struct rtpp_command`: both are `RTPP_CMD_BUFLEN`. -/
def inbufLen : Nat := 8192

/-- `struct rtpp_cmd_connection`. -/
structure Conn where
  inbuf : List UInt8
  ppos : Nat
  epos : Nat

/-- A new connection: zeroed memory, rtpp_command_async.c:270-275. -/
def connNew : Conn := ⟨List.replicate inbufLen 0, 0, 0⟩

/-- `memcpy`/`memmove` of `d` to offset `i` of a buffer. -/
def putAt (b : List UInt8) (i : Nat) (d : List UInt8) : Except Fault (List UInt8) :=
  if i + d.length ≤ b.length then .ok (b.take i ++ d ++ b.drop (i + d.length)) else .error .ub

/-- Reading `n` bytes at offset `i`. -/
def getAt (b : List UInt8) (i n : Nat) : Except Fault (List UInt8) :=
  if i + n ≤ b.length then .ok ((b.drop i).take n) else .error .ub

/-- `rtpp_command_stream_compact`, rtpp_command_stream.c:57-75. -/
def compact (c : Conn) : Except Fault Conn :=
  if c.ppos = 0 ∨ c.epos = 0 then .ok c
  else if c.ppos = c.epos then .ok { c with ppos := 0, epos := 0 }
  else if c.epos < c.ppos then .error .ub
  else
    let clen := c.epos - c.ppos
    match getAt c.inbuf c.ppos clen with
    | .error e => .error e
    | .ok d => match putAt c.inbuf 0 d with
      | .error e => .error e
      | .ok b => .ok ⟨b, 0, clen⟩

/-- `rtpp_command_stream_doio`, rtpp_command_stream.c:77-101.  `sock` is what the socket has to
offer: `none` is a read error; reading takes as much as fits.  Returns the result of the function
(−1 is `none`) and what is left in the socket. -/
def doio (c : Conn) (sock : Option (List UInt8)) : Except Fault (Conn × Option Nat × List UInt8) :=
  match compact c with
  | .error e => .error e
  | .ok c1 =>
    if c1.epos > inbufLen then .error .ub
    else
      let blen := inbufLen - c1.epos
      match sock with
      | none => .ok (c1, none, [])
      | some s =>
        let d := s.take blen
        match putAt c1.inbuf c1.epos d with
        | .error e => .error e
        | .ok b => .ok (⟨b, c1.ppos, c1.epos + d.length⟩, some d.length, s.drop blen)

/-- What `rtpp_command_stream_get` makes of a line: a command, or the reply `ECODE_NOMEM_9`
(rtpp_command_stream.c:139-148). -/
inductive Ev where
  | cmd (line : List UInt8)
  | nomem (line : List UInt8)
  deriving DecidableEq, Repr

/-- `rtpp_command_stream_get`, rtpp_command_stream.c:121-168; `memOk` is the outcome of
`rtpp_command_ctor`.  `none` is `GET_CMD_EAGAIN`. -/
def get (c : Conn) (memOk : Bool) : Except Fault (Conn × Option Ev) :=
  if c.epos = c.ppos then .ok (c, none)
  else if c.epos < c.ppos then .error .ub
  else match getAt c.inbuf c.ppos (c.epos - c.ppos) with
    | .error e => .error e
    | .ok d => match d.findIdx? (· == 10) with
      | none => .ok (c, none)
      | some len =>
        if memOk then
          -- the copy and its terminating NUL have to fit into `cmd->buf`
          if len + 1 ≤ inbufLen then .ok ({ c with ppos := c.ppos + (len + 1) }, some (.cmd (d.take len)))
          else .error .ub
        else .ok ({ c with ppos := c.ppos + (len + 1) }, some (.nomem (d.take len)))

/-- The loop of `process_commands_stream`, rtpp_command_async.c:233-260.  `mem n` says whether the
`n`-th command of the connection can be allocated.  `fuel` bounds the number of lines. -/
def drain (mem : Nat → Bool) : Nat → Conn → Nat → Except Fault (Conn × List Ev)
  | 0, _, _ => .error .ub
  | fuel + 1, c, n => match get c (mem n) with
    | .error e => .error e
    | .ok (c', none) => .ok (c', [])
    | .ok (c', some ev) => match drain mem fuel c' (n + 1) with
      | .error e => .error e
      | .ok (c'', evs) => .ok (c'', ev :: evs)

/-- A connection as the server sees it: bytes not yet read, and what has been made of the others. -/
structure Sess where
  conn : Conn
  sock : List UInt8
  evs : List Ev
  closed : Bool

def sessNew : Sess := ⟨connNew, [], [], false⟩

/-- New bytes arrive, and the descriptor is served if it is readable (rtpp_command_async.c:436-466): the
connection is closed when `process_commands_stream` returns −1. -/
def serve (mem : Nat → Bool) (s : Sess) (arrived : List UInt8) : Except Fault Sess :=
  let sock := s.sock ++ arrived
  if s.closed ∨ sock = [] then .ok { s with sock := sock }
  else match doio s.conn (some sock) with
    | .error e => .error e
    | .ok (c, none, rest) => .ok ⟨c, rest, s.evs, true⟩
    | .ok (c, some 0, rest) => .ok ⟨c, rest, s.evs, true⟩
    | .ok (c, some (_ + 1), rest) =>
      match drain mem (inbufLen + 1) c s.evs.length with
      | .error e => .error e
      | .ok (c', evs) => .ok ⟨c', rest, s.evs ++ evs, false⟩

/-- A history of arrivals. -/
def serveAll (mem : Nat → Bool) (s : Sess) : List (List UInt8) → Except Fault Sess
  | [] => .ok s
  | a :: as => match serve mem s a with
    | .error e => .error e
    | .ok s' => serveAll mem s' as

end Verif.Cmd
