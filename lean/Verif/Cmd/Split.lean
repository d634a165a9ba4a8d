import Verif.Cmd.Swar

/-!
# Model of `rtpp_command_split` (src/rtpp_command.c:362-463)

The argument arrays are lists; writing the element with index `RTPC_MAX_ARGC` would be `Fault.ub`.
Logging and the statistics counters are left out.  The look-up of the cookie in the retransmission
cache (`rtpp_command_guard_retrans`, rtpp_command.c:335-360) is a parameter, see `Cmd/Rcache.lean`.
The model starts from the message as placed into `cmd->buf` by the callers (rtpp_command.c:284-323,
rtpp_command_stream.c:157-158): `len` bytes followed by a NUL.
-/

namespace Verif.Cmd

abbrev Tok := List UInt8

/-- `RTPP_CMD_BUFLEN` -/
def bufLen : Nat := 8192
/-- `RTPC_MAX_ARGC`, rtpp_command_args.h:33. -/
def maxArgc : Nat := 24
/-- `MAX_SUBC_NUM`. -/
def maxSubc : Nat := 16
/-- Size of the reply buffer, rtpp_command_reply.c:68. -/
def replyCap : Nat := 1024

/-- `strlen(buf + i)`. -/
def strlen (buf : List UInt8) (i : Nat) : Except Fault Nat :=
  match (buf.drop i).findIdx? (· == 0) with
  | none => .error .ub
  | some n => .ok n

/-- `memchr(mbuf + mp, '\0', len - mp)`: offset from `mp`. -/
def memchr0 (mbuf : List UInt8) (mp len : Nat) : Except Fault (Option Nat) :=
  if len ≤ mbuf.length then .ok (((mbuf.drop mp).take (len - mp)).findIdx? (· == 0)) else .error .ub

/-- Result of the look-up of a cookie. -/
inductive Guard where
  | fresh
  | dup
  | nomem
  deriving DecidableEq, Repr

inductive SplitOut where
  /-- the error reply `ECODE_PARSE_1` is sent -/
  | synerr
  /-- the cached reply was sent again -/
  | dup
  | nomem
  | cmd (cookie : Option Tok) (args : List Tok) (subc : List (List Tok))
  deriving DecidableEq, Repr

/-- The variables of the loop: completed argument vectors (the first one is `cmd->args`, the others are
`cmd->subc.args`), and the current one (`cap`). -/
structure Acc where
  cookie : Option Tok
  done : List (List Tok)
  cur : List Tok

/-- `ISAMPAMP`, rtpp_command.c:333. -/
def isAmpAmp (t : Tok) : Bool := t = [38, 38]

/-- One field, rtpp_command.c:398-437; `slen` is the result of `strlen`. -/
def stepTok (umode : Bool) (guard : Tok → Guard) (a : Acc) (t : Tok) (slen : Nat) :
    Except Fault (SplitOut ⊕ Acc) :=
  if slen > t.length then .error .abort
  else if slen < t.length then .ok (.inl .synerr)
  else if a.cur.length ≥ maxArgc then .error .ub
  else if a.done = [] ∧ umode = true ∧ a.cur.length = 0 ∧ a.cookie = none then
    match guard t with
    | .nomem => .ok (.inl .nomem)
    | .dup => .ok (.inl .dup)
    | .fresh => if t.length + 1 ≥ replyCap then .error .abort else .ok (.inr { a with cookie := some t })
  else if isAmpAmp t then
    if a.done.length = maxSubc - 1 then .ok (.inl .synerr)
    else .ok (.inr { a with done := a.done ++ [a.cur], cur := [] })
  else if a.cur.length + 1 ≥ maxArgc then .ok (.inl .synerr)
  else .ok (.inr { a with cur := a.cur ++ [t] })

/-- rtpp_command.c:439-447. -/
def finish (umode : Bool) (a : Acc) : SplitOut :=
  match a.done ++ [a.cur] with
  | [] => .synerr
  | args :: subc =>
    if args.length < 1 ∨ (umode = true ∧ a.cookie = none) then .synerr
    else if subc.any (fun s => s.length < 1) then .synerr
    else .cmd a.cookie args subc

/-- The loop, rtpp_command.c:385-438. -/
def tokLoop (umode : Bool) (guard : Tok → Guard) (buf mbuf : List UInt8) (len mp : Nat) (a : Acc) :
    Except Fault SplitOut :=
  if _h : mp < len then
    match memchr0 mbuf mp len with
    | .error e => .error e
    | .ok none =>
      -- the last field: `mp_next == NULL` ends the loop
      match strlen buf mp with
      | .error e => .error e
      | .ok slen => match stepTok umode guard a ((buf.drop mp).take (len - mp)) slen with
        | .error e => .error e
        | .ok (.inl o) => .ok o
        | .ok (.inr a') => .ok (finish umode a')
    | .ok (some 0) => tokLoop umode guard buf mbuf len (mp + 1) a
    | .ok (some (k + 1)) =>
      match strlen buf mp with
      | .error e => .error e
      | .ok slen => match stepTok umode guard a ((buf.drop mp).take (k + 1)) slen with
        | .error e => .error e
        | .ok (.inl o) => .ok o
        | .ok (.inr a') => tokLoop umode guard buf mbuf len (mp + (k + 1) + 1) a'
  else .ok (finish umode a)
termination_by len - mp

/-- `rtpp_command_split`, rtpp_command.c:362-463, up to `rtpp_command_pre_parse`. -/
def split (umode : Bool) (guard : Tok → Guard) (buf mbuf : List UInt8) (len : Nat) : Except Fault SplitOut :=
  match strsplit buf mbuf len bufLen with
  | .error e => .error e
  | .ok (buf', mbuf') => tokLoop umode guard buf' mbuf' len 0 ⟨none, [], []⟩

end Verif.Cmd
