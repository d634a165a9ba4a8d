import Verif.Str.Mem

/-!
# Model of the reply buffer (src/rtpp_command_reply.c) and of the handlers that fill it

Modelled: `append`, `appendf`, `commit`, `reserve`, `deliver_number`, `deliver_error`
(rtpp_command_reply.c:61-299), `ul_reply_port` (commands/rpcpv1_ul.c:131-179), the tail of
`handle_query` (commands/rpcpv1_query.c:250-301).  `appendf` receives the formatted text: the
conversions of `vsnprintf` are not modelled except `%d`, see `fmtD`.  The text has fewer than `INT_MAX` bytes.
Logging, sending and the statistics counters are left out: `deliver` yields the bytes sent.
-/

namespace Verif.Cmd

/-- `struct rtpc_reply_priv`, rtpp_command_reply.c:61-70. -/
structure Rep where
  r : List UInt8
  ulen : Nat
  clen : Nat
  rlen : Nat
  deriving DecidableEq, Repr

/-- `memcpy(a + i, s, len)`. -/
def wrs (a : List UInt8) (i : Nat) (s : List UInt8) : Except Fault (List UInt8) :=
  if i + s.length ≤ a.length then .ok (a.take i ++ s ++ a.drop (i + s.length)) else .error .ub

/-- Macro `CBRL`, rtpp_command_reply.c:104: a `size_t`. -/
def cbrl (b : Rep) (fin : Bool) : Nat :=
  (2 ^ 64 + b.r.length - b.ulen - (if fin then 0 else b.rlen)) % 2 ^ 64

/-- A new reply, rtpp_command_reply.c:109-127. -/
def repNew : Rep := ⟨List.replicate 1024 0, 0, 0, 0⟩

/-- `rtpc_reply_append`, rtpp_command_reply.c:250-266. -/
def append (b : Rep) (s : List UInt8) (fin : Bool) : Except Fault (Rep × Bool) :=
  if cbrl b fin < s.length then .ok (b, false)
  else match wrs b.r b.ulen s with
    | .error e => .error e
    | .ok r' => match s.getLast? with
      | none => .error .ub
      | some c => .ok ({ b with r := r', ulen := b.ulen + (if c = 0 then s.length - 1 else s.length) }, true)

/-- `rtpc_reply_appendf`, rtpp_command_reply.c:268-286; `s` is the formatted text. -/
def appendf (b : Rep) (s : List UInt8) : Except Fault (Rep × Bool) :=
  let size := cbrl b false
  match (if size = 0 then .ok b.r else wrs b.r b.ulen (s.take (size - 1) ++ [0])) with
  | .error e => .error e
  | .ok r' =>
    if s.length ≥ size then .ok ({ b with r := r' }, false)
    else .ok ({ b with r := r', ulen := b.ulen + s.length }, true)

/-- `rtpc_reply_commit`, rtpp_command_reply.c:288-296. -/
def commit (b : Rep) : Rep := { b with clen := b.ulen }

/-- `rtpc_reply_reserve`, rtpp_command_reply.c:298-308. -/
def reserve (b : Rep) (n : Nat) : Rep × Bool :=
  if cbrl b true < n then (b, false) else ({ b with rlen := n }, true)

/-- The bytes sent by `rtpc_reply_deliver`, rtpp_command_reply.c:129-170. -/
def sent (b : Rep) : List UInt8 := b.r.take b.clen

/-- `assert(… == 0)` -/
def must (x : Except Fault (Rep × Bool)) : Except Fault Rep :=
  match x with
  | .error e => .error e
  | .ok (b, true) => .ok b
  | .ok (_, false) => .error .abort

/-- `%d` -/
def fmtD (n : Int) : List UInt8 := (toString n).toList.map fun c => UInt8.ofNat c.toNat

/-- `rtpc_reply_deliver_number`, rtpp_command_reply.c:172-182. -/
def deliverNumber (b : Rep) (n : Int) : Except Fault (List UInt8) :=
  match must (appendf { b with ulen := b.clen } (fmtD n ++ [10])) with
  | .error e => .error e
  | .ok b' => .ok (sent (commit b'))

/-- `rtpc_reply_deliver_error`, rtpp_command_reply.c:238-248. -/
def deliverError (b : Rep) (n : Int) : Except Fault (List UInt8) :=
  match must (appendf { b with ulen := b.clen } (69 :: fmtD n ++ [10])) with
  | .error e => .error e
  | .ok b' => .ok (sent (commit b'))

/-- `assert(append("\n", 2, 1) == 0); commit; deliver`. -/
def finishLine (b : Rep) : Except Fault (List UInt8) :=
  match must (append b [10, 0] true) with
  | .error e => .error e
  | .ok b' => .ok (sent (commit b'))

/-- `" && "` -/
def sep : List UInt8 := [32, 38, 38, 32]

/-- `subc_err`: `" && -1"`. -/
def subcErr : List UInt8 := sep ++ [45, 49]
/-- `subc_ok`: `" && 0"`. -/
def subcOk : List UInt8 := sep ++ [48]

/-- Result of a sub-command: `struct rtpp_subc_resp`. -/
structure SubRes where
  result : Int
  buf : List UInt8
  deriving DecidableEq, Repr

/-- `while (skipped > 0) { BC_append(subc_ok); skipped -= 1; }`, rpcpv1_ul.c:155-158. -/
def ulSkipped (b : Rep) : Nat → Except Fault (Rep × Bool)
  | 0 => .ok (b, true)
  | n + 1 => match append b subcOk false with
    | .error e => .error e
    | .ok (b', false) => .ok (b', false)
    | .ok (b', true) => ulSkipped b' n

/-- The loop of `ul_reply_port`, rpcpv1_ul.c:152-170; the result is `false` for `goto subc_nomem`. -/
def ulLoop (b : Rep) (skipped : Nat) : List SubRes → Except Fault (Rep × Bool)
  | [] => .ok (b, true)
  | x :: xs =>
    if x.result ≠ 0 ∨ x.buf ≠ [] then
      match ulSkipped b skipped with
      | .error e => .error e
      | .ok (b', false) => .ok (b', false)
      | .ok (b', true) =>
        match appendf b' (sep ++ (if x.result ≠ 0 then fmtD x.result else x.buf)) with
        | .error e => .error e
        | .ok (b'', false) => .ok (b'', false)
        | .ok (b'', true) => ulLoop b'' 0 xs
    else ulLoop b (skipped + 1) xs

/-- `ul_reply_port`, rpcpv1_ul.c:131-179; `pa` is the formatted port, or port and address. -/
def ulReplyPort (b : Rep) (pa : List UInt8) (subc : List SubRes) : Except Fault (List UInt8) :=
  match must (.ok (reserve b 2)) with
  | .error e => .error e
  | .ok b => match must (appendf b pa) with
    | .error e => .error e
    | .ok b => match (if subc ≠ [] then must (.ok (reserve b (subcErr.length + 2))) else .ok b) with
      | .error e => .error e
      | .ok b => match ulLoop b 0 subc with
        | .error e => .error e
        | .ok (b, true) => finishLine b
        | .ok (b, false) => match must (append b subcErr true) with
          | .error e => .error e
          | .ok b => finishLine b

/-- `while (skipped >= 0) …`, rpcpv1_query.c:272-278: a `&& 0` for each skipped result and the failed one. -/
def qFail (b : Rep) (res : Int) : Nat → Except Fault (Rep × Bool)
  | 0 => appendf b (sep ++ fmtD res)
  | n + 1 => match appendf b subcOk with
    | .error e => .error e
    | .ok (b', false) => .ok (b', false)
    | .ok (b', true) => qFail b' res n

/-- `while (skipped > 0) …`, rpcpv1_query.c:282-287.  When an append fails, the loop is left but the next statement is the
append of the result, whose status replaces the failure. -/
def qSkipped (b : Rep) : Nat → Except Fault (Rep × Nat)
  | 0 => .ok (b, 0)
  | n + 1 => match appendf b subcOk with
    | .error e => .error e
    | .ok (b', false) => .ok (b', n + 1)
    | .ok (b', true) => qSkipped b' n

/-- The loop over the sub-commands in `handle_query`, rpcpv1_query.c:261-295. -/
def qLoop (b : Rep) (skipped : Nat) : List SubRes → Except Fault (Rep × Bool)
  | [] => .ok (b, true)
  | x :: xs =>
    if x.result ≠ 0 then qFail (commit b) x.result skipped
    else if x.buf ≠ [] then
      match qSkipped (commit b) skipped with
      | .error e => .error e
      | .ok (b', sk) => match appendf b' (sep ++ x.buf) with
        | .error e => .error e
        | .ok (b'', false) => .ok (b'', false)
        | .ok (b'', true) => qLoop b'' sk xs
    else qLoop (commit b) (skipped + 1) xs

/-- The end of `handle_query`, rpcpv1_query.c:251-300. -/
def queryTail (b : Rep) (subc : List SubRes) : Except Fault (List UInt8) :=
  match (if subc ≠ [] then must (.ok (reserve b (subcErr.length + 1))) else .ok b) with
  | .error e => .error e
  | .ok b => match qLoop b 0 subc with
    | .error e => .error e
    | .ok (b, true) => finishLine b
    | .ok (b, false) => match must (append b subcErr true) with
      | .error e => .error e
      | .ok b => finishLine b

end Verif.Cmd
