import Verif.Basic

/-!
# The notification worker (src/rtpp_notify.c)

Modelled: `rtpp_notify_schedule` (165-198: the text of a notification), `reconnect_handler` (200-236), `do_notification` (238-265),
`rtpp_notify_queue_run` (85-108) on the items in the order of the queue (that the queue keeps the order is C27).  Targets are named by their place
in the set (`rtpp_tnotify_set.c`), which is the only owner of them.  The answers of `socket`, `bind`, `connect` and `send` are those of the
environment; every call is written to a log.  Not modelled: how long a call takes, `close` failing, the log messages, the memory of the items.
-/

namespace Verif.Notify

/-- `struct rtpp_tnotify_target`: `isFd`: `socket_type == RTPP_TNS_FD`; `bound`: `local != NULL`; `fd`: `none` for -1; `up`: `connected`. -/
structure Target where
  isFd : Bool
  bound : Bool
  fd : Option Nat
  up : Bool
  deriving DecidableEq, Repr

/-- Answers of the kernel.  `fd`: a new descriptor; `ok`: success, for `send` of everything; `short n`: only `n` bytes sent; `intr`: `EINTR`. -/
inductive Ans where
  | fd (n : Nat)
  | ok
  | short (n : Nat)
  | intr
  | fail
  deriving DecidableEq, Repr

/-- Calls: `i`: the target for which the call is made.  `sent`: bytes taken by `send`, `none` for an error other than `EINTR`. -/
inductive Ev where
  | socket (i fd : Nat)
  | nosocket (i : Nat)
  | close (i fd : Nat)
  | bind (i fd : Nat) (ok : Bool)
  | connect (i fd : Nat) (ok : Bool)
  | send (i fd : Nat) (data : List UInt8) (sent : Option Nat)
  deriving DecidableEq, Repr

/-- The next answer; an error when there are no more. -/
def next : List Ans → Ans × List Ans
  | [] => (.fail, [])
  | a :: as => (a, as)

/-- Lines 254-256: `send` until the answer is not `EINTR`. -/
def sendLoop (data : List UInt8) : List Ans → Option Nat × List Ans
  | [] => (none, [])
  | .intr :: as => sendLoop data as
  | .ok :: as => (some data.length, as)
  | .short n :: as => (some (min n data.length), as)
  | _ :: as => (none, as)

/-- Lines 207-212. -/
def closing (i : Nat) (t : Target) : List Ev :=
  match t.fd with
  | none => []
  | some f => [.close i f]

/-- `reconnect_handler`, lines 200-236, for target number `i`. -/
def reconnect (i : Nat) (t : Target) (env : List Ans) : Except Fault (Target × List Ans × List Ev) :=
  if t.up then .error .abort
  else if t.isFd then .error .abort
  else
    let closed := closing i t
    match next env with
    | (.fd f, env1) =>
      match (if t.bound then next env1 else (.ok, env1)) with
      | (.ok, env2) =>
        let log := closed ++ [.socket i f] ++ (if t.bound then [.bind i f true] else [])
        match next env2 with
        | (.ok, env3) => .ok ({ t with fd := some f, up := true }, env3, log ++ [.connect i f true])
        | (_, env3) => .ok ({ t with fd := none }, env3, log ++ [.connect i f false, .close i f])
      | (_, env2) => .ok ({ t with fd := none }, env2, closed ++ [.socket i f, .bind i f false, .close i f])
    | (_, env1) => .ok ({ t with fd := none }, env1, closed ++ [.nosocket i])

/-- Lines 254-264: sending over the descriptor of the target (which is there once it is connected; `send(-1, …)` is an error otherwise).
`again`: the call in line 263. -/
def transmit (i : Nat) (data : List UInt8) (t : Target) (env : List Ans)
    (again : Option (Target → List Ans → Except Fault (Target × List Ans × List Ev))) : Except Fault (Target × List Ans × List Ev) :=
  match t.fd with
  | none => .error .ub
  | some f =>
    match sendLoop data env with
    | (some n, env1) => .ok (t, env1, [.send i f data (some n)])
    | (none, env1) =>
      match again with
      | none => .ok ({ t with up := false }, env1, [.send i f data none])
      | some k =>
        match k { t with up := false } env1 with
        | .error e => .error e
        | .ok (t', env2, log) => .ok (t', env2, .send i f data none :: log)

/-- The body of `do_notification`, lines 243-264. -/
def attempt (i : Nat) (data : List UInt8) (again : Option (Target → List Ans → Except Fault (Target × List Ans × List Ev)))
    (t : Target) (env : List Ans) : Except Fault (Target × List Ans × List Ev) :=
  if t.up then transmit i data t env again
  else match reconnect i t env with
    | .error e => .error e
    | .ok (t1, env1, log1) =>
      if t1.up then
        match transmit i data t1 env1 again with
        | .error e => .error e
        | .ok (t2, env2, log2) => .ok (t2, env2, log1 ++ log2)
      else .ok (t1, env1, log1)

/-- `do_notification`, lines 238-265. -/
def notify (i : Nat) (data : List UInt8) : Nat → Target → List Ans → Except Fault (Target × List Ans × List Ev)
  | 0 => attempt i data none
  | r + 1 => attempt i data (some (notify i data r))

/-- `rtpp_notify_schedule`, lines 178-194 with 255: what is sent is the tag and a newline. -/
def message (tag : List UInt8) : List UInt8 := tag ++ [10]

/-- `rtpp_notify_queue_run`, lines 93-107: the items, a number of a target and a tag each.  One log per item. -/
def run : List Target → List Ans → List (Nat × List UInt8) → Except Fault (List Target × List Ans × List (List Ev))
  | ts, env, [] => .ok (ts, env, [])
  | ts, env, (i, tag) :: items =>
    match ts[i]? with
    | none => .error .ub
    | some t =>
      match notify i (message tag) 3 t env with
      | .error e => .error e
      | .ok (t', env1, log) =>
        match run (ts.set i t') env1 items with
        | .error e => .error e
        | .ok (ts', env2, logs) => .ok (ts', env2, log :: logs)

end Verif.Notify
