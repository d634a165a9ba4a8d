import Verif.Basic

/-!
# Model of the in-process packet port (`src/rtpp_packetport.c`)

The rings are atomic bounded FIFOs; `Verif.Spmc` shows that `SPMCQueue.c` is linearizable to that, with the load of the
other side's index and the publication as separate moments.  The other threads that pop from a ring act between any
two such moments: before the `t`-th one they take `env.take t` items.  A pop may get less than is there (the cached
write index, SPMCQueue.c:300-312), but at least one; `env.got t` says how many.
-/

namespace Verif.Packetport

/-- What the other consumers of a ring do. -/
structure Env where
  take : Nat → Nat
  got : Nat → Nat

/-- How an item left the ring. -/
inductive Fate where
  /-- Taken by the other side. -/
  | delivered
  /-- Popped by the pushing side to make room, and destroyed. -/
  | dropped
  deriving DecidableEq, Repr

/-- A ring: items oldest first; the items that left it, in order; the number of moments passed. -/
structure Ring where
  cap : Nat
  items : List Nat
  gone : List (Fate × Nat)
  t : Nat
  deriving DecidableEq, Repr

/-- The other consumers act. -/
def Ring.tick (env : Env) (r : Ring) : Ring :=
  let n := env.take r.t
  { r with items := r.items.drop n, gone := r.gone ++ (r.items.take n).map (Fate.delivered, ·), t := r.t + 1 }

/-- `try_push_many_kv`, SPMCQueue.c:246-258, once the room is known: keys consumed, values written. -/
def fill : List (Option Nat) → Nat → Nat × List Nat
  | [], _ => (0, [])
  | _ :: _, 0 => (0, [])
  | none :: ks, room => let (c, vs) := fill ks room; (c + 1, vs)
  | some v :: ks, room + 1 => let (c, vs) := fill ks room; (c + 1, v :: vs)

/-- `try_push_many_kv` (`try_push` with one key): room is found, values are written, the index is published. -/
def Ring.pushMany (env : Env) (r : Ring) (keys : List (Option Nat)) : Nat × Ring :=
  let r := r.tick env
  let (c, vs) := fill keys (r.cap - r.items.length)
  let r := r.tick env
  (c, { r with items := r.items ++ vs })

/-- `try_push`, SPMCQueue.c:137-159. -/
def Ring.push (env : Env) (r : Ring) (v : Nat) : Bool × Ring :=
  let (c, r) := r.pushMany env [some v]
  (c == 1, r)

/-- `try_pop_many`, SPMCQueue.c:292-326, by the pushing side, which destroys what it gets. -/
def Ring.dropMany (env : Env) (r : Ring) (n : Nat) : List Nat × Ring :=
  let r := r.tick env
  let k := min (max 1 (env.got r.t)) (min n r.items.length)
  (r.items.take k, { r with items := r.items.drop k, gone := r.gone ++ (r.items.take k).map (Fate.dropped, ·) })

/-- `rtpp_packetport_queue`, rtpp_packetport.c:698-710: `false` for the return of -1; `none`: still looping after
`fuel` rounds. -/
def queue (env : Env) : Nat → Ring → Nat → Option (Bool × Ring)
  | 0, _, _ => none
  | fuel + 1, r, v =>
    match r.push env v with
    | (true, r) => some (true, r)
    | (false, r) => match r.dropMany env 1 with
      | ([], r) => some (false, r)
      | (_ :: _, r) => queue env fuel r v

/-- A work item: a packet for a port (`none` when `rtpp_packet_ext_link` has no memory), or a signal. -/
inductive Wi where
  | data (v : Option Nat)
  | term
  | flush (run : Nat)
  | nudge
  deriving DecidableEq, Repr

/-- `rtpp_packetport_wi2pktxp`, rtpp_packetport.c:180-223: the value. -/
def Wi.value : Wi → Option Nat
  | .data v => v
  | _ => none

/-- `struct rtpp_packetport_wi2pktxp_ctx`, rtpp_packetport.c:127-132. -/
structure Ctx where
  lc : Nat
  flushSeen : Bool
  termSeen : Bool
  deriving DecidableEq, Repr

/-- `rtpp_packetport_wi2pktxp`: the effect on the context. -/
def Ctx.see (c : Ctx) : Wi → Ctx
  | .term => { c with termSeen := true }
  | .flush run => if run ≥ c.lc then { c with flushSeen := true } else c
  | _ => c

/-- The loop of `rtpp_packetport_proc_wi_batch`, rtpp_packetport.c:754-762.  `acc` is what is in `out_batch` (its
length is `ndropped`), an array of `pvt->capacity` elements; writing beyond it is undefined behaviour. -/
def batch (env : Env) (capacity : Nat) : Nat → Ring → Ctx → List Wi → List Nat → Option (Except Fault (Ring × Ctx × List Nat))
  | 0, _, _, _, _ => none
  | fuel + 1, r, ctx, wis, acc =>
    match wis with
    | [] => some (.ok (r, ctx, acc))
    | _ :: _ =>
      match r.pushMany env (wis.map Wi.value) with
      | (c, r) =>
        let ctx := (wis.take c).foldl Ctx.see ctx
        match wis.drop c with
        | [] => some (.ok (r, ctx, acc))
        | w :: rest => match r.dropMany env (rest.length + 1) with
          | (d, r) =>
            if acc.length + d.length ≤ capacity then batch env capacity fuel r ctx (w :: rest) (acc ++ d)
            else some (.error .ub)

/-- `rtpp_packetport_nport_alloc`, rtpp_packetport.c:905-915, by one thread: the number and the new counter. -/
def nportAlloc (p : Nat) : Nat × Nat :=
  if p = 0 then (2, 4) else (p, (p + 2) % 4294967296)

/-- The counter after `n` calls. -/
def counter : Nat → Nat
  | 0 => 2
  | n + 1 => (nportAlloc (counter n)).2

/-- The number the call number `n` (from 0) gets. -/
def port (n : Nat) : Nat := (nportAlloc (counter n)).1

end Verif.Packetport
