import Verif.Pearson.Model
import Verif.Cmd.Reply
import Verif.Util.Dec

/-!
# Model of the statistics (`src/rtpp_stats.c`) and of the command `G` (`src/commands/rpcpv1_stats.c`)

Any number of threads add to the statistics at any moment; one thread (`rtpp_timed`, main.c:808-817, 1119-1124) derives
the rates; one thread (the command thread) answers `G`.  One step is one atomic access or one critical section of a
statistic's mutex.  Doubles are rationals: rounding is not modelled, and the text that `%f` produces is a parameter.
A statistic's value is a union (rtpp_stats.c:63-66): accessing it with the other type is reported as `ub`.  The
constructor is modelled by its result only (`init`).
-/

namespace Verif.Stats

open Verif.Cmd (Rep)

/-- `enum rtpp_cnt_type`, rtpp_stats.c:50-53. -/
inductive Kind where
  | u64 | dbl
  deriving DecidableEq, Repr

/-- `default_stats`, rtpp_stats.c:83-114. -/
def table : List (String × Kind) := [
  ("nsess_created", .u64), ("nsess_destroyed", .u64), ("nsess_timeout", .u64),
  ("nsess_complete", .u64), ("nsess_nortp", .u64), ("nsess_owrtp", .u64),
  ("nsess_nortcp", .u64), ("nsess_owrtcp", .u64), ("nplrs_created", .u64),
  ("nplrs_destroyed", .u64), ("npkts_rcvd", .u64), ("npkts_played", .u64),
  ("npkts_relayed", .u64), ("npkts_resizer_in", .u64), ("npkts_resizer_out", .u64),
  ("npkts_resizer_discard", .u64), ("npkts_discard", .u64), ("total_duration", .dbl),
  ("ncmds_rcvd", .u64), ("ncmds_rcvd_ndups", .u64), ("ncmds_succd", .u64),
  ("ncmds_errs", .u64), ("ncmds_repld", .u64), ("rtpa_nsent", .u64),
  ("rtpa_nrcvd", .u64), ("rtpa_ndups", .u64), ("rtpa_nlost", .u64),
  ("rtpa_perrs", .u64), ("pps_in", .dbl)]

/-- A name as bytes. -/
def bytes (s : String) : List UInt8 := s.toList.map fun c => UInt8.ofNat c.toNat

/-- The names as `getdstat` yields them, rtpp_stats.c:156-167. -/
def names : List (List UInt8) := table.map fun x => bytes x.1

/-- `descr->type` of the statistic with this index. -/
def kind (i : Nat) : Kind := ((table[i]?).map Prod.snd).getD .u64

/-- `derive_from` and `derive_to` of the only derived statistic, rtpp_stats.c:112, 241-250: "npkts_rcvd" and "pps_in". -/
def src : Nat := 10
def dst : Nat := 28

/-- The rest of `handle_get_stats` while a `G` is being answered. -/
structure G where
  b : Rep
  verbose : Bool
  /-- `i > 1`. -/
  more : Bool
  rest : List (List UInt8)

structure St where
  u : Nat → Nat
  d : Nat → Rat
  /-- `last_ts` and `last_val` of the derived statistic. -/
  lastTs : Rat
  lastVal : Nat
  /-- `rtpp_stats_update_derived` between lines 407 and 417: the rate, and `dtime`. -/
  pend : Option (Rat × Rat)
  g : Option G
  /-- Replies delivered. -/
  outs : List (List UInt8)

/-- What `rtpp_stats_ctor` leaves behind, rtpp_stats.c:196-263, at time `t0`. -/
def init (t0 : Rat) : St := ⟨fun _ => 0, fun _ => 0, t0, 0, none, none, []⟩

inductive Ev where
  /-- `rtpp_stats_updatebyname`, rtpp_stats.c:301-308. -/
  | add (name : List UInt8) (n : Nat)
  /-- `rtpp_stats_updatebyidx`, rtpp_stats.c:294-299. -/
  | addIdx (i : Int) (n : Nat)
  /-- `rtpp_stats_updatebyname_d`, rtpp_stats.c:310-317. -/
  | addD (name : List UInt8) (x : Rat)
  /-- `rtpp_stats_update_derived` up to the load of the source, and the store of the rate. -/
  | tick (t : Rat)
  | tock
  /-- `handle_get_stats` is entered, with the reply so far (the cookie); one name is answered; the loop is over. -/
  | gStart (b : Rep) (verbose : Bool) (ns : List (List UInt8))
  | gNext
  | gEnd

/-- `rtpp_stats_updatebyidx_internal` with `RTPP_CNT_U64`, rtpp_stats.c:273-285. -/
def addU (s : St) (i : Int) (n : Nat) : Except Fault St :=
  if i < 0 ∨ i ≥ table.length then .ok s
  else if kind i.toNat ≠ .u64 then .error .ub
  else .ok { s with u := fun j => if j = i.toNat then (s.u j + n) % 2 ^ 64 else s.u j }

/-- The same with `RTPP_CNT_DBL`, rtpp_stats.c:281-282, 286-290. -/
def addF (s : St) (i : Int) (x : Rat) : Except Fault St :=
  if i < 0 ∨ i ≥ table.length then .ok s
  else if kind i.toNat ≠ .dbl then .error .ub
  else .ok { s with d := fun j => if j = i.toNat then s.d j + x else s.d j }

/-- `rtpp_stats_getidxbyname`, rtpp_stats.c:264-271; -1 for a name not found. -/
def getidx (h : Pearson.Table × Pearson.Table) (name : List UInt8) : Except Fault Int :=
  match Pearson.lookup names h name with
  | .error e => .error e
  | .ok none => .ok (-1)
  | .ok (some i) => .ok i

/-- A way to find the index of a name: `getidx` of the hash built by the constructor. -/
abbrev Look := List UInt8 → Except Fault Int

/-- The text of a statistic, rtpp_stats.c:352-361. -/
def show_ (fmtF : Rat → List UInt8) (s : St) (i : Nat) : List UInt8 :=
  match kind i with
  | .u64 => Dec.dec (s.u i)
  | .dbl => fmtF (s.d i)

/-- `rtpp_stats_nstr`, rtpp_stats.c:336-363. -/
def nstr (look : Look) (fmtF : Rat → List UInt8) (s : St) (name : List UInt8) (b : Rep) :
    Except Fault (Rep × Bool) :=
  match look name with
  | .error e => .error e
  | .ok i => if i < 0 then .ok (b, false) else Cmd.appendf b (show_ fmtF s i.toNat)

/-- What comes of one round of the loop: go on, or an error code to deliver. -/
inductive Round where
  | go (b : Rep)
  | err (b : Rep) (code : Int)

/-- One round, rpcpv1_stats.c:59-75: 25 is `ECODE_RTOOBIG_1`, 68 `ECODE_STSFAIL`. -/
def round (look : Look) (fmtF : Rat → List UInt8) (s : St) (verbose more : Bool) (b : Rep)
    (name : List UInt8) : Except Fault Round :=
  match (if more then Cmd.appendf b [32] else .ok (b, true)) with
  | .error e => .error e
  | .ok (b, false) => .ok (.err b 25)
  | .ok (b, true) =>
    match (if verbose then Cmd.appendf b (name ++ [61]) else .ok (b, true)) with
    | .error e => .error e
    | .ok (b, false) => .ok (.err b 25)
    | .ok (b, true) =>
      match nstr look fmtF s name b with
      | .error e => .error e
      | .ok (b, false) => .ok (.err b 68)
      | .ok (b, true) => .ok (.go b)

/-- The command is answered. -/
def out (s : St) (r : Except Fault (List UInt8)) : Except Fault St :=
  match r with
  | .error e => .error e
  | .ok t => .ok { s with g := none, outs := s.outs ++ [t] }

/-- `none`: the event cannot happen now. -/
def step (look : Look) (fmtF : Rat → List UInt8) (s : St) : Ev → Option (Except Fault St)
  | .add name n => some (match look name with
    | .error e => .error e
    | .ok i => addU s i n)
  | .addIdx i n => some (addU s i n)
  | .addD name x => some (match look name with
    | .error e => .error e
    | .ok i => addF s i x)
  | .tick t => if s.pend.isSome then none
    -- assert(dst->last_ts < dtime), rtpp_stats.c:403-407
    else if t ≤ s.lastTs then some (.error .abort)
    else some (.ok { s with
      lastVal := s.u src
      pend := some ((((2 ^ 64 + s.u src - s.lastVal) % 2 ^ 64 : Nat) : Rat) / (t - s.lastTs), t) })
  | .tock => match s.pend with
    | none => none
    -- rtpp_stats.c:415-418
    | some (v, t) => some (.ok { s with d := fun j => if j = dst then v else s.d j, lastTs := t, pend := none })
  | .gStart b v ns => if s.g.isSome then none else some (.ok { s with g := some ⟨b, v, false, ns⟩ })
  | .gNext => match s.g with
    | none => none
    | some g => match g.rest with
      | [] => none
      | n :: ns => some (match round look fmtF s g.verbose g.more g.b n with
        | .error e => .error e
        | .ok (.err b code) => out s (Cmd.deliverError b code)
        | .ok (.go b) => .ok { s with g := some ⟨b, g.verbose, true, ns⟩ })
  | .gEnd => match s.g with
    | none => none
    | some g => match g.rest with
      -- rpcpv1_stats.c:76-80
      | [] => some (out s (Cmd.finishLine g.b))
      | _ :: _ => none

def run (look : Look) (fmtF : Rat → List UInt8) (s : St) : List Ev → Option (Except Fault St)
  | [] => some (.ok s)
  | e :: es => match step look fmtF s e with
    | none => none
    | some (.error f) => some (.error f)
    | some (.ok s') => run look fmtF s' es

end Verif.Stats
