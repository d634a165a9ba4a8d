import Verif.Analyze.Model
import Verif.Cmd.Reply
import Verif.Util.Dec

/-!
# Model of the command `Q` and of what it reads

`src/commands/rpcpv1_query.c`, `src/rtpp_pcnt_strm.c`, `get_stats` of `src/rtpp_pcount.c` and of `src/rtpp_analyzer.c`,
`get_ttl` of `src/rtpp_pipe.c`.

The media threads and the timer change a session at any moment, also while `Q` is being answered.  Reads of the handler
are numbered; the `k`-th one sees the state `v k`.  One read is one critical section (rtpp_pcnt_strm.c:97-107), one atomic
load (rtpp_pcount.c:175-184, rtpp_ttl.c:105-113) or one plain load of a field of the analyzer, which has no lock.  Plain
loads yield a value that was stored; the jitter record is read at once, although the code walks a list without a lock.
Doubles are rationals: rounding is not modelled, and the text that `%f` produces is a parameter.
-/

namespace Verif.Query

open Verif.Cmd (Rep)

/-- `struct rtpp_pcnts_strm`, rtpp_pcnts_strm.h:32-41: the `mono` parts. -/
structure Pc where
  n : Nat
  first : Rat
  last : Rat
  ipi : Rat
  deriving DecidableEq

/-- `rtpp_pcnt_strm_ctor`, rtpp_pcnt_strm.c:68-86. -/
def Pc.zero : Pc := ⟨0, 0, 0, 0⟩

/-- `fabs`. -/
def fabs (x : Rat) : Rat := if x < 0 then -x else x

/-- `rtpp_pcnt_strm_reg_pktin`, rtpp_pcnt_strm.c:109-132. -/
def reg (p : Pc) (t : Rat) : Pc :=
  let p := { p with n := (p.n + 1) % 2 ^ 64 }
  let p := if p.first = 0 then { p with first := t }
    else if p.ipi < fabs (t - p.last) then { p with ipi := fabs (t - p.last) } else p
  if p.last < t then { p with last := t } else p

variable {J : Type}

/-- What `Q` shows of a session; streams are `false` for 0 and `true` for 1. -/
structure St (J : Type) where
  ttl : Bool → Int
  pc : Bool → Pc
  an : Bool → Analyze.An J
  relayed : Nat
  dropped : Nat

inductive Ev where
  /-- A packet is received for a stream; it is analysed (`none`: it cannot be parsed). -/
  | rcv (leg : Bool) (t : Rat)
  | ana (leg : Bool) (p : Option Analyze.Pkt)
  /-- `rtpp_pcount_reg_reld`, `rtpp_pcount_reg_drop`. -/
  | relay
  | drop
  /-- A timer is changed. -/
  | timer (leg : Bool) (v : Int)

def upd {α : Type} (f : Bool → α) (i : Bool) (x : α) : Bool → α := fun j => if j = i then x else f j

def step (fl : Analyze.Fl J) (s : St J) : Ev → Except Fault (St J)
  | .rcv leg t => .ok { s with pc := upd s.pc leg (reg (s.pc leg) t) }
  | .ana leg p => match Analyze.analyze fl (s.an leg) p with
    | .error e => .error e
    | .ok a => .ok { s with an := upd s.an leg a }
  | .relay => .ok { s with relayed := (s.relayed + 1) % 2 ^ 64 }
  | .drop => .ok { s with dropped := (s.dropped + 1) % 2 ^ 64 }
  | .timer leg x => .ok { s with ttl := upd s.ttl leg x }

def run (fl : Analyze.Fl J) (s : St J) : List Ev → Except Fault (St J)
  | [] => .ok s
  | e :: es => match step fl s e with
    | .error f => .error f
    | .ok s' => run fl s' es

/-- A new session. -/
def init (fl : Analyze.Fl J) (ttl : Bool → Int) : St J := ⟨ttl, fun _ => .zero, fun _ => .init fl, 0, 0⟩

/-! ## The reads -/

/-- `rtpp_pipe_get_ttl`, rtpp_pipe.c:166-174, from read `k` on. -/
def getTtl (v : Nat → St J) (k : Nat) : Int := min ((v k).ttl false) ((v (k + 1)).ttl true)

/-- `struct rtpa_stats`. -/
structure Rst where
  psent : Nat
  precvd : Nat
  pdups : Nat
  plost : Nat
  pecount : Nat

/-- `rtpp_analyzer_get_stats`, rtpp_analyzer.c:113-135, with `update_rtpp_totals`, rtp_analyze.c:510-524: nine reads. -/
def getRst (v : Nat → St J) (leg : Bool) (k : Nat) : Rst :=
  let st (i : Nat) := ((v (k + i)).an leg).stat
  let pe := ((v k).an leg).pecount
  if (st 4).last.pcount = 0 then
    ⟨(st 1).psent, (st 2).precvd, (st 3).dups, Analyze.u32 ((st 1).psent + 4294967296 - (st 2).precvd), pe⟩
  else
    let psent := Analyze.u32 ((st 1).psent + Analyze.u32 ((st 5).last.maxSeq + 4294967296 - (st 6).last.minSeq + 1))
    let precvd := Analyze.u32 ((st 2).precvd + (st 7).last.pcount)
    ⟨psent, precvd, Analyze.u32 ((st 3).dups + (st 8).last.dups), Analyze.u32 (psent + 4294967296 - precvd), pe⟩

/-- How doubles are printed: `%f`, and the jitter of a record. -/
structure Fmt (J : Type) where
  f : Rat → List UInt8
  jlast : Analyze.Jit J → List UInt8
  jmax : Analyze.Jit J → List UInt8
  javg : Analyze.Jit J → List UInt8

/-- The counters that can be asked for. -/
inductive Nm where
  | ttl | ina | ino | ipi | jlast | jmax | javg | rel | drp | sent | rcvd | dups | lost | perrs
  deriving DecidableEq, Repr

def str (s : String) : List UInt8 := s.toList.map fun c => UInt8.ofNat c.toNat

/-- The chain of `strcmp`, rpcpv1_query.c:164-242. -/
def find (n : List UInt8) : Option Nm :=
  if n = str "ttl" then some .ttl
  else if n = str "npkts_ina" then some .ina
  else if n = str "npkts_ino" then some .ino
  else if n = str "longest_ipi" then some .ipi
  else if n = str "rtpa_jlast" then some .jlast
  else if n = str "rtpa_jmax" then some .jmax
  else if n = str "rtpa_javg" then some .javg
  else if n = str "nrelayed" then some .rel
  else if n = str "ndropped" then some .drp
  else if n = str "rtpa_nsent" then some .sent
  else if n = str "rtpa_nrcvd" then some .rcvd
  else if n = str "rtpa_ndups" then some .dups
  else if n = str "rtpa_nlost" then some .lost
  else if n = str "rtpa_perrs" then some .perrs
  else none

/-- `rst`, `jrst`, `pcnts`, `pst` with the flags `…_pulled`. -/
structure Pull (J : Type) where
  rst : Option Rst
  jrst : Option (Analyze.Jit J)
  pcnt : Option (Nat × Nat)
  pst : Option (Pc × Pc)

/-- `PULL_RST`, rpcpv1_query.c:89-93; the macros yield the number of the next read. -/
def pullRst (v : Nat → St J) (idx : Bool) (c : Pull J) (k : Nat) : Rst × Pull J × Nat :=
  match c.rst with
  | some r => (r, c, k)
  | none => (getRst v idx k, { c with rst := some (getRst v idx k) }, k + 9)

/-- `PULL_JRST`, rpcpv1_query.c:95-100. -/
def pullJ (v : Nat → St J) (idx : Bool) (c : Pull J) (k : Nat) : Analyze.Jit J × Pull J × Nat :=
  match c.jrst with
  | some r => (r, c, k)
  | none => (((v k).an idx).jit, { c with jrst := some ((v k).an idx).jit }, k + 1)

/-- `PULL_PCNT`, rpcpv1_query.c:102-106. -/
def pullPcnt (v : Nat → St J) (c : Pull J) (k : Nat) : (Nat × Nat) × Pull J × Nat :=
  match c.pcnt with
  | some r => (r, c, k)
  | none => (((v k).relayed, (v (k + 1)).dropped), { c with pcnt := some ((v k).relayed, (v (k + 1)).dropped) }, k + 2)

/-- `PULL_PCNT_STRM`, rpcpv1_query.c:108-113. -/
def pullPst (v : Nat → St J) (idx : Bool) (c : Pull J) (k : Nat) : (Pc × Pc) × Pull J × Nat :=
  match c.pst with
  | some r => (r, c, k)
  | none => (((v k).pc idx, (v (k + 1)).pc (!idx)), { c with pst := some ((v k).pc idx, (v (k + 1)).pc (!idx)) }, k + 2)

/-- The text of one counter, rpcpv1_query.c:164-242. -/
def item (v : Nat → St J) (fm : Fmt J) (idx : Bool) (n : Nm) (c : Pull J) (k : Nat) : List UInt8 × Pull J × Nat :=
  match n with
  | .ttl => (Cmd.fmtD (getTtl v k), c, k + 2)
  | .ina => let (r, c, k) := pullPst v idx c k; (Dec.dec r.1.n, c, k)
  | .ino => let (r, c, k) := pullPst v idx c k; (Dec.dec r.2.n, c, k)
  | .ipi => let (r, c, k) := pullPst v idx c k; (fm.f r.1.ipi, c, k)
  | .jlast => let (r, c, k) := pullJ v idx c k; (fm.jlast r, c, k)
  | .jmax => let (r, c, k) := pullJ v idx c k; (fm.jmax r, c, k)
  | .javg => let (r, c, k) := pullJ v idx c k; (fm.javg r, c, k)
  | .rel => let (r, c, k) := pullPcnt v c k; (Dec.dec r.1, c, k)
  | .drp => let (r, c, k) := pullPcnt v c k; (Dec.dec r.2, c, k)
  | .sent => let (r, c, k) := pullRst v idx c k; (Dec.dec r.psent, c, k)
  | .rcvd => let (r, c, k) := pullRst v idx c k; (Dec.dec r.precvd, c, k)
  | .dups => let (r, c, k) := pullRst v idx c k; (Dec.dec r.pdups, c, k)
  | .lost => let (r, c, k) := pullRst v idx c k; (Dec.dec r.plost, c, k)
  | .perrs => let (r, c, k) := pullRst v idx c k; (Dec.dec r.pecount, c, k)

/-! ## The handler -/

/-- The loop, rpcpv1_query.c:152-249: the reply and `none`, or an error code (26 is `ECODE_RTOOBIG_2`, 62
`ECODE_QRYFAIL`).  An `appendf` that fails leads to `CHECK_OVERFLOW` next, or after the loop. -/
def names (v : Nat → St J) (fm : Fmt J) (idx verbose : Bool) : Bool → Rep → Pull J → Nat → List (List UInt8) →
    Except Fault (Rep × Option Int)
  | _, b, _, _, [] => .ok (b, none)
  | more, b, c, k, n :: ns =>
    match (if more then Cmd.appendf b [32] else .ok (b, true)) with
    | .error e => .error e
    | .ok (b, false) => .ok (b, some 26)
    | .ok (b, true) =>
      match (if verbose then Cmd.appendf b (n ++ [61]) else .ok (b, true)) with
      | .error e => .error e
      | .ok (b, false) => .ok (b, some 26)
      | .ok (b, true) =>
        match find n with
        | none => .ok (b, some 62)
        | some m =>
          match Cmd.appendf b (item v fm idx m c k).1 with
          | .error e => .error e
          | .ok (b, false) => .ok (b, some 26)
          | .ok (b, true) => names v fm idx verbose true b (item v fm idx m c k).2.1 (item v fm idx m c k).2.2 ns

/-- The text of `handle_query_simple`, rpcpv1_query.c:67-87. -/
def simple (v : Nat → St J) (idx verbose : Bool) : List UInt8 :=
  let ttl := Cmd.fmtD (getTtl v 0)
  let rel := Dec.dec (v 2).relayed
  let drp := Dec.dec (v 3).dropped
  let ina := Dec.dec ((v 4).pc idx).n
  let ino := Dec.dec ((v 5).pc (!idx)).n
  if verbose then
    str "ttl=" ++ ttl ++ str " npkts_ina=" ++ ina ++ str " npkts_ino=" ++ ino ++ str " nrelayed=" ++ rel ++ str " ndropped=" ++ drp
  else ttl ++ [32] ++ ina ++ [32] ++ ino ++ [32] ++ rel ++ [32] ++ drp

/-- `handle_query`, rpcpv1_query.c:118-302, and the delivery of its error code, rtpp_command.c:689-694.  `mods` is what
follows the letter, `args` the names asked for, `subc` the results of the subcommands; 19 is `ECODE_PARSE_8`.  The result
of `handle_query_simple` is not looked at. -/
def query (v : Nat → St J) (fm : Fmt J) (idx : Bool) (b : Rep) (mods : List UInt8) (args : List (List UInt8))
    (subc : List Cmd.SubRes) : Except Fault (List UInt8) :=
  if mods.all (fun c => c == 118 || c == 86) = false then Cmd.deliverError b 19
  else if args = [] then
    match Cmd.appendf b (simple v idx (!mods.isEmpty)) with
    | .error e => .error e
    | .ok (b, _) => Cmd.queryTail b subc
  else
    match names v fm idx (!mods.isEmpty) false b ⟨none, none, none, none⟩ 0 args with
    | .error e => .error e
    | .ok (b, some code) => Cmd.deliverError b code
    | .ok (b, none) => Cmd.queryTail b subc

end Verif.Query
