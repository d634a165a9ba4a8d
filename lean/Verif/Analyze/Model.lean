import Verif.Basic

/-!
# Model of the RTP statistics (`src/rtp_analyze.c`, `src/rtpp_analyzer.c`)

Unsigned 32-bit quantities are natural numbers reduced by `u32` wherever the code computes with them; `long long` counters
are natural numbers.  Floating point is abstract: arrival times are given as the 64-bit integer that
`rtp_dtime2time_ts64` makes of them, the three jitter values of an SSRC are a value of a type `J` that is advanced by an
unknown function of itself and of the deviation.  `base_rtime`, `base_ts` only serve logging and are left out.  The ring
buffer of time stamps is the list of the last ten (C06).
-/

namespace Verif.Analyze

def u32 (x : Nat) : Nat := x % 4294967296

/-- A parsed packet, with the outcome of the allocation of a new record if one is needed. -/
structure Pkt where
  seq : Nat
  ssrc : Nat
  ts : Nat
  marker : Bool
  /-- the payload type has a clock rate -/
  rated : Bool
  audio : Bool
  /-- arrival time in units of the clock rate -/
  rt : Nat
  oom : Bool
  deriving DecidableEq, Repr

/-! ## Sequence numbers -/

/-- `struct rtpp_session_stat_last`, rtp_analyze.h:43-55.  `seen` is the table of 131072 bits. -/
structure Last where
  pcount : Nat
  minSeq : Nat
  maxSeq : Nat
  off : Nat
  ssrc : Nat
  seen : Nat → Bool
  dups : Nat

/-- `struct rtpp_session_stat`, rtp_analyze.h:59-68. -/
structure Stat where
  changes : Nat
  psent : Nat
  precvd : Nat
  dups : Nat
  desync : Nat
  seqres : Nat
  last : Last

/-- `rtpp_stats_init`, rtp_analyze.c:210-221. -/
def Stat.init : Stat := ⟨0, 0, 0, 0, 0, 0, ⟨0, 0, 0, 0, 0, fun _ => false, 0⟩⟩

/-- `idx = (seq % 131072) >> 5; seen[idx] |= 1 << (rseq & 31)`. -/
def setBit (seen : Nat → Bool) (seq rseq : Nat) : Nat → Bool :=
  fun b => if b = seq % 131072 / 32 * 32 + rseq % 32 then true else seen b

/-- `idx = (seq % 131072) >> 5; (seen[idx] >> (seq & 31)) & 1`. -/
def getBit (seen : Nat → Bool) (seq : Nat) : Bool := seen (seq % 131072 / 32 * 32 + seq % 32)

/-- `update_rtpp_totals(stat, stat)`, rtp_analyze.c:510-524. -/
def totals (s : Stat) : Stat :=
  if s.last.pcount = 0 then s
  else { s with
    psent := u32 (s.psent + u32 (s.last.maxSeq + 4294967296 - s.last.minSeq + 1))
    precvd := u32 (s.precvd + s.last.pcount)
    dups := u32 (s.dups + s.last.dups) }

inductive Rval where
  | ok
  | ssrcChg
  | err
  deriving DecidableEq, Repr

inductive Hint where
  | normal
  | seqReset
  | ssrcReset
  deriving DecidableEq, Repr

/-- A new start at `seq`: the table holds this packet only. -/
def restart (l : Last) (seq rseq : Nat) : Last :=
  { l with dups := 0, maxSeq := seq, minSeq := seq, pcount := 1, seen := setBit (fun _ => false) seq rseq }

/-- Lines 482-507, after the test for duplicates. -/
def place (s : Stat) (seq rseq : Nat) : Stat × Rval :=
  let l := { s.last with seen := setBit s.last.seen seq rseq }
  if l.maxSeq ≤ seq then ({ s with last := { l with maxSeq := seq, pcount := l.pcount + 1 } }, .ok)
  else if l.minSeq ≤ seq then ({ s with last := { l with pcount := l.pcount + 1 } }, .ok)
  else if l.off = 0 then ({ s with last := { l with minSeq := seq, pcount := l.pcount + 1 } }, .ok)
  else ({ s with last := l }, .err)

/-- Lines 473-507. -/
def count (s : Stat) (seq rseq : Nat) : Stat × Rval :=
  if getBit s.last.seen seq then
    ({ s with last := { s.last with dups := u32 (s.last.dups + 1) } }, .ok)
  else place s seq rseq

/-- The wrap of the sequence numbers, lines 449-456. -/
def wrap (s : Stat) : Stat :=
  let off := u32 (s.last.off + 65536)
  { s with last := { s.last with
      off := off
      seen := fun b => if off % 131072 = 65536 then (if 65536 ≤ b then false else s.last.seen b)
        else (if b < 65536 then false else s.last.seen b) } }

/-- Lines 443-471 and what follows. -/
def track (s : Stat) (seq rseq : Nat) : Stat × Rval :=
  if s.last.maxSeq % 65536 < 536 ∧ 65000 < rseq then count s (u32 (seq + 4294967296 - 65536)) rseq
  else if 65000 < s.last.maxSeq ∧ seq < s.last.maxSeq - 65000 then count (wrap s) (u32 (seq + 65536)) rseq
  else if u32 (seq + 536) < s.last.maxSeq ∨ u32 (s.last.maxSeq + 536) < seq then
    let t := totals s
    ({ t with desync := u32 (t.desync + 1), last := restart t.last seq rseq }, .ok)
  else count s seq rseq

/-- `update_rtpp_stats`, rtp_analyze.c:346-508, without the jitter; the hint given to `update_jitter_stats`. -/
def updateSeq (s : Stat) (p : Pkt) : Stat × Rval × Hint :=
  if s.changes = 0 then
    let seen := setBit s.last.seen p.seq p.seq
    ({ s with changes := 1, last := { s.last with ssrc := p.ssrc, maxSeq := p.seq, minSeq := p.seq, pcount := 1, seen := seen } },
      .ok, .normal)
  else if s.last.ssrc ≠ p.ssrc then
    let t := totals s
    ({ t with changes := u32 (t.changes + 1), last := { (restart t.last p.seq p.seq) with ssrc := p.ssrc } }, .ssrcChg, .ssrcReset)
  else
    let seq := u32 (p.seq + s.last.off)
    if p.marker ∧ seq < s.last.maxSeq ∧ s.last.maxSeq % 65536 ≠ 65535 then
      let t := totals s
      ({ t with seqres := u32 (t.seqres + 1), last := restart t.last seq p.seq }, .ok, .seqReset)
    else
      let r := track s seq p.seq
      (r.1, r.2, if seq = 0 ∧ s.last.maxSeq % 65536 < 65500 then .seqReset else .normal)

/-! ## Jitter -/

variable {J : Type}

/-- `struct rtp_analyze_jdata_ssrc`, rtp_analyze.c:65-78; `j` stands for `jlast`, `jmax`, `jtotal`. -/
structure Jss (J : Type) where
  prevRt : Nat
  prevTs : Nat
  tsr : Nat
  tsj : Nat
  dcount : Nat
  rcount : Nat
  pcount : Nat
  j : J

/-- `struct rtp_analyze_jdata`, rtp_analyze.c:80-85. -/
structure Jdata (J : Type) where
  jss : Jss J
  dedup : List Nat
  /-- `none` if not initialised -/
  ssrc : Option Nat

/-- The unknown arithmetic: initial values and what a deviation makes of them. -/
structure Fl (J : Type) where
  zero : J
  next : J → Nat → J

/-- After `memset`. -/
def Jss.zero (fl : Fl J) : Jss J := ⟨0, 0, 0, 0, 0, 0, 0, fl.zero⟩

/-- `rtp_analyze_jdata_ctor`, rtp_analyze.c:223-242. -/
def Jdata.new (fl : Fl J) : Jdata J := ⟨.zero fl, [], none⟩

/-- Conversion to `int64_t`. -/
def i64 (x : Int) : Int := (x + 9223372036854775808) % 18446744073709551616 - 9223372036854775808

/-- Lines 200-205. -/
def save (d : Jdata J) (p : Pkt) : Jdata J :=
  { d with
    dedup := if p.audio then (p.ts :: d.dedup).take 10 else d.dedup
    jss := { d.jss with prevRt := p.rt, prevTs := p.ts } }

/-- `update_jitter_stats`, rtp_analyze.c:117-206. -/
def updateJ (fl : Fl J) (d : Jdata J) (p : Pkt) (hint : Hint) : Jdata J :=
  if p.audio ∧ p.ts ∈ d.dedup then
    { d with jss :=
        if d.jss.pcount = 1 then { d.jss with dcount := d.jss.dcount + 1, prevRt := p.rt, prevTs := p.ts }
        else { d.jss with dcount := d.jss.dcount + 1 } }
  else if d.jss.prevRt = 0 then save { d with jss := { d.jss with pcount := d.jss.pcount + 1 } } p
  else if hint = .seqReset then save { d with jss := { d.jss with rcount := d.jss.rcount + 1 } } p
  else
    let delta := (i64 ((d.jss.prevRt : Int) - p.rt)).natAbs
    if p.ts < d.jss.prevTs ∧ ¬ (2147483648 < d.jss.prevTs - p.ts) ∧ delta ≠ 0 ∧ delta * 50 < d.jss.prevTs - p.ts then
      save { d with jss := { d.jss with tsr := d.jss.tsr + 1 } } p
    else if d.jss.prevTs ≤ p.ts ∧ delta ≠ 0 ∧ delta * 1024 < p.ts - d.jss.prevTs then
      save { d with jss := { d.jss with tsj := d.jss.tsj + 1 } } p
    else
      let wrcorr : Int := if p.ts < d.jss.prevTs ∧ 2147483648 < d.jss.prevTs - p.ts then 4294967296 else 0
      let dval := i64 (((p.rt : Int) - (p.ts + wrcorr)) - ((d.jss.prevRt : Int) - d.jss.prevTs))
      save { d with jss := { d.jss with j := fl.next d.jss.j dval.natAbs, pcount := d.jss.pcount + 1 } } p

/-- `struct rtp_analyze_jitter`, rtp_analyze.c:56-63; `facc` lists the jitter values folded into `jmax_acum` and
`jtotal_acum`. -/
structure Jit (J : Type) where
  list : List (Jdata J)
  jdlen : Nat
  facc : List J
  jvacc : Nat
  pacc : Nat

/-- `rtp_analyze_jt_ctor`, rtp_analyze.c:244-264. -/
def Jit.init (fl : Fl J) : Jit J := ⟨[.new fl], 1, [], 0, 0⟩

/-- The re-use of the last record, lines 311-330, and its move to the front, 340-342. -/
def recycle (fl : Fl J) (jp : Jit J) (last : Jdata J) (ssrc : Nat) : Jit J :=
  let jp := { jp with list := { last with ssrc := some ssrc, jss := .zero fl, dedup := [] } :: jp.list.dropLast }
  if 2 ≤ last.jss.pcount then
    { jp with facc := last.jss.j :: jp.facc, jvacc := jp.jvacc + (last.jss.pcount - 1), pacc := jp.pacc + last.jss.pcount }
  else jp

/-- `jdata_by_ssrc`, rtp_analyze.c:291-344: the position of the record in the list; `none` for the return of NULL.  A list
that is empty is an access through NULL; it does not happen. -/
def bySsrc (fl : Fl J) (jp : Jit J) (ssrc : Nat) (oom : Bool) : Except Fault (Jit J × Option Nat) :=
  match jp.list with
  | [] => .error .ub
  | first :: rest =>
    if first.ssrc = none then .ok ({ jp with list := { first with ssrc := some ssrc } :: rest }, some 0)
    else
      match jp.list.findIdx? (fun d => d.ssrc == some ssrc) with
      | some i => .ok (jp, some i)
      | none =>
        if jp.jdlen = 10 then
          match jp.list.getLast? with
          | none => .error .ub
          | some last => .ok (recycle fl jp last ssrc, some 0)
        else if oom then .ok (jp, none)
        else .ok ({ jp with list := { (Jdata.new fl) with ssrc := some ssrc } :: jp.list, jdlen := jp.jdlen + 1 }, some 0)

/-! ## The analyzer object -/

/-- `struct rtpp_analyzer_priv`, rtpp_analyzer.c. -/
structure An (J : Type) where
  stat : Stat
  jit : Jit J
  pecount : Nat
  aecount : Nat

def An.init (fl : Fl J) : An J := ⟨.init, .init fl, 0, 0⟩

/-- `update_rtpp_stats` as a whole. -/
def update (fl : Fl J) (a : An J) (p : Pkt) : Except Fault (An J × Rval) :=
  match bySsrc fl a.jit p.ssrc p.oom with
  | .error e => .error e
  | .ok (jit, none) => .ok ({ a with jit := jit }, .err)
  | .ok (jit, some i) =>
    let r := updateSeq a.stat p
    let jit' := if p.rated then
        { jit with list := jit.list.modify i (fun d => updateJ fl d p r.2.2) } else jit
    .ok ({ a with stat := r.1, jit := jit' }, r.2.1)

/-- `rtpp_analyzer_update`, rtpp_analyzer.c:93-111; `none` is a packet that cannot be parsed. -/
def analyze (fl : Fl J) (a : An J) (p : Option Pkt) : Except Fault (An J) :=
  match p with
  | none => .ok { a with pecount := a.pecount + 1 }
  | some p =>
    match update fl a p with
    | .error e => .error e
    | .ok (a, .err) => .ok { a with aecount := a.aecount + 1 }
    | .ok (a, _) => .ok a

/-- A stream of packets. -/
def run (fl : Fl J) : An J → List (Option Pkt) → Except Fault (An J)
  | a, [] => .ok a
  | a, p :: ps =>
    match analyze fl a p with
    | .error e => .error e
    | .ok a => run fl a ps

/-- What `rtpp_analyzer_get_stats`, rtpp_analyzer.c:113-135, reports. -/
structure Report where
  psent : Nat
  precvd : Nat
  pdups : Nat
  pecount : Nat
  aecount : Nat
  changes : Nat
  deriving DecidableEq, Repr

def report (a : An J) : Report :=
  let t := totals a.stat
  ⟨t.psent, t.precvd, t.dups, a.pecount, a.aecount, a.stat.changes⟩

/-- `get_jitter_stats`, rtp_analyze.c:526-563: the number of records used, the number of deviations and of packets, the
jitter values that enter. -/
def jstats (jp : Jit J) : Nat × Nat × Nat × List J :=
  let l := (jp.list.takeWhile (fun d => d.ssrc.isSome)).filter (fun d => 2 ≤ d.jss.pcount)
  if l.isEmpty then (0, 0, 0, [])
  else (l.length, jp.jvacc + (l.map (fun d => d.jss.pcount - 1)).sum, jp.pacc + (l.map (fun d => d.jss.pcount)).sum,
    jp.facc ++ l.map (fun d => d.jss.j))

end Verif.Analyze
