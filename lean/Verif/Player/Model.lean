import Verif.Basic
import Mathlib.Algebra.Order.Field.Rat
import Mathlib.Data.Rat.Defs
import Mathlib.Tactic.Linarith

/-!
# The player of prompts (src/rtpp_server.c)

Modelled: `rtpp_server_ctor` (89-140) after the file has been opened, `rtpp_server_get` (150-239), `rtpp_server_start` (277-286), and of
rtpp_proc_servers.c the loop of `process_rtp_servers_foreach` (124-147).

The prompt is a regular file that does not change: `read` gives what is there, `lseek` works.  The three random numbers of the constructor and the
failures of the allocator are inputs.  Times are rationals; `rnd` stands for the rounding of the sums and quotients of doubles.
-/

namespace Verif.Player

/-- `struct rtpp_server_priv` (59-70): the header that is kept (`pt`, `mbt`, `seq`, `ts`, `ssrc`), the place in the file, `loop`, `dts`, `ptime`. -/
structure Srv where
  pt : Nat
  mbt : Nat
  seq : Nat
  ts : Nat
  ssrc : Nat
  pos : Nat
  loop : Int
  dts : Nat
  ptime : Int
  started : Bool
  btime : ℚ

/-- Lines 114-129; `pt` is a field of seven bits. -/
def ctor (codec loop ptime : Int) (seq ts ssrc : Nat) : Srv :=
  { pt := (codec % 128).toNat
    mbt := 1
    seq := seq % 2 ^ 16
    ts := ts % 2 ^ 32
    ssrc := ssrc % 2 ^ 32
    pos := 0
    loop := if loop > 0 then loop - 1 else loop
    dts := 0
    ptime := if ptime > 0 then ptime else 10
    started := false
    btime := 0 }

/-- Lines 284-285. -/
def start (s : Srv) (dtime : ℚ) : Srv := { s with btime := dtime, started := true }

/-- Lines 166-199: bytes and milliseconds of a frame. -/
def frame : Nat → Option (Nat × Nat)
  | 0 | 8 => some (8, 1)
  | 18 => some (10, 10)
  | 4 => some (24, 30)
  | 3 => some (33, 20)
  | 9 => some (8, 1)
  | _ => none

/-- Lines 201-203. -/
def frames (ptime : Int) (ticks : Nat) : Nat := (ptime / ticks).toNat + (if ptime % ticks ≠ 0 then 1 else 0)

/-- `read`: the bytes from a place of the file. -/
def readAt (f : List UInt8) (pos n : Nat) : List UInt8 := (f.drop pos).take n

/-- The time compared with `dtime` in line 161. -/
def due (rnd : ℚ → ℚ) (btime : ℚ) (dts : Nat) : ℚ := rnd (btime + rnd ((dts : ℚ) / 1000))

inductive Res where
  | later | error | enomem | eof
  | pkt (bytes : List UInt8)
  deriving DecidableEq, Repr

def byte (n : Nat) : UInt8 := UInt8.ofNat (n % 256)

/-- The header in memory order: version 2, no padding, no extension, no CSRC. -/
def header (s : Srv) : List UInt8 :=
  [byte 0x80, byte (s.mbt * 128 + s.pt), byte (s.seq / 256), byte s.seq,
   byte (s.ts / 16777216), byte (s.ts / 65536), byte (s.ts / 256), byte s.ts,
   byte (s.ssrc / 16777216), byte (s.ssrc / 65536), byte (s.ssrc / 256), byte s.ssrc]

def intMax : Nat := 2147483647
def intMin : Int := -2147483648

/-- `MAX_RPKT_LEN` -/
def bufLen : Nat := 8192

/-- Lines 227-238. -/
def emit (s : Srv) (rticks : Nat) (payload : List UInt8) : Srv × Res :=
  ({ s with mbt := 0, ts := (s.ts + 8000 * rticks / 1000) % 2 ^ 32, seq := (s.seq + 1) % 2 ^ 16 }, .pkt (header s ++ payload))

/-- Lines 216-225: the payload, from the place where the last one ended or, if there is not enough and there are repetitions left, from the
beginning.  `read` writes behind the 12 bytes of the header. -/
def fill (f : List UInt8) (s : Srv) (rlen : Nat) : Except Fault (Srv × Option (List UInt8)) :=
  let a := readAt f s.pos rlen
  if bufLen < 12 + a.length then .error .ub
  else if a.length = rlen then .ok ({ s with pos := s.pos + a.length }, some a)
  else if s.loop = 0 then .ok ({ s with pos := s.pos + a.length }, none)
  else
    let b := readAt f 0 rlen
    if bufLen < 12 + b.length then .error .ub
    else if b.length ≠ rlen then .ok ({ s with pos := b.length }, none)
    else if s.loop = -1 then .ok ({ s with pos := b.length }, some b)
    else if s.loop = intMin then .error .ub
    else .ok ({ s with pos := b.length, loop := s.loop - 1 }, some b)

/-- `rtpp_server_get`. -/
def get (rnd : ℚ → ℚ) (f : List UInt8) (s : Srv) (dtime : ℚ) (mem : Bool) : Except Fault (Srv × Res) :=
  if s.started = false ∨ due rnd s.btime s.dts > dtime then .ok (s, .later)
  else
    match frame s.pt with
    | none => .ok (s, .error)
    | some (bpf, tpf) =>
      let n := frames s.ptime tpf
      if intMax < bpf * n ∨ intMax < 8000 * (tpf * n) then .error .ub
      else
        let s := { s with dts := s.dts + tpf * n }
        if mem = false then .ok (s, .enomem)
        else
          match fill f s (bpf * n) with
          | .error e => .error e
          | .ok (s, none) => .ok (s, .eof)
          | .ok (s, some a) => .ok (emit s (tpf * n) a)

/-- The loop of lines 124-147 of rtpp_proc_servers.c: packets until there is none; what ended it.  `mems`: the allocations, one each time
around; `none`: the loop is not over when they are used up. -/
def poll (rnd : ℚ → ℚ) (f : List UInt8) (s : Srv) (dtime : ℚ) : List Bool → Except Fault (Srv × List (List UInt8) × Option Res)
  | [] => .ok (s, [], none)
  | m :: ms =>
    match get rnd f s dtime m with
    | .error e => .error e
    | .ok (s, .pkt p) =>
      match poll rnd f s dtime ms with
      | .error e => .error e
      | .ok (s, ps, r) => .ok (s, p :: ps, r)
    | .ok (s, r) => .ok (s, [], some r)

end Verif.Player
