import Verif.Eaud.Model
import Verif.G711.Model
import Mathlib.Data.Rat.Floor

/-!
# Model of `extractaudio/decoder.c`

The codec libraries are functions from frames to samples with an abstract state; which of them are compiled in is a
parameter.  Floating point is abstract (`Fp`); `dticks`, a `double` that only ever gets whole numbers added, is a natural
number.  The input buffer is the payload and nothing else: reading past the payload is a fault, though in the program there
may be further bytes of the file.  The output buffer has 4096 samples, writing past it is a fault.
-/

namespace Verif.Eaud
open Verif.Rtp (Info)

variable {T K : Type}

def u32 (x : Nat) : Nat := x % 4294967296

/-- Writing samples into the buffer. -/
def put (mem : List Int) (off : Nat) (xs : List Int) : Except Fault (List Int) :=
  if off + xs.length ≤ mem.length then .ok (mem.take off ++ xs ++ mem.drop (off + xs.length)) else .error .ub

/-- The codec libraries, configure.ac:190-240; `bcg` is `ENABLE_BCG729`. -/
structure Lib (K : Type) where
  g729 : Bool
  bcg : Bool
  g722 : Bool
  gsm : Bool
  /-- a new state -/
  init : K
  /-- success of the allocations, in turn -/
  alloc : Nat → Bool
  /-- `g729_decode_frame`, `bcg729Decoder`; `none` for a missing frame -/
  dec729 : K → Option (List UInt8) → List Int × K
  dec722 : K → List UInt8 → List Int × K
  decGsm : K → List UInt8 → List Int × K

/-- Arithmetic with `double`. -/
structure Fp (T : Type) where
  /-- `(double)secs > time - stime + 1.0` -/
  ahead : Nat → T → T → Bool
  /-- `(unsigned)(cticks - (time - stime) * 8000)`, `none` if that is undefined -/
  resync : Nat → T → T → Option Nat
  /-- `time - stime - dticks / 8000.0 > 0.2` -/
  late : T → T → Nat → Bool
  /-- `(unsigned)(((time - stime) * 8000 - dticks) / 2)` -/
  half : T → T → Nat → Option Nat

/-- `struct decoder_stream`, decoder.h:55-79; `pp` is the rest of the list. -/
structure Dec (T K : Type) where
  pp : List (Packet T)
  nticks : Nat
  sticks : Nat
  lpt : Nat
  obuf : List Int
  obp : Nat
  oblen : Nat
  c729 : Option K
  c722 : Option K
  cgsm : Option K
  tries : Nat
  stime : Option T
  dticks : Nat
  nosync : Bool

/-- `decoder_new`, decoder.c:52-79, if memory can be had. -/
def Dec.new (sp : List (Packet T)) (nosync : Bool) : Dec T K :=
  match sp with
  | [] => ⟨[], 0, 0, 0, List.replicate 4096 0, 0, 0, none, none, none, 0, none, 0, false⟩
  | p :: _ => ⟨sp, p.info.ts, p.info.ts, Rtp.PCMU, List.replicate 4096 0, 0, 0, none, none, none, 0, some p.time, 0, nosync⟩

/-- The payload: `RPLOAD`, `RPLEN`, session.h:122-123. -/
def Packet.payload (p : Packet T) : List UInt8 := (p.data.drop p.info.dataOffset).take p.info.dataSize

/-- A codec state, made if there is none. -/
def getCtx (l : Lib K) (tries : Nat) : Option K → Option K × Nat
  | some k => (some k, tries)
  | none => (if l.alloc tries then some l.init else none, tries + 1)

/-- The loops of decoder.c:192-200 and 233-240: frames of `fsize` bytes and `ticks` samples.  Bytes left and bytes written
are counted as the program does. -/
def frames (dec : K → List UInt8 → Except Fault (List Int × K)) (fsize ticks : Nat) (ht : 0 < ticks) (inp : List UInt8)
    (pos ibytes obytes : Nat) (k : K) (mem : List Int) : Except Fault (Nat × K × List Int) :=
  if 0 < ibytes ∧ obytes ≤ 8192 - 2 * ticks then
    if inp.length < pos + fsize then .error .ub
    else
      match dec k ((inp.drop pos).take fsize) with
      | .error f => .error f
      | .ok (xs, k) =>
        match put mem (obytes / 2) xs with
        | .error f => .error f
        | .ok mem => frames dec fsize ticks ht inp (pos + fsize) (u32 (ibytes + 4294967296 - fsize)) (obytes + 2 * ticks) k mem
  else .ok (obytes, k, mem)
termination_by 8193 - obytes

/-- `G729_DECODE` with data, g729_compat.h:11, 25, g729_compat.c:9-24. -/
def decode729 (l : Lib K) (k : K) (b : List UInt8) : Except Fault (List Int × K) :=
  if l.bcg ∧ 10 < b.length then .error .abort else .ok (l.dec729 k (some b))

/-- The size of a frame, decoder.c:179-188. -/
def fsize729 (n : Nat) : Option Nat :=
  if n % 10 = 0 then some 10 else if n % 8 = 0 then some 8 else if n % 15 = 0 then some 15 else if n % 2 = 0 then some 2 else none

/-- Codecs with one sample for each byte, decoder.c:157-173, 210-218. -/
def flat (f : List UInt8 → List Int × Dec T K) (d : Dec T K) (b : List UInt8) : Except Fault (Dec T K × Int) :=
  let n := if 8192 < b.length * 2 then 4096 else b.length
  match put d.obuf 0 (f (b.take n)).1 with
  | .error e => .error e
  | .ok m => .ok ({ (f (b.take n)).2 with obuf := m, nticks := u32 (d.nticks + n), dticks := d.dticks + n }, n * 2)

/-- After the loop. -/
def framed (d : Dec T K) (set : Dec T K → K → Dec T K) : Except Fault (Nat × K × List Int) → Except Fault (Dec T K × Int)
  | .error e => .error e
  | .ok (n, k, m) => .ok ({ set d k with obuf := m, nticks := u32 (d.nticks + n / 2), dticks := d.dticks + n / 2 }, n)

/-- `decode_frame`, decoder.c:149-252. -/
def decodeFrame (l : Lib K) (d : Dec T K) (p : Packet T) : Except Fault (Dec T K × Int) :=
  let b := p.payload
  let pt := p.info.pt
  if pt = Rtp.PCMU then flat (fun b => (b.map G711.decU, d)) d b
  else if pt = Rtp.PCMA then flat (fun b => (b.map G711.decA, d)) d b
  else if pt = Rtp.G729 ∧ l.g729 then
    match fsize729 b.length with
    | none => .ok (d, -1)
    | some fs =>
      match getCtx l d.tries d.c729 with
      | (none, t) => .ok ({ d with tries := t }, -1)
      | (some k, t) =>
        framed { d with tries := t } (fun d k => { d with c729 := some k }) (frames (decode729 l) fs 80 (by decide) b 0 b.length 0 k d.obuf)
  else if pt = Rtp.G722 ∧ l.g722 then
    match getCtx l d.tries d.c722 with
    | (none, t) => .ok ({ d with tries := t }, -1)
    | (some k, t) => flat (fun b => ((l.dec722 k b).1, { d with c722 := some (l.dec722 k b).2, tries := t })) d b
  else if pt = Rtp.GSM ∧ l.gsm then
    match getCtx l d.tries d.cgsm with
    | (none, t) => .ok ({ d with tries := t }, -1)
    | (some k, t) =>
      if b.length < 33 then .ok ({ d with cgsm := some k, tries := t }, -1)
      else
        framed { d with tries := t } (fun d k => { d with cgsm := some k })
          (frames (fun k b => .ok (l.decGsm k b)) 33 160 (by decide) b 0 b.length 0 k d.obuf)
  else if pt = 13 ∨ pt = 100 ∨ pt = 101 then .ok (d, 0)
  else .ok (d, -1)

/-- The loop of decoder.c:280-285: the output pointer moves by 160 samples for each 80. -/
def lost (l : Lib K) (iticks off obytes : Nat) (k : K) (mem : List Int) : Except Fault (Nat × Nat × Nat × K × List Int) :=
  if 80 ≤ iticks then
    match put mem off (l.dec729 k none).1 with
    | .error f => .error f
    | .ok mem => lost l (iticks - 80) (off + 160) (obytes + 160) (l.dec729 k none).2 mem
  else .ok (iticks, off, obytes, k, mem)

/-- Zeros into the buffer. -/
def zeros (d : Dec T K) (off n : Nat) (r : Nat) : Except Fault (Dec T K × Int) :=
  match put d.obuf off (List.replicate n 0) with
  | .error f => .error f
  | .ok m => .ok ({ d with obuf := m }, r)

/-- `generate_silence`, decoder.c:254-302. -/
def silence (l : Lib K) (d : Dec T K) (iticks : Nat) : Except Fault (Dec T K × Int) :=
  if d.lpt = Rtp.PCMU ∨ d.lpt = Rtp.PCMA ∨ d.lpt = Rtp.G723 ∨ d.lpt = Rtp.G722 ∨ d.lpt = Rtp.GSM then zeros d 0 iticks (iticks * 2)
  else if d.lpt = Rtp.G729 ∧ l.g729 then
    if l.bcg then zeros d 0 iticks (iticks * 2)
    else
      match getCtx l d.tries d.c729 with
      | (none, t) => zeros { d with tries := t } 0 iticks (iticks * 2)
      | (some k, t) =>
        match lost l iticks 0 0 k d.obuf with
        | .error f => .error f
        | .ok (rest, off, obytes, k, m) =>
          if 0 < rest then zeros { d with tries := t, c729 := some k, obuf := m } off rest (obytes + rest * 2)
          else .ok ({ d with tries := t, c729 := some k, obuf := m }, obytes)
  else .ok (d, -1)

inductive Out where
  | sample (x : Int)
  | eof
  | error
  | skip
  deriving DecidableEq, Repr

/-- The end of `decoder_get`, decoder.c:144-146. -/
def emit (d : Dec T K) : Except Fault (Dec T K × Out) :=
  match d.obuf[d.obp]? with
  | none => .error .ub
  | some x => .ok ({ d with oblen := u32 (d.oblen + 4294967295), obp := d.obp + 1 }, .sample x)

/-- Silence of `t` ticks, decoder.c:105-117, 119-132; `adv` is whether `nticks` moves, too. -/
def gap (l : Lib K) (d : Dec T K) (adv : Bool) (t : Nat) : Except Fault (Dec T K × Out) :=
  let n := if adv then u32 (d.nticks + t) else d.nticks
  if d.nosync then .ok ({ d with nticks := n, dticks := d.dticks + t }, .skip)
  else
    match silence l d t with
    | .error f => .error f
    | .ok (d, j) =>
      if j ≤ 0 then .ok (d, .error)
      else emit { d with nticks := n, dticks := d.dticks + t, oblen := j.toNat / 2, obp := 0 }

/-- Is the time stamp to be trusted?  decoder.c:97-100. -/
def trust (fp : Fp T) (d : Dec T K) (p : Packet T) (stime : T) : Except Fault (Dec T K) :=
  if fp.ahead (u32 (p.info.ts + 4294967296 - d.sticks) / 8000) p.time stime then
    match fp.resync p.info.ts p.time stime with
    | none => .error .ub
    | some s => .ok { d with nticks := p.info.ts, sticks := s }
  else .ok d

/-- `decoder_get`, decoder.c:81-147, with an empty buffer; the recursion goes to the next packet. -/
def refill (fp : Fp T) (l : Lib K) : List (Packet T) → Dec T K → Except Fault (Dec T K × Out)
  | [], d => .ok ({ d with pp := [] }, .eof)
  | p :: ps, d0 =>
    match d0.stime with
    | none => .error .ub
    | some st =>
      match trust fp { d0 with pp := p :: ps } p st with
      | .error f => .error f
      | .ok d =>
        if d.nticks < p.info.ts then gap l d true (min (p.info.ts - d.nticks) 4000)
        else if fp.late p.time st d.dticks then
          match fp.half p.time st d.dticks with
          | none => .error .ub
          | some t => gap l d false (min t 4000)
        else
          match decodeFrame l d p with
          | .error f => .error f
          | .ok (d, j) =>
            if j ≤ 0 then refill fp l ps { d with pp := ps }
            else emit { d with lpt := p.info.pt, pp := ps, oblen := j.toNat / 2, obp := 0 }

/-- `decoder_get`. -/
def get (fp : Fp T) (l : Lib K) (d : Dec T K) : Except Fault (Dec T K × Out) :=
  if d.oblen = 0 then refill fp l d.pp d else emit d

/-- Several calls. -/
def gets (fp : Fp T) (l : Lib K) : Nat → Dec T K → Except Fault (Dec T K × List Out)
  | 0, d => .ok (d, [])
  | n + 1, d =>
    match get fp l d with
    | .error f => .error f
    | .ok (d, x) =>
      match gets fp l n d with
      | .error f => .error f
      | .ok (d, xs) => .ok (d, x :: xs)

/-- Conversion of a real number to `unsigned`. -/
def toU32 (x : ℚ) : Option Nat := if -1 < x ∧ x < 4294967296 then some ⌊x⌋.toNat else none

/-- Exact arithmetic. -/
def exact : Fp ℚ where
  ahead n t s := decide ((n : ℚ) > t - s + 1)
  resync c t s := toU32 (c - (t - s) * 8000)
  late t s d := decide (t - s - d / 8000 > 1 / 5)
  half t s d := toU32 (((t - s) * 8000 - d) / 2)

end Verif.Eaud
