import Verif.Player.Props

/-!
# Examples, and where the player is not what it should be
-/

namespace Verif.Player

/-- A prompt of 170 bytes: two pieces of 80 (10 ms of G.711) and 10 more bytes. -/
def prompt : List UInt8 := (List.range 170).map fun i => UInt8.ofNat i

/-- What was sent, as a receiver reads it, without the payload: marker, sequence number, timestamp, length. -/
def heard (x : Except Fault (Option Srv × List (ℚ × Res))) : Option (List (Bool × Nat × Nat × Nat)) :=
  x.toOption.map fun y => y.2.filterMap fun r =>
    match r.2 with
    | .pkt b => (decode b).map fun p => (p.marker, p.seq, p.ts, p.payload.length)
    | _ => none

def ended (x : Except Fault (Option Srv × List (ℚ × Res))) : Option Bool := x.toOption.map fun y => y.1.isNone

/-- Twice a prompt of two pieces: four packets across the end of the sequence numbers, one call too early, one without memory, and the end. -/
def calls : List (ℚ × Bool) := [(5, true), (5, true), (501/100, false), (502/100, true), (503/100, true), (504/100, true), (505/100, true)]

example : heard (gets id prompt (start (ctor 0 2 (-1) 65534 4294967290 7) 5) calls) =
    some [(true, 65534, 4294967290, 80), (false, 65535, 74, 80), (false, 0, 154, 80), (false, 1, 234, 80)] := by decide +kernel

example : ended (gets id prompt (start (ctor 0 2 (-1) 65534 4294967290 7) 5) calls) = some true := by decide +kernel

/-- It meets the hypotheses. -/
example : Codec.bytes 0 (period (-1)) = some 80 ∧ period (-1) ≤ 999 ∧ (0 : Int) ≤ 2 ∧ pieces prompt 80 = 2 := by decide +kernel

/-- GSM frames are of 20 ms: a packet of 50 ms has three of them. -/
example : Codec.bytes 3 (period 50) = some 99 ∧ Codec.ms 3 50 = 60 := by decide

/-- A loop that is 25 ms behind sends three packets and then waits. -/
example : (match poll id prompt (start (ctor 0 (-1) (-1) 1 1 1) 5) (5025/1000) (List.replicate 4 true) with
    | .ok (_, ps, r) => some (ps.length, r)
    | .error _ => none) = some (3, some .later) := by decide +kernel

/-- What is left of the prompt after the last whole piece is never heard: of 79 bytes nothing is, however often they are to be played. -/
theorem C34_tail_counterexample :
    heard (gets id (prompt.take 79) (start (ctor 0 5 (-1) 1 1 1) 5) [(6, true), (7, true)]) = some [] ∧
    ended (gets id (prompt.take 79) (start (ctor 0 5 (-1) 1 1 1) 5) [(6, true), (7, true)]) = some true := by decide +kernel

/-- For no prompt, time and number of calls does a player with another codec send anything or come to an end (`RTPS_ERROR` is only for the log):
the stream is taken to be playing until it is told otherwise. -/
theorem C34_codec_counterexample (rnd : ℚ → ℚ) (f : List UInt8) (s : Srv) (t : ℚ) (mem : Bool) (h : frame s.pt = none) :
    ∃ r, get rnd f s t mem = .ok (s, r) ∧ (r = .later ∨ r = .error) := by
  unfold get
  split
  · exact ⟨_, rfl, Or.inl rfl⟩
  · rw [h]; exact ⟨_, rfl, Or.inr rfl⟩

example : frame (start (ctor 15 1 (-1) 1 1 1) 5).pt = none := by decide

/-- The payload type is seven bits of the codec: what is in `prompt.128` is sent as G.711. -/
theorem C34_type_counterexample :
    (match gets id prompt (start (ctor 128 1 (-1) 1 1 1) 5) [(5, true)] with
     | .ok (_, [(_, .pkt b)]) => (decode b).map fun p => p.pt
     | _ => none) = some 0 := by decide +kernel

def outcome (x : Except Fault (Option Srv × List (ℚ × Res))) : Option Fault :=
  match x with
  | .error e => some e
  | .ok _ => none

/-- `P-2147483648`: the counter of repetitions overflows when the prompt is played for the second time. -/
theorem C34_overflow_counterexample :
    outcome (gets id prompt (start (ctor 0 (-2147483648) (-1) 1 1 1) 5) [(6, true), (6, true), (6, true)]) = some .ub := by decide +kernel

/-- Without memory a packet is late by its own duration, and so are all after it: at the time of the second packet nothing is sent. -/
theorem C34_memory_counterexample :
    heard (gets id prompt (start (ctor 0 1 (-1) 1 1 1) 5) [(5, false), (5, true), (5009/1000, true), (501/100, true)]) = some [(true, 1, 1, 80)] := by
  decide +kernel

end Verif.Player
