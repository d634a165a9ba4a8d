import Verif.Eaud.Ends

/-!
# Cases for C48
-/

namespace Verif.Eaud
open Verif.G711 (Sample)

/-- Libraries whose samples are all zero but for G.729 (seven). -/
def lib (bcg : Bool) : Lib Unit where
  g729 := true
  bcg := bcg
  g722 := true
  gsm := true
  init := ()
  alloc := fun _ => true
  dec729 := fun _ _ => (List.replicate 80 7, ())
  dec722 := fun _ b => (List.replicate b.length 0, ())
  decGsm := fun _ _ => (List.replicate 160 0, ())

theorem lib_ok (b : Bool) : (lib b).Ok where
  g729 := fun _ _ => ⟨rfl, fun x hx => by rw [List.eq_of_mem_replicate hx]; exact ⟨by decide, by decide⟩⟩
  g722 := fun _ _ => ⟨List.length_replicate .., fun x hx => by rw [List.eq_of_mem_replicate hx]; exact ⟨by decide, by decide⟩⟩
  gsm := fun _ _ => ⟨rfl, fun x hx => by rw [List.eq_of_mem_replicate hx]; exact ⟨by decide, by decide⟩⟩

/-- A packet of `n` bytes of codec `pt`. -/
def pkt (pt ts n : Nat) (t : ℚ) : Packet ℚ := ⟨t, { (default : Rtp.Info) with dataOffset := 12, dataSize := n, pt := pt, ts := ts }, List.replicate 12 0 ++ List.replicate n 0⟩

theorem pkt_ts (pt ts n : Nat) (t : ℚ) : (pkt pt ts n t).info.ts = ts := rfl
theorem pkt_time (pt ts n : Nat) (t : ℚ) : (pkt pt ts n t).time = t := rfl

theorem pkt_payload (pt ts n : Nat) (t : ℚ) : (pkt pt ts n t).payload = List.replicate n 0 := by
  unfold pkt Packet.payload
  simp only
  rw [List.drop_append_of_le_length (by simp), List.drop_of_length_le (by simp)]
  simp

def dfault (r : Except Fault (Dec ℚ Unit × List Out)) : Option Fault :=
  match r with
  | .error f => some f
  | .ok _ => none

def dheard (r : Except Fault (Dec ℚ Unit × List Out)) : Option (List Out) :=
  match r with
  | .error _ => none
  | .ok (_, os) => some os

/-! ## The conditions can be met -/

/-- All codecs, a gap of ten seconds in the time stamps (ahead of the time of arrival), a late packet, an empty one. -/
def mixed : List (Packet ℚ) :=
  [pkt Rtp.PCMU 1000 160 0, pkt Rtp.G729 1160 20 (1 / 50), pkt Rtp.GSM 1320 33 (2 / 50), pkt Rtp.G722 81480 160 (3 / 50),
    pkt Rtp.PCMA 81640 5000 3, pkt 13 81640 1 3, pkt Rtp.PCMU 81640 0 4]

theorem mixed_whole : ∀ q ∈ mixed, Whole (lib true) q := by
  intro q hq
  simp only [mixed, List.mem_cons, List.not_mem_nil, or_false] at hq
  rcases hq with rfl | rfl | rfl | rfl | rfl | rfl | rfl <;>
    exact ⟨fun h _ => by rw [pkt_payload, List.length_replicate]; revert h; decide, fun h _ _ => by rw [pkt_payload, List.length_replicate]; revert h; decide,
      by rw [pkt_payload, List.length_replicate]; decide⟩

example : ∃ os, (∀ o ∈ os, o ≠ .error ∧ (o = .skip → false = true) ∧ ∀ x, o = .sample x → Sample x) ∧
    ∀ k, ∃ d, gets exact (lib true) (os.length + k) (Dec.new mixed false) = .ok (d, os ++ List.replicate k .eof) :=
  C48_steady_partial (lib true) (lib_ok true) (fun _ => rfl) _ _ false mixed_whole
    ⟨fun q hq => by
      simp only [List.mem_cons, List.not_mem_nil, or_false] at hq
      rcases hq with rfl | rfl | rfl | rfl | rfl | rfl | rfl <;> norm_num [pkt_ts, pkt_time],
     by simp [pkt_ts]⟩

/-- Two packets with another between them lost. -/
example : ∃ d, gets exact (lib true) ((render 1000 [pkt Rtp.PCMU 1000 160 0, pkt Rtp.PCMA 1320 160 (1 / 25)]).length + 3)
      (Dec.new [pkt Rtp.PCMU 1000 160 0, pkt Rtp.PCMA 1320 160 (1 / 25)] false) =
    .ok (d, (render 1000 [pkt Rtp.PCMU 1000 160 0, pkt Rtp.PCMA 1320 160 (1 / 25)]).map .sample ++ List.replicate 3 .eof) :=
  C48_timeline_partial exact (lib true) (pkt Rtp.PCMU 1000 160 0) [pkt Rtp.PCMA 1320 160 (1 / 25)]
    (by
      unfold Timely Timely Timely
      simp only [pkt_payload, List.length_replicate]
      refine ⟨by decide, by decide, .inl rfl, by decide, by decide, ?_, ?_, by decide, by decide, .inr rfl, by decide, by decide, ?_, ?_, trivial⟩ <;>
        norm_num [pkt_ts, pkt_time, exact]) 3

/-- Silence of PCMU is 65156 − 65536, decoded; the silence between packets is zero. -/
example : render 1000 [pkt Rtp.PCMU 1000 2 0, pkt Rtp.PCMA 1004 1 0] = [G711.decU 0, G711.decU 0, 0, 0, G711.decA 0] := by decide +kernel

/-! ## Where it goes wrong -/

/-- A GSM payload of one byte more than a frame: the second frame is read past the payload. -/
theorem C48_gsm_counterexample : dfault (gets exact (lib true) 1 (Dec.new [pkt Rtp.GSM 0 34 0] false)) = some .ub := by decide +kernel

/-- Fifteen bytes of G.729E with bcg729: `assert` fails. -/
theorem C48_g729_counterexample : dfault (gets exact (lib true) 1 (Dec.new [pkt Rtp.G729 0 15 0] false)) = some .abort := by decide +kernel

/-- A gap of half a second after G.729 without bcg729: the silence is written past the buffer. -/
theorem C48_g729_silence_counterexample :
    dfault (gets exact (lib false) 161 (Dec.new [pkt Rtp.G729 0 20 0, pkt Rtp.G729 4160 20 (13 / 25)] false)) = some .ub := by decide +kernel

/-- A gap of 160 samples after G.729 without bcg729: half of what is dheard in it was left in the buffer. -/
theorem C48_g729_stale_counterexample :
    ((dheard (gets exact (lib false) 400 (Dec.new [pkt Rtp.PCMU 0 160 0, pkt Rtp.G729 160 10 (1 / 50), pkt Rtp.G729 400 10 (1 / 20)] false))).map
        fun os => os.drop 320) =
      some (List.replicate 80 (.sample (G711.decU 0))) := by decide +kernel

/-- A sender that starts its time stamps anew after one second: a negative number is converted to `unsigned`. -/
theorem C48_restart_counterexample :
    dfault (gets exact (lib true) 161 (Dec.new [pkt Rtp.PCMU 8000 160 0, pkt Rtp.PCMU 0 160 2] false)) = some .ub := by decide +kernel

/-- Thirteen days without a packet: too large a number is converted. -/
theorem C48_pause_counterexample :
    dfault (gets exact (lib true) 161 (Dec.new [pkt Rtp.PCMU 0 160 0, pkt Rtp.PCMU 160 160 1123200] false)) = some .ub := by decide +kernel

end Verif.Eaud
