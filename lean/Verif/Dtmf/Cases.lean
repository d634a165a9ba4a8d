import Verif.Dtmf.Props

/-!
# C38: cases

Streams that meet the hypotheses of the theorems, and those on which the full claim fails.
-/

namespace Verif.Dtmf

/-- A packet with the given bytes; the rest of the buffer is zero (`rtpp_rzmalloc`, rtp_packet.c). -/
def pktOf (l : List UInt8) : Pkt := ⟨l ++ List.replicate (8192 - l.length) 0, l.length⟩

/-- An RTP header without contributing sources, payload type 101, time stamp `t < 256`. -/
def head (t : UInt8) : List UInt8 := [128, 101, 0, 1, 0, 0, 0, t, 1, 2, 3, 4]

/-- A telephone event: time stamp, code, end bit and volume, duration. -/
def evt (t ev flags : UInt8) (d0 d1 : UInt8) : Pkt := pktOf (head t ++ [ev, flags, d0, d1])

def outcome (r : Except Fault (List (Option (List UInt8)))) : Option (List (Option (List UInt8))) := r.toOption

theorem whole_pktOf {l : List UInt8} (h : l.length ≤ 8192) : (pktOf l).buf.length = 8192 := by
  change (l ++ List.replicate (8192 - l.length) 0).length = 8192
  rw [List.length_append, List.length_replicate]; omega

/-- The key 5, pressed for 800 units; the packet with the end bit is sent three times. -/
def five : List Pkt := [evt 9 5 10 0 160, evt 9 5 10 1 64, evt 9 5 138 3 32, evt 9 5 138 3 32, evt 9 5 138 3 32]

/-- It is reported once: `t 5 10 800 0`. -/
example : outcome (run [116] false five) = some [none, none, some [116, 32, 53, 32, 49, 48, 32, 56, 48, 48, 32, 48], none, none] := by
  decide +kernel

example : Whole five := by
  intro p hp
  simp only [five, List.mem_cons, List.not_mem_nil, or_false] at hp
  rcases hp with rfl | rfl | rfl | rfl | rfl <;> exact whole_pktOf (by decide)

/-- The hypotheses of `C38_reported_partial` for its first and third packet. -/
example : (tel (evt 9 5 10 0 160)).ev ≤ 17 ∧ (tel (evt 9 5 138 3 32)).fin = true ∧
    (tel (evt 9 5 138 3 32)).ts = (tel (evt 9 5 10 0 160)).ts ∧ (tel (evt 9 5 138 3 32)).ev = (tel (evt 9 5 10 0 160)).ev ∧
    ¬ Four (five.map tel) 0 2 (tel (evt 9 5 10 0 160)).ts := by
  refine ⟨by decide +kernel, by decide +kernel, by decide +kernel, by decide +kernel, ?_⟩
  rintro ⟨l, h1, h2, h3, h4⟩
  obtain ⟨u, r, rfl⟩ : ∃ u r, l = u :: r := by cases l with | nil => cases h1 | cons u r => exact ⟨u, r, rfl⟩
  obtain ⟨k, y, g1, g2, g3, _, g5⟩ := h4 u (by simp)
  have : k = 1 := by omega
  subst this
  have : y = tel (evt 9 5 10 1 64) := (Option.some.inj g3).symm
  subst this
  apply h3
  rw [← g5]
  exact List.mem_cons_self

/-- The hypotheses of `C38_once`: an event is reported again after four others were begun. -/
def again : List Pkt := [evt 9 5 0 0 8, evt 9 5 128 0 8, evt 1 1 0 0 8, evt 2 1 0 0 8, evt 3 1 0 0 8, evt 4 1 0 0 8,
  evt 9 5 128 0 8, evt 9 5 128 0 8]

example : outcome (run [] true again) = some [none, some [32, 53, 32, 48, 32, 56, 32, 49], none, none, none, none, none,
    some [32, 53, 32, 48, 32, 56, 32, 49]] := by decide +kernel

/-- With three others in between it is not. -/
example : outcome (run [] true (again.eraseIdx 5)) = some [none, some [32, 53, 32, 48, 32, 56, 32, 49], none, none, none, none, none] := by
  decide +kernel

/-- A key press of which only one packet arrives is not reported, although the packet has the end bit. -/
theorem C38_single_counterexample : (tel (evt 9 5 138 3 32)).fin = true ∧ (tel (evt 9 5 138 3 32)).ev = 5 ∧
    outcome (run [116] false [evt 9 5 138 3 32]) = some [none] := by decide +kernel

/-- Code 17 is not a key, but is reported, with a NUL instead of a key. -/
theorem C38_code_counterexample : outcome (run [116] false [evt 9 17 0 0 8, evt 9 17 128 0 8]) =
    some [none, some [116, 32, 0, 32, 48, 32, 56, 32, 48]] := by decide +kernel

/-- A packet without a payload in front spoils a key press: what lies behind the packet in the buffer is taken for the
key 0, and the packets of the key 5 are ignored. -/
theorem C38_empty_counterexample : (pktOf (head 9)).size = 12 ∧
    outcome (run [116] false (pktOf (head 9) :: five)) = some [none, none, none, none, none, none] := by decide +kernel

/-- A packet with one contributing source (the first octet of the header is 129) and the key 5, sent twice: the source, `0x078a0050`, is
taken for the event, and the key 7 is reported. -/
theorem C38_source_counterexample :
    outcome (run [116] false (List.replicate 2 (pktOf (129 :: (head 9).tail ++ [7, 138, 0, 80] ++ [5, 138, 3, 32])))) =
      some [none, some [116, 32, 55, 32, 49, 48, 32, 56, 48, 32, 48]] := by decide +kernel

/-- With a tag of 502 bytes the worker reads outside of its buffer when it reports a key. -/
theorem C38_tag_counterexample : outcome (run (List.replicate 502 116) false five) = none ∧
    outcome (run (List.replicate 498 116) false five) ≠ none := by decide +kernel

end Verif.Dtmf
