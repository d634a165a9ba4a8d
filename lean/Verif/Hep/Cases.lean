import Verif.Hep.Config
import Verif.Rtcp.Cases

/-!
# C81: cases and counterexamples
-/

namespace Verif.Hep

open Rtcp (Compound asc)

/-- All goes well; sending fails; no name service; a connection that takes 100 bytes. -/
def fine : Env := ⟨fun _ => some fun _ => 7, [], some 65535, true, true, true⟩
def mute : Env := { fine with send := none }
def lostName : Env := { fine with resolve := false }
def narrow : Env := { fine with send := some 100 }

/-- A sender report from 10.0.0.2 port 5001 to 10.0.0.1 port 6001, in the call "abc"; and over IPv6. -/
def pkt4 : Pkt := ⟨2, [10, 0, 0, 2], [10, 0, 0, 1], 5001, 6001, 1700000000, 250000, asc "abc", Rtcp.srPkt⟩
def pkt6 : Pkt := ⟨10, List.replicate 15 0 ++ [2], List.replicate 15 0 ++ [1], 5001, 6001, 1700000000, 250000, asc "xyz", Rtcp.rr0⟩
def noise : Pkt := { pkt4 with data := [1, 2, 3] }

theorem pkt4_good : Good pkt4 := ⟨.inl ⟨rfl, rfl, rfl⟩, by decide, by decide, by decide, by decide⟩
theorem pkt6_good : Good pkt6 := ⟨.inr ⟨rfl, rfl, rfl⟩, by decide, by decide, by decide, by decide⟩

theorem fine_smooth : Smooth fine := ⟨fun _ => (fun h => by cases h), (fun b hb => by cases hb), (fun h => by cases h)⟩

instance (p : Pkt) : Decidable (Small p) := inferInstanceAs (Decidable (_ ≤ _))

example : Small pkt4 ∧ Small pkt6 ∧ Small noise := by decide +kernel

/-- The records and the receivers for a sequence of packets. -/
def told (c : Conf) (l : List (Pkt × Env)) : Option (List (List (Sk × Option Rec))) :=
  (run (start c) l).toOption.map fun r => r.2.map fun es => (sends es).map fun x => (x.1, decode x.2)

/-- Packets one after another: a record for each report, nothing for noise; the block of a longer report is reused for a shorter one. -/
example :
    (told conf0 [(pkt4, fine), (noise, fine), (pkt6, fine)]).map (fun l => l.map fun r => r.map fun x => x.2.map (·.src)) =
      some [[some [10, 0, 0, 2]], [], [some (List.replicate 15 0 ++ [2])]] ∧
    (told conf0 [(pkt4, fine), (noise, fine), (pkt6, fine)]).map (fun l => l.map fun r => r.map fun x => x.2.map (·.sec)) =
      some [[some 1700000000], [], [some 1700000000]] ∧
    (told conf0 [(pkt4, fine), (noise, fine), (pkt6, fine)]).map (fun l => l.map fun r => r.map fun x => x.2.map (·.corr)) =
      some [[some (asc "abc")], [], [some (asc "xyz")]] := by
  refine ⟨?_, ?_, ?_⟩ <;> decide +kernel

/-- The capture agent configured by default is 101; the collector reads 6619136. -/
example : conf0.id = 101 ∧ (told conf0 [(pkt4, fine)]).map (fun l => l.map fun r => r.map fun x => x.2.map (·.agent)) =
    some [[some 6619136]] := by decide +kernel

/-- A connection that takes only a part of the report: the rest is never sent, and what was sent is no report. -/
theorem C81_torn_counterexample : Smooth narrow ∧ told conf0 [(pkt4, narrow)] = some [[(.conn, none)]] :=
  ⟨⟨fun _ => (fun h => by cases h), (fun b hb => by cases hb), (fun h => by cases h)⟩, by decide +kernel⟩

/-- What is done to which descriptors. -/
def deeds (c : Conf) (l : List (Pkt × Env)) : Option (List (List (Bool × Sk))) :=
  (run (start c) l).toOption.map fun r => r.2.map fun es => es.map fun
    | .sent s _ => (true, s)
    | .closed s => (false, s)

/-- The receiver report without blocks, over IPv4. -/
def pktR : Pkt := { pkt4 with data := Rtcp.rr0 }

/-- After 51 failures to send, with no name service: the socket is closed, and the report goes to whatever has got the number of its descriptor.  After
51 more failures that is closed, too. -/
theorem C81_stranger_counterexample :
    deeds conf0 (List.replicate 51 (pktR, mute) ++ [(pktR, lostName)] ++ List.replicate 51 (pktR, mute) ++ [(pktR, fine)]) =
      some (List.replicate 51 [] ++ [[(false, .conn), (true, .stale)]] ++ List.replicate 51 [] ++ [[(false, .stale), (true, .conn)]]) := by
  decide +kernel

/-! ### Big reports -/

/-- A report block with the longest numbers; and one with a short number in it. -/
def blockA : List UInt8 := [255, 255, 255, 255, 255, 254, 255, 255] ++ List.replicate 16 255
def blockB : List UInt8 := [255, 255, 255, 255, 255, 254, 255, 255] ++ List.replicate 8 255 ++ [0, 0, 0, 0] ++ List.replicate 4 255

/-- Receiver reports with 31, 14 and 27 blocks. -/
def rep31 : List UInt8 := [0x9f, 201, 0, 187, 255, 255, 255, 255] ++ (List.replicate 31 blockA).flatten
def rep14 : List UInt8 := [0x8e, 201, 0, 85, 255, 255, 255, 255] ++ (List.replicate 14 blockB).flatten
def rep27 : List UInt8 := [0x9b, 201, 0, 163, 255, 255, 255, 255] ++ (List.replicate 27 blockA).flatten

def partsA : List (List UInt8) := List.replicate 10 rep31 ++ [rep14]
def partsB : List (List UInt8) := List.replicate 10 rep31 ++ [rep27]

theorem whole31 : Rtcp.Whole rep31 := by decide +kernel
theorem whole14 : Rtcp.Whole rep14 := by decide +kernel
theorem whole27 : Rtcp.Whole rep27 := by decide +kernel

theorem len31 : (Rtcp.text rep31).length = 6278 := by decide +kernel
theorem len14 : (Rtcp.text rep14).length = 2752 := by decide +kernel
theorem len27 : (Rtcp.text rep27).length = 5478 := by decide +kernel

theorem compoundA : Compound partsA.flatten partsA := by
  refine ⟨by simp [partsA], rfl, ?_, by decide +kernel⟩
  intro p hp
  rcases List.mem_append.1 hp with hp | hp
  · rw [List.eq_of_mem_replicate hp]; exact whole31
  · rw [List.mem_singleton.1 hp]; exact whole14

theorem compoundB : Compound partsB.flatten partsB := by
  refine ⟨by simp [partsB], rfl, ?_, by decide +kernel⟩
  intro p hp
  rcases List.mem_append.1 hp with hp | hp
  · rw [List.eq_of_mem_replicate hp]; exact whole31
  · rw [List.mem_singleton.1 hp]; exact whole27

theorem jsonA : (json partsA).length = 65532 := by
  simp [json, partsA, len31, len14]

theorem jsonB : (json partsB).length = 68258 := by
  simp [json, partsB, len31, len27]

def pktA : Pkt := { pkt4 with data := partsA.flatten }
def pktB : Pkt := { pkt4 with data := partsB.flatten }

theorem dataA : pktA.data.length = 7864 := by decide +kernel
theorem dataB : pktB.data.length = 8176 := by decide +kernel

/-- A datagram of 7864 bytes (the buffer for packets has 8192) from anybody makes the module write outside of its memory. -/
theorem C81_overflow_counterexample : Good pktA ∧ pktA.data.length = 7864 ∧ Smooth fine ∧ handle (start conf0) pktA fine = .error .ub :=
  ⟨⟨pkt4_good.fam, pkt4_good.sport, pkt4_good.dport, pkt4_good.sec, pkt4_good.usec⟩, dataA, fine_smooth,
    overflow conf0 pktA fine ⟨pkt4_good.fam, pkt4_good.sport, pkt4_good.dport, pkt4_good.sec, pkt4_good.usec⟩ (by decide)
      (by rw [dataA]; omega) fine_smooth partsA compoundA (by rw [jsonA]; omega) (by rw [jsonA]; omega)⟩

/-- Of a report of 68258 bytes the collector gets 2722, as if that were all. -/
theorem C81_cut_counterexample : Good pktB ∧ pktB.data.length = 8176 ∧ Smooth fine ∧ Compound pktB.data partsB ∧ (json partsB).length = 68258 ∧
    ∃ m es b r, handle (start conf0) pktB fine = .ok (m, es) ∧ sends es = [(.conn, b)] ∧ decode b = some r ∧ r.payload.length = 2722 := by
  have hg : Good pktB := ⟨pkt4_good.fam, pkt4_good.sport, pkt4_good.dport, pkt4_good.sec, pkt4_good.usec⟩
  refine ⟨hg, dataB, fine_smooth, compoundB, jsonB, ?_⟩
  obtain ⟨m, es, b, r, h1, h2, h3, h4⟩ := cut conf0 pktB fine hg (by rw [dataB]; omega) fine_smooth
    (fun n h => by cases h; exact Nat.le_refl _) partsB compoundB (by
      have : pktB.callId.length = 3 := by decide
      rw [this, jsonB]; omega)
  refine ⟨m, es, b, r, h1, h2, h3, ?_⟩
  rw [h4, List.length_take, jsonB]; omega

/-! ### Configuration -/

/-- A section with keys in any case; the last port counts. -/
example : mapper conf0 [(asc "Capt_Port", .int 9061), (asc "capt_id", .int 202), (asc "CAPT_PTYPE", .text (asc "TCP")), (asc "capt_port", .int 9062)] =
    (⟨asc "10.0.0.1", asc "9062", true, 202⟩, true) := by decide +kernel

example : (mapper conf0 [(asc "capt_port", .int 0)]).2 = false ∧ (mapper conf0 [(asc "capt_port", .text (asc "9060"))]).2 = false ∧
    (mapper conf0 [(asc "capt_password", .text (asc "x"))]).2 = false ∧ (mapper conf0 [(asc "capt_ptype", .text (asc "sctp"))]).2 = false := by
  decide +kernel

end Verif.Hep
