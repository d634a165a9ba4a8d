import Verif.Netio.Counter

/-! Concrete cases for C71. -/

namespace Verif.Netio

/-- Two packets and a reply; the owner gives its socket back while they are in the queue, the address is
changed, a new socket is opened, and the kernel refuses twice. -/
def busy : List Ev :=
  [.sopen 5 true, .sopen 7 false, .addr 0 90, .onew [1, 2], .onew (List.replicate 200 3), .onew [9],
   .hand 1 0 0 true, .addr 0 91, .hand 1 1 0 true, .reply 0 2 55 true, .sput 1, .sopen 8 false,
   .take, .go .ok, .go .ok, .go .soft, .go .soft, .go .ok, .go .ok,
   .go .ok, .go .hard, .go .ok, .sopen 7 false, .go .ok, .go .ok, .go .ok]

def busyLog : List Tx :=
  [⟨some 1, [1, 2], 90, .ok⟩, ⟨some 1, [1, 2], 90, .soft⟩, ⟨some 1, [1, 2], 90, .soft⟩, ⟨some 1, [1, 2], 90, .ok⟩,
   ⟨some 1, List.replicate 200 3, 91, .hard⟩, ⟨some 0, [9], 55, .ok⟩]

/-- C71_in_order, C71_idle_all_sent, C71_no_fault: the socket is closed with its last packet, only then
its number is given out again. -/
example : ends true busy (fun st => decide (st.log = busyLog ∧ st.cur = none ∧ st.batch = [] ∧ st.queue = [] ∧
    st.out = false ∧ st.fdt 7 = some 3)) = true := by decide +kernel

/-- The number cannot be given out before. -/
example : (run (init true) (busy.take 19 ++ [.sopen 7 false])).isNone = true := by decide +kernel

example : ∃ st, run (init true) busy = some (.ok st) ∧ Sent (hist true busy).msgs st.log := by
  obtain ⟨st, h, hp⟩ := ends_spec (d := true) (es := busy) (P := fun st => decide (st.cur = none ∧ st.batch = [] ∧
    st.queue = [] ∧ st.out = false)) (by decide +kernel)
  obtain ⟨h1, h2, h3, h4⟩ := of_decide_eq_true hp
  exact ⟨st, h, C71_idle_all_sent h ⟨h1, h2, .inr h3⟩ h4⟩

example : (hist true busy).msgs =
    [⟨1, [1, 2], 90, 2⟩, ⟨1, List.replicate 200 3, 91, 1⟩, ⟨0, [9], 55, 1⟩] := by decide +kernel

/-- C71_stop. -/
example : ends true [.sopen 7 false, .onew [1], .onew [2], .hand 0 0 3 true, .stop, .hand 0 1 3 true, .take, .go .ok,
    .go .ok, .go .ok, .go .ok, .go .ok] (fun st => decide (st.out = true ∧ st.lost.length = 1 ∧
      st.log = [⟨some 0, [1], 0, .ok⟩, ⟨some 0, [1], 0, .ok⟩])) = true := by decide +kernel

/-- C71_ends. -/
example : ∃ st, run (init true) [.stop, .take, .go .ok] = some (.ok st) ∧ st.out = true := by
  obtain ⟨st, h, hp⟩ := ends_spec (d := true) (es := [.stop, .take, .go .ok]) (P := fun st => decide (st.cur = none ∧
    st.batch = [] ∧ st.queue = [])) (by decide +kernel)
  obtain ⟨h1, h2, h3⟩ := of_decide_eq_true hp
  exact ⟨st, h, C71_ends h ⟨h1, h2, .inr h3⟩ (by decide)⟩

/-- C71_packet_kept, C71_socket_kept: somebody else keeps a reference to a packet that was sent. -/
example : ends false [.sopen 7 false, .onew [1], .oget 0, .hand 0 0 3 true, .sput 0, .take, .go .ok, .go .ok, .go .ok]
    (fun st => decide (st.objs[0]? = some (⟨[1], 1, 1, [0]⟩ : Obj) ∧ st.fdt 7 = some 0 ∧ pending st = [])) = true := by decide +kernel

/-- C71_progress: before the thread has taken anything. -/
example : ends true (busy.take 12) (fun st => decide ((pending st).length = 3 ∧ st.out = false)) = true := by
  decide +kernel

/-- Four temporary errors. -/
example : ends false [.sopen 7 false, .onew [1], .hand 0 0 3 true, .take, .go .ok, .go .soft, .go .soft, .go .soft,
    .go .soft] (fun st => decide (st.log.length = 4 ∧ (st.cur.map (·.over)) = some true)) = true := by decide +kernel

end Verif.Netio
