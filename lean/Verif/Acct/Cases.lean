import Verif.Acct.Counter

/-! # C72: cases -/

namespace Verif.Acct

/-- A session with packets both ways. -/
def talk : Rec :=
  ⟨bytes "node1", 77, 12, some (bytes "call@host"), none, bytes "10.000000", bytes "70.500000", 3000, 2, 20, 0,
    { quiet with rtpIn := 1500, rtpAddr := .v4 (bytes "10.0.0.1") 4000, ssrc := some 0xabcdef, lastPt := 8 },
    { quiet with rtpIn := 1502, rtpAddr := .v6 (bytes "2001:db8::1") 5000, holds := 1, held := 1 }⟩

/-- Of `C72_line_partial`, `C72_values_partial`. -/
theorem talk_plain : talk.Plain where
  node := by unfold Plain; decide +kernel
  call w h := by cases h; unfold Plain; decide +kernel
  tag w h := by cases h
  init := by unfold Plain; decide +kernel
  destroy := by unfold Plain; decide +kernel
  o := ⟨by unfold Plain; decide +kernel, by unfold Plain; decide +kernel,
    by change Plain _; unfold Plain; decide +kernel, trivial, by unfold Plain; decide +kernel,
    by unfold Plain; decide +kernel, by unfold Plain; decide +kernel⟩
  a := ⟨by unfold Plain; decide +kernel, by unfold Plain; decide +kernel,
    by change Plain _; unfold Plain; decide +kernel, trivial, by unfold Plain; decide +kernel,
    by unfold Plain; decide +kernel, by unfold Plain; decide +kernel⟩

example : ∃ w, row talk = .ok (w ++ [10]) ∧ value headLine w "rtpp_rtp_rmt_ip_a" = some (bytes "[2001:db8::1]") ∧
    value headLine w "rtpa_ssrc_last_ino" = some (bytes "0x00ABCDEF") ∧ value headLine w "rtp_npkts_ina" = some (bytes "1502") :=
  ⟨_, row_eq talk, by decide +kernel⟩

/-- Two processes; the second starts while the first writes the names, and has to wait; then the file is moved away, and
the first makes a new one. -/
def both : List Ev :=
  [.ctor 0, .close 0, .open 0 (some 3), .ctor 1, .close 1, .open 1 (some 5), .olock 1 true, .ofstat 1 true, .head 1 .whole,
    .ounlock 1, .olock 0 true, .ofstat 0 true, .ounlock 0, .begin 0 [97, 10], .stat 0 true, .begin 1 [98, 10], .stat 1 true,
    .lock 1 true, .write 1 .whole, .unlock 1, .lock 0 true, .write 0 .whole, .unlock 0, .unlink, .begin 0 [99, 10],
    .stat 0 true, .close 0, .open 0 (some 3), .olock 0 true, .ofstat 0 true, .head 0 .whole, .ounlock 0, .lock 0 true,
    .write 0 .whole, .unlock 0]

example : (∀ e ∈ both, e.Tidy) ∧ (∀ e ∈ both, e.Safe) ∧ (∀ e ∈ both, e.Fine) := by
  simp [both, Ev.Tidy, Ev.Safe, Ev.Fine]

example : ends both (fun s => decide (s.files = [headLine ++ [10, 98, 10, 97, 10], headLine ++ [10, 99, 10]] ∧ s.locks = [])) =
    true := by decide +kernel

example : written both = [(1, [98, 10]), (0, [97, 10]), (0, [99, 10])] ∧ handed 0 both = [[97, 10], [99, 10]] := by decide +kernel

/-- Process 0 waits for process 1, which can go on. -/
example : ends (both.take 19) (fun s => decide ((s.procs 0).pc = .lock [97, 10] ∧ s.busy 0 0 0 = true)) = true := by
  decide +kernel

end Verif.Acct
