import Verif.Stats.Props

/-! # C75: concrete cases -/

namespace Verif.Stats

/-- Random values for which the search for the hash succeeds at once. -/
def exRs : List Nat := [
  233, 254, 66, 183, 15, 211, 234, 222, 119, 187, 176, 159, 19, 134, 17, 36, 193, 18, 225, 101, 180, 152, 40, 197,
  92, 245, 80, 73, 118, 84, 203, 186, 54, 188, 153, 202, 165, 158, 177, 71, 139, 227, 28, 89, 136, 207, 121, 49,
  249, 91, 157, 38, 13, 235, 238, 87, 217, 250, 12, 50, 221, 123, 239, 39, 162, 82, 60, 63, 156, 105, 107, 83,
  116, 67, 163, 20, 21, 169, 37, 113, 96, 144, 198, 34, 31, 35, 132, 57, 214, 10, 9, 86, 4, 32, 137, 149,
  23, 230, 168, 160, 220, 29, 102, 191, 76, 143, 42, 148, 147, 79, 69, 232, 229, 190, 240, 45, 104, 167, 172, 64,
  170, 189, 70, 212, 46, 111, 61, 14, 109, 52, 33, 98, 1, 226, 224, 90, 200, 131, 253, 199, 215, 51, 3, 223,
  181, 146, 43, 154, 78, 11, 244, 208, 125, 94, 236, 133, 41, 27, 130, 204, 22, 95, 140, 93, 44, 192, 103, 62,
  122, 8, 174, 100, 179, 127, 150, 72, 77, 48, 171, 129, 210, 128, 182, 85, 248, 75, 209, 161, 47, 25, 164, 142,
  106, 218, 74, 117, 246, 206, 173, 241, 88, 59, 141, 247, 112, 231, 56, 135, 219, 185, 108, 55, 175, 242, 2, 138,
  243, 6, 5, 237, 81, 26, 151, 58, 252, 184, 255, 114, 178, 0, 196, 251, 155, 110, 99, 213, 228, 7, 124, 24,
  53, 201, 97, 166, 120, 115, 194, 126, 30, 65, 16, 195, 205, 216, 145]

def exH : Hash := (Pearson.build names exRs).getD (fun _ => 0, fun _ => 0)

theorem exH_build : Pearson.build names exRs = some exH := by
  have : (Pearson.build names exRs).isSome = true := by decide +kernel
  obtain ⟨x, hx⟩ := Option.isSome_iff_exists.1 this
  simp only [exH, hx, Option.getD_some]

theorem exExact : Exact (getidx exH) := ⟨exRs, exH, exH_build, rfl⟩

/-- The position of a name, without the hash. -/
def pos : Look := fun n => .ok (if n ∈ names then names.idxOf n else -1)

theorem exH_pos : getidx exH = pos := by
  funext n
  rcases exExact.cases n with ⟨h1, h2⟩ | ⟨i, h1, h2⟩
  · rw [h2, pos, if_neg h1]
  · have hm := List.mem_of_getElem? h1
    rw [h2, pos, if_pos hm]
    have : names[names.idxOf n]? = some n := by
      rw [List.getElem?_eq_getElem (List.idxOf_lt_length_of_mem hm), List.getElem_idxOf]
    rw [names_inj h1 this]

/-- A stand-in for `%f`. -/
def exF (x : Rat) : List UInt8 := Dec.dec x.num.natAbs ++ [46] ++ Dec.dec x.den

def exB (n : Nat) : Verif.Cmd.Rep := ⟨List.replicate n 97 ++ List.replicate (1024 - n) 0, n, n, 0⟩

def ends (es : List Ev) (P : St → Bool) : Bool := match run pos exF (init 0) es with
  | some (.ok s) => P s
  | _ => false

theorem ends_spec {es : List Ev} {P : St → Bool} (h : ends es P = true) :
    ∃ s, run (getidx exH) exF (init 0) es = some (.ok s) ∧ P s = true := by
  rw [exH_pos]
  unfold ends at h
  split at h
  · exact ⟨_, by assumption, h⟩
  · cases h

def aborts (es : List Ev) : Bool := match run pos exF (init 0) es with
  | some (.error .abort) => true
  | _ => false

theorem aborts_spec {es : List Ev} (h : aborts es = true) : run (getidx exH) exF (init 0) es = some (.error .abort) := by
  rw [exH_pos]
  unfold aborts at h
  split at h
  · assumption
  · cases h

/-- Packets are received and counted by name and by index, the rate is derived twice, and two statistics are asked for
while more packets arrive. -/
def exRun : List Ev := [.add (bytes "npkts_rcvd") 3, .addIdx 10 4, .addD (bytes "total_duration") (1 / 2), .add (bytes "nosuch") 9,
  .tick 1, .tock, .add (bytes "npkts_rcvd") 6, .gStart (exB 2) true [bytes "npkts_rcvd", bytes "pps_in"], .gNext,
  .add (bytes "npkts_rcvd") 1, .tick 3, .tock, .gNext, .gEnd]

/-- The first statistic is shown as it was before the last packet, the rate as it was after it. -/
theorem ex_run : ∃ s, run (getidx exH) exF (init 0) exRun = some (.ok s) ∧
    (s.u 10 == 14 && s.outs == [[97, 97] ++ bytes "npkts_rcvd=13 pps_in=7.2" ++ [10]]) = true :=
  ends_spec (by decide +kernel)

theorem ex_typed : ∀ e ∈ exRun, e.typed := by
  intro e he
  simp only [exRun, List.mem_cons, List.not_mem_nil, or_false] at he
  rcases he with rfl | rfl | rfl | rfl | rfl | rfl | rfl | rfl | rfl | rfl | rfl | rfl | rfl | rfl <;>
    simp only [Ev.typed] <;> decide +kernel

theorem ex_roomy : ∀ e ∈ exRun, e.roomy := by
  intro e he
  simp only [exRun, List.mem_cons, List.not_mem_nil, or_false] at he
  rcases he with rfl | rfl | rfl | rfl | rfl | rfl | rfl | rfl | rfl | rfl | rfl | rfl | rfl | rfl <;>
    (simp only [Ev.roomy]; try decide +kernel)

theorem ex_clock : Clock 0 exRun := by
  refine ⟨by decide, ?_⟩
  refine ⟨by decide, trivial⟩

/-- The split of the run used by `C75_rate`: seven packets in two seconds. -/
theorem ex_rate : ∃ es1 es2 es3 es4, exRun = es1 ++ .tick 1 :: es2 ++ .tick 3 :: es3 ++ .tock :: es4 ∧
    given (bytes "npkts_rcvd") 10 es2 = 7 :=
  ⟨exRun.take 4, [.tock, .add (bytes "npkts_rcvd") 6, .gStart (exB 2) true [bytes "npkts_rcvd", bytes "pps_in"], .gNext,
    .add (bytes "npkts_rcvd") 1], [], [.gNext, .gEnd], rfl, by decide +kernel⟩

/-- An unknown name is an error, whatever else was asked for. -/
theorem ex_unknown : ∃ s, run (getidx exH) exF (init 0) [.gStart (exB 2) false [bytes "npkts_rcvd", bytes "nosuch"], .gNext, .gNext] = some (.ok s) ∧
    (s.outs == [[97, 97] ++ bytes "E68" ++ [10]]) = true := ends_spec (by decide +kernel)

/-- An answer too long for the buffer, at the separator. -/
theorem ex_long : ∃ s, run (getidx exH) exF (init 0)
    ([.gStart (exB 1000) false (List.replicate 13 (bytes "npkts_rcvd"))] ++ List.replicate 13 .gNext) = some (.ok s) ∧
    (s.outs == [List.replicate 1000 97 ++ bytes "E25" ++ [10]]) = true := ends_spec (by decide +kernel)

/-- That a `G` is always answered is false: with a cookie of 1000 bytes, asking for twelve counters that are zero fills the
buffer but for one byte, and the newline and its terminator do not fit (assertion in rpcpv1_stats.c:77). -/
theorem C75_full_counterexample : run (getidx exH) exF (init 0)
    ([.gStart (exB 1000) false (List.replicate 12 (bytes "npkts_rcvd"))] ++ List.replicate 12 .gNext ++ [.gEnd]) =
      some (.error .abort) := aborts_spec (by decide +kernel)

/-- That the reason of an error can be told from its code is false: a known name whose value does not fit is reported like a
name that does not exist. -/
theorem C75_reason_counterexample : ∃ s, run (getidx exH) exF (init 0)
    [.addIdx 10 (10 ^ 19), .gStart (exB 1000) false [bytes "nsess_created", bytes "nsess_created", bytes "npkts_rcvd"],
      .gNext, .gNext, .gNext] = some (.ok s) ∧
    (s.outs == [List.replicate 1000 97 ++ bytes "E68" ++ [10]]) = true := ends_spec (by decide +kernel)

/-- The names used by the callers are in the table: rtpp_session.c:303-305, rtpp_pipe.c:73-74, rtpp_stream.c:312, 432-444,
478, rtpp_proc_ttl.c:102, rtpp_proc_async.c:121-126, 324, rtp_resizer.c:114, rtpp_proc_servers.c:267,
pproc_manager.c:116, rtpp_command_async.c:120-130, rtpp_dtls_gw.c:262, rtpp_command.c:750-756. -/
theorem callers_known : ∀ n ∈ ["nsess_destroyed", "total_duration", "nsess_nortp", "nsess_nortcp", "nsess_owrtp", "nsess_owrtcp",
    "npkts_resizer_in", "rtpa_nsent", "rtpa_nrcvd", "rtpa_ndups", "rtpa_nlost", "rtpa_perrs", "nplrs_destroyed", "nsess_timeout",
    "npkts_rcvd", "npkts_relayed", "npkts_resizer_out", "npkts_resizer_discard", "npkts_discard", "npkts_played", "ncmds_rcvd",
    "ncmds_rcvd_ndups", "ncmds_succd", "ncmds_errs", "ncmds_repld", "nsess_complete", "nsess_created", "nplrs_created"],
    bytes n ∈ names := by decide +kernel

end Verif.Stats
