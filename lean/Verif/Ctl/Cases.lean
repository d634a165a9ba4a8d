import Verif.Ctl.Props

/-! # C78: cases, and what does not hold -/

namespace Verif.Ctl

/-- A run ends well, in such a state. -/
def ends (cf : Nat → Cfg) (es : List Ev) (P : St → Bool) : Bool := match run cf init es with
  | some s => P s
  | none => false

theorem ends_iff {cf es P} (h : ends cf es P = true) : ∃ s, run cf init es = some s ∧ P s = true := by
  unfold ends at h
  split at h
  · rename_i s hs; exact ⟨s, hs, h⟩
  · simp at h

def sockA : Csock := ⟨.ifsun, false, str "/var/run/a"⟩
def sockB : Csock := ⟨.ifsunC, false, str "b"⟩

/-- `-u u:g`, started by root. -/
def cfgA : Cfg := ⟨[sockA], true, true, some 100, some 200, 0o770, str "/root", true, 0, 0, 0o22⟩

/-- Started by another user for the same path. -/
def cfgB : Cfg := { cfgA with uname := false, gname := true, uid := none, gid := some 300, sockMode := 0o777, euid := 55 }

/-- The calls of a set-up with one local socket, user, group and mode. -/
def calls (i n : Nat) : List Ev := List.replicate n (.call i true)

/-- An instance comes up; others start and stop beside it. -/
example : ends (fun _ => cfgA) ([.start 0] ++ calls 0 7 ++ [.ready 0]) (fun s =>
    s.fs (str "/var/run/a") == some ⟨0, 0, 100, 200, 0o770, true⟩ && decide (s.pr 0 = .up)) = true := by
  decide +kernel

/-- Before `listen`, nobody can connect. -/
example : ends (fun _ => cfgA) ([.start 0] ++ calls 0 5) (fun s =>
    s.fs (str "/var/run/a") == some ⟨0, 0, 100, 200, 0o770, false⟩) = true := by decide +kernel

/-- A file of an earlier instance that was killed is replaced. -/
example : ends (fun _ => cfgA) ([.start 0] ++ calls 0 7 ++ [.ready 0, .kill 0, .start 1] ++ calls 1 7 ++ [.ready 1]) (fun s =>
    s.fs (str "/var/run/a") == some ⟨1, 0, 100, 200, 0o770, true⟩) = true := by decide +kernel

/-- The file is gone after an orderly end. -/
example : ends (fun _ => cfgA) ([.start 0] ++ calls 0 7 ++ [.ready 0, .quit 0, .call 0 true, .done 0]) (fun s =>
    s.fs (str "/var/run/a") == none) = true := by decide +kernel

/-- Two sockets, one of them with a relative name. -/
example : Uses { cfgA with names := [sockA, sockB] } (str "/root/b") :=
  ⟨sockB, by decide +kernel, .inr rfl, full_iff.mp (by decide +kernel)⟩

example : parse false (str "udp6:::1:9000") = ⟨.udp6, false, str "::1:9000"⟩ := by decide +kernel
example : hostPort (str "::1:9000") = (str "::1", str "9000") := by decide +kernel
example : hostPort (str "localhost") = (str "localhost", str "22222") := by decide +kernel
example : ¬ ∃ w ∈ table, starts w.1 (str "/var/run/rtpproxy.sock") = true := by decide +kernel

/-- A resolver that knows one name, and addresses as numbers of their last byte. -/
def net0 : Net := ⟨fun _ h _ num => if h = some (str "localhost") ∧ num = false then some (1, 2) else none,
  fun _ h => if h = str "10.0.0.7" then some 7 else none⟩

example : bindAddr net0 false false (str "localhost:99") = some (1, 2) := by decide +kernel
example : bindAddr net0 false true (str "localhost:99") = none := by decide +kernel
example : bindAddr net0 false false (str "10.0.0.7:9000") = some (7, 9000) := by decide +kernel

/-- An IPv6 address without a port is cut at its last colon. -/
theorem C78_v6_counterexample : ∃ name, parse false (str "udp6:" ++ name) = ⟨.udp6, false, name⟩ ∧ name = str "::1" ∧
    hostPort name = (str ":", str "1") := ⟨str "::1", by decide +kernel, rfl, by decide +kernel⟩

/-- A second instance takes the path away from one that is up and stays up. -/
theorem C78_takeover_counterexample : ∃ es s, run (fun _ => cfgA) init es = some s ∧
    s.pr 0 = .up ∧ Uses cfgA (str "/var/run/a") ∧ ¬ ∃ n, Open s (str "/var/run/a") n ∧ n.inst = 0 := by
  have h : ends (fun _ => cfgA) ([.start 0] ++ calls 0 7 ++ [.ready 0, .start 1] ++ calls 1 7 ++ [.ready 1]) (fun s =>
    s.fs (str "/var/run/a") == some ⟨1, 0, 100, 200, 0o770, true⟩ && decide (s.pr 0 = .up)) = true := by decide +kernel
  obtain ⟨s, hr, hs⟩ := ends_iff h
  simp only [Bool.and_eq_true, beq_iff_eq, decide_eq_true_eq] at hs
  refine ⟨_, s, hr, hs.2, ⟨sockA, by decide +kernel, .inl rfl, full_iff.mp (by decide +kernel)⟩, ?_⟩
  rintro ⟨n, ho, hi⟩
  have := ho.1; rw [hs.1] at this; simp at this; subst this; simp at hi

/-- The instance whose path was taken removes the file of the one that took it when it ends: nobody can reach that one,
which is up. -/
theorem C78_removed_counterexample : ∃ es s, run (fun _ => cfgA) init es = some s ∧
    s.pr 0 = .gone ∧ s.pr 1 = .up ∧ Uses cfgA (str "/var/run/a") ∧ s.fs (str "/var/run/a") = none := by
  have h : ends (fun _ => cfgA) ([.start 0] ++ calls 0 7 ++ [.ready 0, .start 1] ++ calls 1 7 ++
      [.ready 1, .quit 0, .call 0 true, .done 0]) (fun s =>
    s.fs (str "/var/run/a") == none && decide (s.pr 0 = .gone) && decide (s.pr 1 = .up)) = true := by decide +kernel
  obtain ⟨s, hr, hs⟩ := ends_iff h
  simp only [Bool.and_eq_true, beq_iff_eq, decide_eq_true_eq] at hs
  exact ⟨_, s, hr, hs.1.2, hs.2, ⟨sockA, by decide +kernel, .inl rfl, full_iff.mp (by decide +kernel)⟩, hs.1.1⟩

/-- A start that fails at its second socket leaves the file of the first one. -/
theorem C78_left_counterexample : ∃ cf es s q, run cf init es = some s ∧ s.pr 0 = .gone ∧ (s.fs q).isSome = true := by
  have h : ends (fun _ => { cfgA with names := [sockA, sockB] }) ([.start 0] ++ calls 0 9 ++ [.call 0 false]) (fun s =>
    (s.fs (str "/var/run/a")).isSome && decide (s.pr 0 = .gone)) = true := by decide +kernel
  obtain ⟨s, hr, hs⟩ := ends_iff h
  simp only [Bool.and_eq_true, decide_eq_true_eq] at hs
  exact ⟨_, _, s, _, hr, hs.2, hs.1⟩

/-- A daemon whose socket has a relative name does not remove the file at its end: it looks for it in the root. -/
theorem C78_relative_counterexample : ∃ cf es s q, run cf init es = some s ∧ s.pr 0 = .gone ∧ Ev.kill 0 ∉ es ∧
    Ev.call 0 false ∉ es ∧ Uses (cf 0) q ∧ (s.fs q).isSome = true := by
  have h : ends (fun _ => { cfgA with names := [sockB] })
      ([.start 0] ++ calls 0 7 ++ [.ready 0, .quit 0, .call 0 true, .done 0]) (fun s =>
    (s.fs (str "/root/b")).isSome && decide (s.pr 0 = .gone)) = true := by decide +kernel
  obtain ⟨s, hr, hs⟩ := ends_iff h
  simp only [Bool.and_eq_true, decide_eq_true_eq] at hs
  exact ⟨_, _, s, _, hr, hs.2, by decide +kernel, by decide +kernel, ⟨sockB, by decide +kernel, .inr rfl, full_iff.mp (by decide +kernel)⟩, hs.1⟩

/-- Two instances that do not agree: one changes owner and mode of the other's socket, which is open. -/
theorem C78_creds_counterexample : ∃ cf es s n, run cf init es = some s ∧ Open s (str "/var/run/a") n ∧
    n.mode ≠ wantMode (cf n.inst) ∧ n.gid ≠ wantGid (cf n.inst) := by
  have h : ends (fun i => if i = 0 then cfgA else cfgB)
      ([.start 0, .start 1] ++ calls 1 3 ++ calls 0 6 ++ calls 1 2) (fun s =>
    s.fs (str "/var/run/a") == some ⟨0, 0, 100, 300, 0o777, true⟩ && live (s.pr 0)) = true := by decide +kernel
  obtain ⟨s, hr, hs⟩ := ends_iff h
  simp only [Bool.and_eq_true, beq_iff_eq] at hs
  exact ⟨_, _, s, _, hr, ⟨hs.1, rfl, hs.2⟩, by decide +kernel, by decide +kernel⟩

end Verif.Ctl
