import Verif.Start.Props

/-! # C79: cases, and what does not hold -/

namespace Verif.Start

def str (s : String) : Bytes := s.toList.map fun c => UInt8.ofNat c.toNat

/-- A run ends well, in such a state. -/
def ends (o : Opt) (es : List Ev) (P : St → Bool) : Bool := match run o (begin o) es with
  | some s => P s
  | none => false

theorem ends_iff {o es P} (h : ends o es P = true) : ∃ s, run o (begin o) es = some s ∧ P s = true := by
  unfold ends at h
  split at h
  · rename_i s hs; exact ⟨s, hs, h⟩
  · simp at h

def pw0 (u : Bytes) : Option (Nat × Nat) := if u = str "rtpp" then some (100, 101) else none
def gr0 (g : Bytes) : Option Nat := if g = str "voip" then some 200 else none
def none0 : Creds := ⟨false, false, none, none, 0⟩

example : userOpt pw0 gr0 none0 (str "rtpp:voip") = some ⟨true, true, some 100, some 200, 0o755⟩ := by decide +kernel
example : userOpt pw0 gr0 none0 (str "rtpp") = some ⟨true, false, some 100, some 101, 0⟩ := by decide +kernel
example : userOpt pw0 gr0 none0 (str ":voip") = some ⟨false, true, none, some 200, 0o755⟩ := by decide +kernel
example : userOpt pw0 gr0 none0 (str "rtpp:") = none := by decide +kernel
example : modeOpt none0 (str "504") = some { none0 with sockMode := 0o770 } := by decide +kernel
example : userOpt pw0 gr0 { none0 with sockMode := 504 } (str "rtpp:voip") =
    modeOpt ⟨true, true, some 100, some 200, 0o755⟩ (str "504") := by decide +kernel

/-- A daemon started by the superuser with `-u rtpp:voip` and a pid file. -/
def optA : Opt := ⟨⟨true, true, some 100, some 200, 0o755⟩, [.udp4], false, true, true, false, 0, 0, [0, 5]⟩

def goes (n : Nat) : List Ev := List.replicate n (.act true)

/-- It comes up after 25 actions. -/
example : (plan optA).length = 25 := by decide +kernel
example : ends optA (goes 25 ++ [.intr, .wake]) (fun s => decide (s.par = .exited 0) && s.serving && s.pidText &&
    decide (s.uid = 100) && decide (s.gid = 200) && decide (s.life = .alive)) = true := by decide +kernel

/-- The parent waits until then, and ends with 1 if a module does not start. -/
example : ends optA (goes 24 ++ [.intr, .wake]) (fun _ => true) = false := by decide +kernel
example : ends optA (goes 18 ++ [.act false, .wake]) (fun s => decide (s.par = .exited 1) && !s.serving && !s.files) =
    true := by decide +kernel

/-- Without the right to change its user it ends. -/
example : ends optA (goes 10 ++ [.act false, .wake]) (fun s => decide (s.par = .exited 1) && decide (s.uid = 0)) =
    true := by decide +kernel

/-- A pid file that cannot be opened does no harm. -/
example : ends optA (goes 8 ++ [.act false] ++ goes 16 ++ [.wake]) (fun s => decide (s.par = .exited 0) && s.serving &&
    !s.pidText) = true := by decide +kernel

/-- The superuser, UDP, no `-u`. -/
def optB : Opt := { optA with creds := none0 }

example : refuses optB = true := by decide +kernel
example : ends optB [] (fun s => decide (s.life = .exited 1)) = true := by decide +kernel

/-- `-u rtpp` sets the user and leaves the group of the superuser, though the group of the user is known. -/
theorem C79_group_counterexample : ∃ o es s, userOpt pw0 gr0 none0 (str "rtpp") = some o.creds ∧ o.creds.gid = some 101 ∧
    run o (begin o) es = some s ∧ s.serving = true ∧ s.uid = 100 ∧ s.gid = 0 := by
  have h : ends { optA with creds := ⟨true, false, some 100, some 101, 0⟩ } (goes 24) (fun s => s.serving &&
    decide (s.uid = 100) && decide (s.gid = 0)) = true := by decide +kernel
  obtain ⟨s, hr, hs⟩ := ends_iff h
  simp only [Bool.and_eq_true, decide_eq_true_eq] at hs
  exact ⟨_, _, s, by decide +kernel, rfl, hr, hs.1.1, hs.1.2, hs.2⟩

/-- The other groups of the superuser are kept. -/
theorem C79_groups_counterexample : ∃ o es s, run o (begin o) es = some s ∧ s.serving = true ∧ o.creds.uname = true ∧
    o.creds.gname = true ∧ s.uid = 100 ∧ 0 ∈ s.groups := by
  have h : ends optA (goes 25) (fun s => s.serving && decide (s.uid = 100) && decide (0 ∈ s.groups)) = true := by
    decide +kernel
  obtain ⟨s, hr, hs⟩ := ends_iff h
  simp only [Bool.and_eq_true, decide_eq_true_eq] at hs
  exact ⟨_, _, s, hr, hs.1.1, rfl, rfl, hs.1.2, hs.2⟩

/-- A TCP control socket is remote control as well, and the superuser's program takes commands from it. -/
theorem C79_tcp_counterexample : ∃ o es s, o.force = false ∧ o.ruid = 0 ∧ o.creds.uname = false ∧
    Ctl.Kind.tcp4 ∈ o.kinds ∧ run o (begin o) es = some s ∧ s.serving = true ∧ s.uid = 0 := by
  have h : ends { optB with kinds := [.tcp4] } (goes 23) (fun s => s.serving && decide (s.uid = 0)) = true := by
    decide +kernel
  obtain ⟨s, hr, hs⟩ := ends_iff h
  simp only [Bool.and_eq_true, decide_eq_true_eq] at hs
  exact ⟨{ optB with kinds := [.tcp4] }, _, s, rfl, rfl, rfl, by simp, hr, hs.1, hs.2⟩

/-- Commands are taken before `SIGPIPE` is ignored: a client that goes away at once ends the program, which leaves its
files and reports failure. -/
theorem C79_sigpipe_counterexample : ∃ o es s, Ev.kill ∉ es ∧ Ev.act false ∉ es ∧ run o (begin o) es = some s ∧
    s.life = .killed ∧ s.files = true ∧ s.par = .exited 1 := by
  have h : ends optA (goes 20 ++ [.sigpipe, .wake]) (fun s => decide (s.life = .killed) && s.files &&
    decide (s.par = .exited 1)) = true := by decide +kernel
  obtain ⟨s, hr, hs⟩ := ends_iff h
  simp only [Bool.and_eq_true, decide_eq_true_eq] at hs
  exact ⟨_, _, s, by decide +kernel, by decide +kernel, hr, hs.1.1, hs.1.2, hs.2⟩

/-- The argument of `-w` is read in base ten: `0770` is 01402. -/
theorem C79_mode_counterexample : ∃ r, modeOpt none0 (str "0770") = some r ∧ r.sockMode = 0o1402 := by
  exact ⟨{ none0 with sockMode := 770 }, by decide +kernel, by decide⟩

/-! ## Stopping -/

/-- With a session standing, `SIGHUP` does not end the program; it ends when the session has. -/
example : trun t0 [.ask, .reg, .hup, .answer, .look, .ask, .del, .look] = some ⟨true, false, 0, .idle, true⟩ := by decide

/-- A command that was in hand is answered after the program has decided to end: the session that was granted is lost. -/
theorem C79_deorbit_counterexample : ∃ s, trun t0 [.ask, .hup, .look, .reg, .answer] = some s ∧ s.ending = true ∧
    s.sessions = 1 ∧ s.fast = false := ⟨⟨true, false, 1, .idle, true⟩, by decide, rfl, rfl, rfl⟩

end Verif.Start
