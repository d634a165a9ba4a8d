import Verif.Ctl.Closed

/-!
# C78: control sockets

What `-s` means, which address a network socket is bound to, who is let in through a local socket and when, and whose
socket file it is.
-/

namespace Verif.Ctl

theorem starts_iff {p s : Bytes} : starts p s = true ↔ ∃ r, s = p ++ r := by
  induction p generalizing s with
  | nil => simp [starts]
  | cons a p ih =>
    cases s with
    | nil => simp [starts]
    | cons b s =>
      simp only [starts, Bool.and_eq_true, beq_iff_eq, ih, List.cons_append, List.cons.injEq]
      constructor
      · rintro ⟨e, r, h⟩; exact ⟨r, e.symm, h⟩
      · rintro ⟨r, e, h⟩; exact ⟨e.symm, r, h⟩

/-- A word of the manual page followed by anything is a socket of that kind, named by what follows. -/
theorem C78_kind (isLib : Bool) : ∀ w ∈ table, ∀ r, parse isLib (w.1 ++ r) = ⟨w.2.1, w.2.2, r⟩ := by
  intro w hw r
  simp only [table, List.mem_cons, List.not_mem_nil, or_false] at hw
  have e1 : str "unix:" = [117, 110, 105, 120, 58] := by decide +kernel
  have e2 : str "cunix:" = [99, 117, 110, 105, 120, 58] := by decide +kernel
  have e3 : str "udp:" = [117, 100, 112, 58] := by decide +kernel
  have e4 : str "udp6:" = [117, 100, 112, 54, 58] := by decide +kernel
  have e5 : str "tcp:" = [116, 99, 112, 58] := by decide +kernel
  have e6 : str "tcp6:" = [116, 99, 112, 54, 58] := by decide +kernel
  have e7 : str "systemd:" = [115, 121, 115, 116, 101, 109, 100, 58] := by decide +kernel
  have e8 : str "stdio:" = [115, 116, 100, 105, 111, 58] := by decide +kernel
  have e9 : str "stdioc:" = [115, 116, 100, 105, 111, 99, 58] := by decide +kernel
  rcases hw with rfl | rfl | rfl | rfl | rfl | rfl | rfl | rfl | rfl <;>
    simp [parse, starts, e1, e2, e3, e4, e5, e6, e7, e8, e9]

/-- Anything else is the path of a local socket. -/
theorem C78_path (s : Bytes) (h : ∀ w ∈ table, ∀ r, s ≠ w.1 ++ r) : parse false s = ⟨.ifsun, false, s⟩ := by
  have e1 : str "unix:" = [117, 110, 105, 120, 58] := by decide +kernel
  have e2 : str "cunix:" = [99, 117, 110, 105, 120, 58] := by decide +kernel
  have e3 : str "udp:" = [117, 100, 112, 58] := by decide +kernel
  have e4 : str "udp6:" = [117, 100, 112, 54, 58] := by decide +kernel
  have e5 : str "tcp:" = [116, 99, 112, 58] := by decide +kernel
  have e6 : str "tcp6:" = [116, 99, 112, 54, 58] := by decide +kernel
  have e7 : str "systemd:" = [115, 121, 115, 116, 101, 109, 100, 58] := by decide +kernel
  have e8 : str "stdio:" = [115, 116, 100, 105, 111, 58] := by decide +kernel
  have e9 : str "stdioc:" = [115, 116, 100, 105, 111, 99, 58] := by decide +kernel
  have hs : ∀ w ∈ table, starts w.1 s = false := by
    intro w hw
    cases hb : starts w.1 s
    · rfl
    · obtain ⟨r, hr⟩ := starts_iff.mp hb
      exact absurd hr (h w hw r)
  simp only [table, List.forall_mem_cons, e1, e2, e3, e4, e5, e6, e7, e8, e9] at hs
  obtain ⟨a, b, c, d, e, f, g, i, j, _⟩ := hs
  simp [parse, a, b, c, d, e, f, g, i, j]

/-! ## Addresses -/

theorem strrchr_none {s : Bytes} (h : (58 : UInt8) ∉ s) : strrchr 58 s = none := by
  induction s with
  | nil => rfl
  | cons a s ih =>
    simp only [List.mem_cons, not_or] at h
    simp [strrchr, ih h.2, Ne.symm h.1]

theorem strrchr_last {h p : Bytes} (hp : (58 : UInt8) ∉ p) : strrchr 58 (h ++ 58 :: p) = some (h, p) := by
  induction h with
  | nil => simp [strrchr, strrchr_none hp]
  | cons a h ih => simp [strrchr, ih]

/-- Host and port are parted at the last colon; 22222 is used if there is no port. -/
theorem C78_host_port :
    (∀ h p, p ≠ [] → (58 : UInt8) ∉ p → hostPort (h ++ [58] ++ p) = (h, p)) ∧
    (∀ h, hostPort (h ++ [58]) = (h, str "22222")) ∧
    (∀ h, (58 : UInt8) ∉ h → hostPort h = (h, str "22222")) := by
  have e : str "22222" = cport := by decide +kernel
  refine ⟨?_, ?_, ?_⟩
  · intro h p hp hc
    have := strrchr_last (h := h) hc
    simp [hostPort, this, hp]
  · intro h
    have := strrchr_last (h := h) (p := []) (by simp)
    simp [hostPort, this, e]
  · intro h hc
    simp [hostPort, strrchr_none hc, e]

/-- The host stands for every address of the machine. -/
def Any (v6 : Bool) (h : Bytes) : Prop := h = str "*" ∨ (v6 = false ∧ h = str "0.0.0.0") ∨ (v6 = true ∧ h = str "::")

/-- The host is written with the characters of an address. -/
def Num (v6 : Bool) (h : Bytes) : Prop :=
  ∀ b ∈ h, b ∈ (if v6 then str "0123456789abcdefABCDEF:" else str "0123456789.")

theorem wildcard_iff {v6 h} : isWildcard v6 h = true ↔ Any v6 h := by
  have e1 : str "*" = [42] := by decide +kernel
  have e2 : str "0.0.0.0" = [48, 46, 48, 46, 48, 46, 48] := by decide +kernel
  have e3 : str "::" = [58, 58] := by decide +kernel
  simp only [Any, e1, e2, e3, isWildcard]
  cases v6 <;> simp

theorem numset_iff (v6 : Bool) (b : UInt8) :
    numset v6 b = true ↔ b ∈ (if v6 then str "0123456789abcdefABCDEF:" else str "0123456789.") := by
  have h : ∀ v6 : Bool, ∀ n : Fin 256, numset v6 (UInt8.ofNat n) =
    decide (UInt8.ofNat n ∈ (if v6 then str "0123456789abcdefABCDEF:" else str "0123456789.")) := by decide +kernel
  have e : UInt8.ofNat (⟨b.toNat, b.toNat_lt⟩ : Fin 256).1 = b := by simp
  have := h v6 ⟨b.toNat, b.toNat_lt⟩
  rw [e] at this
  rw [this]; simp

theorem numhost_iff {v6 h} : isNumhost v6 h = true ↔ Num v6 h := by
  simp only [isNumhost, List.all_eq_true, Num]
  exact forall_congr' fun b => forall_congr' fun _ => numset_iff v6 b

/-- The address of a network socket `host:port`.  A host that stands for every address is left to the resolver with the
port alone; otherwise the resolver's answer for host and port is taken, and if there is none, the address that is
written, with a port from 1 to 65535, provided that names were not to be looked up. -/
theorem C78_address (n : Net) (v6 noResolve : Bool) (h p : Bytes) (hp : p ≠ []) (hc : (58 : UInt8) ∉ p) :
    (Any v6 h → bindAddr n v6 noResolve (h ++ [58] ++ p) = n.gai v6 none p false) ∧
    (¬ Any v6 h → ∀ num : Bool, (num = true ↔ noResolve = true ∨ Num v6 h) →
      (∀ a, n.gai v6 (some h) p num = some a → bindAddr n v6 noResolve (h ++ [58] ++ p) = some a) ∧
      (n.gai v6 (some h) p num = none → ∀ a, bindAddr n v6 noResolve (h ++ [58] ++ p) = some a ↔
        num = true ∧ n.pton v6 h = some a.1 ∧ ∃ v, Str.atoiSaferange p 1 65535 = .ok v ∧ a.2 = v.toNat)) := by
  have hs := C78_host_port.1 h p hp hc
  unfold bindAddr
  rw [hs]
  simp only [setbindhost]
  refine ⟨?_, ?_⟩
  · intro ha
    rw [if_pos (wildcard_iff.mpr ha)]
    simp only [resolve]
    cases n.gai v6 none p false <;> rfl
  · intro ha num hnum
    rw [if_neg (fun e => ha (wildcard_iff.mp e))]
    have hn : (noResolve || isNumhost v6 h) = num := by
      rw [Bool.eq_iff_iff, hnum, Bool.or_eq_true, numhost_iff]
    rw [hn]
    refine ⟨?_, ?_⟩
    · intro a e; simp [resolve, e]
    · intro e a
      obtain ⟨x, y⟩ := a
      simp only [resolve, e]
      cases num with
      | false => simp
      | true =>
        simp only [Bool.true_eq_false, if_false, true_and]
        cases n.pton v6 h with
        | none => simp
        | some z =>
          cases hv : Str.atoiSaferange p 1 65535 with
          | ok v => simp [eq_comm]
          | notInt => simp
          | outRange => simp

/-- Names are not looked up if `--no_resolve` is given or the host is written as an address: what the resolver says
of names is then without effect. -/
theorem C78_no_lookup (n n' : Net) (v6 noResolve : Bool) (name : Bytes)
    (hn : noResolve = true ∨ Num v6 (hostPort name).1 ∨ Any v6 (hostPort name).1)
    (h1 : ∀ p, n.gai v6 none p false = n'.gai v6 none p false)
    (h2 : ∀ h p, n.gai v6 (some h) p true = n'.gai v6 (some h) p true) (h3 : ∀ h, n.pton v6 h = n'.pton v6 h) :
    bindAddr n v6 noResolve name = bindAddr n' v6 noResolve name := by
  unfold bindAddr setbindhost
  split
  · simp only [resolve, h1]
  · rename_i hw
    have : (noResolve || isNumhost v6 (hostPort name).1) = true := by
      rw [Bool.or_eq_true, numhost_iff]
      rcases hn with a | a | a
      · exact .inl a
      · exact .inr a
      · exact absurd (wildcard_iff.mpr a) hw
    rw [this]
    simp only [resolve, h2, h3]

/-! ## Socket files -/

/-- At every moment of every run of any number of instances, whoever can connect through a socket file finds it with
the owner and the mode that its maker was asked for.  Partial: instances that share the path must agree about user,
group and mode (`C78_creds_counterexample`). -/
theorem C78_closed_partial (cf : Nat → Cfg) (q : Bytes)
    (hsame : ∀ i j, Uses (cf i) q → Uses (cf j) q → SameCreds (cf i) (cf j))
    (es : List Ev) (s : St) (hr : run cf init es = some s) (n : Node) (ho : Open s q n) :
    n.uid = wantUid (cf n.inst) ∧ n.gid = wantGid (cf n.inst) ∧ n.mode = wantMode (cf n.inst) :=
  ((inv_run hsame (inv_init cf q) hr).node n ho.1).2.2.1 ho.2.1

/-- An instance that has come up is reached through each of its local sockets, with owner and mode as asked for.
Partial: no other instance may have made a call on the path since this one was started (`C78_takeover_counterexample`,
`C78_removed_counterexample`). -/
theorem C78_reach_partial (cf : Nat → Cfg) (i : Nat) (q : Bytes) (hu : Uses (cf i) q) (h1 h2 : List Ev) (s s' : St)
    (hs : run cf init (h1 ++ [.start i]) = some s) (hr : run cf s h2 = some s') (hup : s'.pr i = .up)
    (ha : Alone cf s h2 i q) :
    (∃ n, Open s' q n ∧ n.inst = i ∧ n.uid = wantUid (cf i) ∧ n.gid = wantGid (cf i) ∧ n.mode = wantMode (cf i)) ∧
    ∀ c ∈ (cf i).names, Local c → c.name.length < 108 := by
  rw [run_append] at hs
  cases h0 : run cf init h1 with
  | none => simp [h0] at hs
  | some s0 =>
    simp only [h0, Option.bind_some, run, step] at hs
    by_cases hp : s0.pr i = .idle
    · rw [if_pos hp] at hs
      simp at hs; subst hs
      have hA : Along cf i q (s0.fs q) ⟨s0.fs, move s0.pr i (.setup (initOps (cf i) 0 (cf i).names))⟩ := by
        simp only [Along, move_self]; exact ⟨[], rfl, rfl⟩
      have := along_run hr ha hA
      simp only [Along, hup] at this
      obtain ⟨hl, hm⟩ := init_made this
      obtain ⟨n, e1, e2, e3, e4⟩ := hm (.inr hu)
      exact ⟨⟨n, ⟨e1, e3, by rw [e2, hup]; rfl⟩, e2, e4⟩, hl⟩
    · rw [if_neg hp] at hs; simp at hs

/-- An instance that ends in good order leaves no socket file.  Partial: the name is absolute or the working directory
is kept (`C78_relative_counterexample`), `unlink` is not refused, and no other instance makes a call on the path
meanwhile. -/
theorem C78_gone_partial (cf : Nat → Cfg) (i : Nat) (c : Csock) (hc : c ∈ (cf i).names) (hl : Local c) (q : Bytes)
    (hq : Means (cf i).cwd c.name q) (hd : (cf i).chdir = false ∨ c.name.head? = some 47) (h1 h2 : List Ev) (s s' : St)
    (hs : run cf init (h1 ++ [.quit i]) = some s) (hr : run cf s h2 = some s') (hg : s'.pr i = .gone)
    (hk : Ev.kill i ∉ h2) (hf : Ev.call i false ∉ h2) (ha : Alone cf s h2 i q) : s'.fs q = none := by
  rw [run_append] at hs
  cases h0 : run cf init h1 with
  | none => simp [h0] at hs
  | some s0 =>
    simp only [h0, Option.bind_some, run, step] at hs
    by_cases hp : s0.pr i = .up
    · rw [if_pos hp] at hs
      simp at hs; subst hs
      have hL : Leaving i q ⟨s0.fs, move s0.pr i (.down (cleanOps (cf i) (cf i).names))⟩ := by
        simp only [Leaving, move_self]
        refine ⟨fun o m => clean_soft m, .inl (clean_mem hc hl ?_)⟩
        have hq' := full_iff.mpr hq
        rcases hd with hd | hd
        · rw [hd]; exact hq'
        · rw [← hq']; exact full_slash hd
      have := leaving_run hr ha hk hf hL
      simpa [Leaving, hg] using this
    · rw [if_neg hp] at hs; simp at hs

end Verif.Ctl
