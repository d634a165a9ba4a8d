import Verif.Netaddr.Inv

/-!
# C86: the address of a party is read whole

Any number of threads set, read and compare the address in any interleaving, byte by byte.
-/

namespace Verif.Netaddr

/-- C86. The object is a register: whatever is read was set as a whole and last, comparing answers for the address set
last, and so does asking whether there is one.  Nothing is read or written outside the memory. -/
theorem C86_register (es : List Ev) (h : Proper es) : ∃ s, run es = .ok s ∧ Register s.log := by
  obtain ⟨s, hs, hi⟩ := run_inv es h
  exact ⟨s, hs, hi.reg⟩

/-- C86. There are never two threads with the mutex. -/
theorem C86_exclusive (es : List Ev) (h : Proper es) (s : St) (hs : run es = .ok s) (t u : Nat) (ht : Inside (s.pc t))
    (hu : Inside (s.pc u)) : t = u := by
  obtain ⟨s', hs', hi⟩ := run_inv es h
  cases hs.symm.trans hs'
  have := ((hi.held t).1 ht).symm.trans ((hi.held u).1 hu)
  exact Option.some.inj this

/-- What is still to be observed of a thread. -/
def pending (s : St) (t : Nat) : List Obs :=
  match s.pc t with
  | .set src _ => [.wrote t src]
  | .get0 _ | .get _ _ _ => [.read t (value s.log)]
  | .cmp0 sap | .cmp sap _ => [.compared t sap (decide (sap = value s.log))]
  | _ => []

/-- How many steps at most. -/
def left (s : St) (t : Nat) : Nat :=
  match s.pc t with
  | .stored => 1
  | .set src i => src.length - i + 2
  | .get0 _ => s.rlen + 2
  | .get _ n acc => n - acc.length + 1
  | .cmp0 sap => sap.length + 2
  | .cmp sap i => sap.length - i + 1
  | _ => 0

theorem at_self (s : St) (t : Nat) (p : PC) : (s.at t p).pc t = p := by simp [St.at]

/-- A step inside a method: it returns, or comes nearer to it. -/
theorem go_nearer {s : St} (h : Inv s) (t : Nat) (hin : Inside (s.pc t)) : ∃ s', go s t = .ok s' ∧ Inv s' ∧
    (s'.lock = none ∧ s'.pc t = .idle ∧ s'.log = pending s t ++ s.log ∨
     Inside (s'.pc t) ∧ left s' t < left s t ∧ pending s' t ++ s'.log = pending s t ++ s.log) := by
  obtain ⟨s', hs', hi⟩ := inv_go h t
  refine ⟨s', hs', hi, ?_⟩
  have hok := h.ok t
  have hreg := hi.reg
  have hrl := h.rlen
  have hlv : ∀ os, (s.leave t os).lock = none ∧ (s.leave t os).pc t = .idle ∧ (s.leave t os).log = os ++ s.log := fun os =>
    ⟨rfl, at_self s t .idle, rfl⟩
  unfold go at hs'
  cases hp : s.pc t with
  | idle => rw [hp] at hin; exact hin.elim
  | wantSet src => rw [hp] at hin; exact hin.elim
  | wantGet cap => rw [hp] at hin; exact hin.elim
  | wantCmp sap => rw [hp] at hin; exact hin.elim
  | stored =>
    simp only [hp] at hs'
    cases hs'
    exact .inl (by simpa [pending, hp] using hlv [])
  | set src i =>
    simp only [hp] at hs'
    cases hb : src[i]? with
    | some b =>
      have hlt := lt_of_get hb
      rw [hp] at hok
      have hsz := h.size
      have h1 : src.length ≤ 128 := hok.1
      simp only [hb] at hs'
      rw [if_pos (by omega)] at hs'
      cases hs'
      have hpc : (s.at t (.set src (i + 1))).pc t = .set src (i + 1) := at_self ..
      refine .inr ⟨?_, ?_, ?_⟩
      · show Inside ((s.at t (.set src (i + 1))).pc t); rw [hpc]; trivial
      · simp only [left, hpc, hp]; omega
      · simp only [pending, hpc, hp]; rfl
    | none =>
      simp only [hb] at hs'
      cases hs'
      have hpc : (s.at t .stored).pc t = .stored := at_self ..
      refine .inr ⟨?_, ?_, ?_⟩
      · show Inside ((s.at t .stored).pc t); rw [hpc]; trivial
      · simp only [left, hpc, hp]; omega
      · simp only [pending, hpc, hp]; rfl
  | get0 cap =>
    simp only [hp] at hs'
    cases hs'
    have hpc : (s.at t (.get cap s.rlen [])).pc t = .get cap s.rlen [] := at_self ..
    refine .inr ⟨?_, ?_, ?_⟩
    · rw [hpc]; trivial
    · simp only [left, hpc, hp, List.length_nil]; omega
    · simp only [pending, hpc, hp]; rfl
  | get cap n acc =>
    simp only [hp] at hs'
    by_cases hlt : acc.length < n
    · rw [if_pos hlt] at hs'
      cases hb : s.sas[acc.length]? with
      | none => simp only [hb] at hs'; cases hs'
      | some b =>
        simp only [hb] at hs'
        by_cases hc : acc.length < cap
        · rw [if_pos hc] at hs'
          cases hs'
          have hpc : (s.at t (.get cap n (acc ++ [b]))).pc t = .get cap n (acc ++ [b]) := at_self ..
          refine .inr ⟨?_, ?_, ?_⟩
          · rw [hpc]; trivial
          · simp only [left, hpc, hp, List.length_append, List.length_singleton]; omega
          · simp only [pending, hpc, hp]; rfl
        · rw [if_neg hc] at hs'; cases hs'
    · rw [if_neg hlt] at hs'
      cases hs'
      have he : acc = value s.log := hreg.1
      refine .inl ?_
      simp only [pending, hp]
      rw [← he]
      exact hlv _
  | cmp0 sap =>
    simp only [hp] at hs'
    by_cases hlen : sap.length ≠ s.rlen
    · rw [if_pos hlen] at hs'
      cases hs'
      have he : false = true ↔ sap = value s.log := hreg.1
      refine .inl ?_
      simp only [pending, hp]
      rw [decide_eq_false fun hc => by cases he.2 hc]
      exact hlv _
    · rw [if_neg hlen] at hs'
      cases hs'
      have hpc : (s.at t (.cmp sap 0)).pc t = .cmp sap 0 := at_self ..
      refine .inr ⟨?_, ?_, ?_⟩
      · rw [hpc]; trivial
      · simp only [left, hpc, hp]; omega
      · simp only [pending, hpc, hp]; rfl
  | cmp sap i =>
    simp only [hp] at hs'
    cases hb : sap[i]? with
    | none =>
      simp only [hb] at hs'
      cases hs'
      have he : true = true ↔ sap = value s.log := hreg.1
      refine .inl ?_
      simp only [pending, hp]
      rw [decide_eq_true (he.1 rfl)]
      exact hlv _
    | some b =>
      have hlt := lt_of_get hb
      simp only [hb] at hs'
      cases hb' : s.sas[i]? with
      | none => simp only [hb'] at hs'; cases hs'
      | some b' =>
        simp only [hb'] at hs'
        by_cases hbb : b = b'
        · rw [if_pos hbb] at hs'
          cases hs'
          have hpc : (s.at t (.cmp sap (i + 1))).pc t = .cmp sap (i + 1) := at_self ..
          refine .inr ⟨?_, ?_, ?_⟩
          · rw [hpc]; trivial
          · simp only [left, hpc, hp]; omega
          · simp only [pending, hpc, hp]; rfl
        · rw [if_neg hbb] at hs'
          cases hs'
          have he : false = true ↔ sap = value s.log := hreg.1
          refine .inl ?_
          simp only [pending, hp]
          rw [decide_eq_false fun hc => by cases he.2 hc]
          exact hlv _

theorem completes (n : Nat) : ∀ (es : List Ev) (s : St) (t : Nat), left s t ≤ n → run es = .ok s → Inv s → Inside (s.pc t) →
    ∃ k s', k ≤ left s t ∧ run (List.replicate k (.go t) ++ es) = .ok s' ∧ s'.lock = none ∧ s'.pc t = .idle ∧
      s'.log = pending s t ++ s.log := by
  induction n with
  | zero =>
    intro es s t hl hr hi hin
    obtain ⟨s', hg, -, ⟨h1, h2, h3⟩ | ⟨-, h4, -⟩⟩ := go_nearer hi t hin
    · exfalso
      cases hp : s.pc t <;> simp only [left, hp] at hl <;> first | omega | (rw [hp] at hin; exact hin)
    · omega
  | succ n ih =>
    intro es s t hl hr hi hin
    have hstep : ∀ s', go s t = .ok s' → run (.go t :: es) = .ok s' := fun s' hg => by rw [run, hr]; exact hg
    obtain ⟨s', hg, hi', ⟨h1, h2, h3⟩ | ⟨h4, h5, h6⟩⟩ := go_nearer hi t hin
    · have : 1 ≤ left s t := by
        cases hp : s.pc t <;> simp only [left, hp] <;> first | omega | (rw [hp] at hin; exact hin.elim)
      exact ⟨1, s', this, hstep s' hg, h1, h2, h3⟩
    · obtain ⟨k, s2, k1, k2, k3, k4, k5⟩ := ih (.go t :: es) s' t (by omega) (hstep s' hg) hi' h4
      refine ⟨k + 1, s2, by omega, ?_, k3, k4, k5.trans h6⟩
      rw [List.replicate_succ', List.append_assoc]
      exact k2

/-- C86. Nobody keeps the mutex: whoever is in the middle of a method returns after finitely many steps of its own. -/
theorem C86_released (es : List Ev) (h : Proper es) (s : St) (hs : run es = .ok s) (t : Nat) (hin : Inside (s.pc t)) :
    ∃ k s', run (List.replicate k (.go t) ++ es) = .ok s' ∧ s'.lock = none ∧ s'.pc t = .idle := by
  obtain ⟨s', hs', hi⟩ := run_inv es h
  cases hs.symm.trans hs'
  obtain ⟨k, s', -, k2, k3, k4, -⟩ := completes _ es s t (Nat.le_refl _) hs hi hin
  exact ⟨k, s', k2, k3, k4⟩

/-- What a method has to answer, given the address. -/
def answer (t : Nat) (v : Bytes) : PC → List Obs
  | .wantSet src => [.wrote t src]
  | .wantGet _ => [.read t v]
  | .wantCmp sap => [.compared t sap (decide (sap = v))]
  | _ => []

/-- C86. A method that is not disturbed returns with the answer it should have, in a number of steps that grows with the
size of the address. -/
theorem C86_answers (es : List Ev) (h : Proper es) (s : St) (hs : run es = .ok s) (hl : s.lock = none) (t : Nat)
    (hidle : s.pc t = .idle) (p : PC) (hp : Method p) :
    ∃ k s', run (List.replicate k (.go t) ++ .call t p :: es) = .ok s' ∧ s'.lock = none ∧ s'.pc t = .idle ∧
      s'.log = answer t (value s.log) p ++ s.log := by
  have hprop : Proper (.go t :: .call t p :: es) := by
    intro u q hm
    rcases List.mem_cons.1 hm with hm | hm
    · cases hm
    · rcases List.mem_cons.1 hm with hm | hm
      · cases hm; exact hp
      · exact h u q hm
  obtain ⟨s2, hs2, hi2⟩ := run_inv _ hprop
  have hc : run (.call t p :: es) = .ok (s.at t p) := by rw [run, hs]; simp only [step, if_pos hidle]
  have hg : go (s.at t p) t = .ok s2 := by rw [run, hc] at hs2; exact hs2
  have hl' : (s.at t p).lock = none := hl
  have key : Inside (s2.pc t) ∧ pending s2 t = answer t (value s.log) p ∧ s2.log = s.log := by
    cases p with
    | wantSet src =>
      simp only [go, at_self, St.enter, hl', if_true, Except.ok.injEq] at hg
      subst hg
      refine ⟨by show Inside (((s.at t _).at t _).pc t); rw [at_self]; trivial, ?_, rfl⟩
      simp only [pending, at_self, answer]
    | wantGet cap =>
      simp only [go, at_self, St.enter, hl', if_true, Except.ok.injEq] at hg
      subst hg
      refine ⟨by show Inside (((s.at t _).at t _).pc t); rw [at_self]; trivial, ?_, rfl⟩
      simp only [pending, at_self, answer]; rfl
    | wantCmp sap =>
      simp only [go, at_self, St.enter, hl', if_true, Except.ok.injEq] at hg
      subst hg
      refine ⟨by show Inside (((s.at t _).at t _).pc t); rw [at_self]; trivial, ?_, rfl⟩
      simp only [pending, at_self, answer]; rfl
    | _ => exact hp.elim
  obtain ⟨k, s3, -, k2, k3, k4, k5⟩ := completes _ _ s2 t (Nat.le_refl _) hs2 hi2 key.1
  refine ⟨k + 1, s3, ?_, k3, k4, by rw [k5, key.2.1, key.2.2]⟩
  rw [List.replicate_succ', List.append_assoc]
  exact k2

/-- Whose observation it is. -/
def Obs.who : Obs → Nat
  | .wrote t _ | .read t _ | .compared t _ _ | .empty t _ => t

/-- C86. A step adds at most one observation, and it is of the thread that took the step. -/
theorem C86_own (s s' : St) (e : Ev) (hs : step s e = .ok s') :
    s'.log = s.log ∨ ∃ o, s'.log = o :: s.log ∧ (e = .go o.who ∨ e = .isempty o.who) := by
  cases e with
  | call t p =>
    simp only [step] at hs
    split at hs <;> cases hs <;> exact .inl rfl
  | isempty t => cases hs; exact .inr ⟨_, rfl, .inr rfl⟩
  | go t =>
    simp only [step, go] at hs
    have henter : ∀ p, (s.enter t p).log = s.log := fun p => by unfold St.enter; split <;> rfl
    split at hs
    · cases hs; exact .inl rfl
    · cases hs; exact .inl (henter _)
    · split at hs
      · split at hs <;> cases hs; exact .inl rfl
      · cases hs; exact .inr ⟨_, rfl, .inl rfl⟩
    · cases hs; exact .inl rfl
    · cases hs; exact .inl (henter _)
    · cases hs; exact .inl rfl
    · split at hs
      · split at hs
        · split at hs <;> cases hs; exact .inl rfl
        · cases hs
      · cases hs; exact .inr ⟨_, rfl, .inl rfl⟩
    · cases hs; exact .inl (henter _)
    · split at hs <;> cases hs
      · exact .inr ⟨_, rfl, .inl rfl⟩
      · exact .inl rfl
    · split at hs
      · cases hs; exact .inr ⟨_, rfl, .inl rfl⟩
      · split at hs
        · cases hs
        · split at hs <;> cases hs
          · exact .inl rfl
          · exact .inr ⟨_, rfl, .inl rfl⟩

end Verif.Netaddr
