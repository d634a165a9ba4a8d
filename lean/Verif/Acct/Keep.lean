import Verif.Acct.Local

/-! # The descriptor of the module is its own -/

namespace Verif.Acct

/-- The descriptor is in use. -/
def Pc.keeps : Pc → Bool
  | .open _ | .dead => false
  | _ => true

structure Keep (s : St) (p : Nat) : Prop where
  fd : (s.procs p).pc.keeps = true → ∀ n : Nat, (s.procs p).fd = some n → ∃ i o : Nat, (s.procs p).tbl n = some (.csv i o)
  ol : ∀ k : Option (List UInt8), (s.procs p).pc = .olock k → ∃ i : Nat, (s.procs p).at i 0

theorem keep_frame {s s' : St} {x : Nat} (hf : Frame s s' x) (h : Keep s x) : Keep s' x := by
  constructor
  · intro hk n hn
    rw [hf.proc.pc] at hk
    rw [hf.proc.fd] at hn
    obtain ⟨i, o, hio⟩ := h.fd hk n hn
    exact ⟨i, o, (hf.proc.tbl n i o).mpr hio⟩
  · intro k hk
    rw [hf.proc.pc] at hk
    obtain ⟨i, hi⟩ := h.ol k hk
    exact ⟨i, (hf.proc.at i 0).mpr hi⟩

theorem keep_to {s : St} {p : Nat} {pc : Pc} (h : Keep s p) (hk : (s.procs p).pc.keeps = true ∨ pc.keeps = false)
    (ho : ∀ k, pc ≠ .olock k) : Keep (s.to p pc) p := by
  constructor
  · intro hp n hn
    simp only [St.to, St.setP, Proc.goto, if_true] at hp hn ⊢
    rcases hk with hk | hk
    · exact h.fd hk n hn
    · rw [hk] at hp; cases hp
  · intro k hp
    simp only [St.to, St.setP, Proc.goto, if_true] at hp
    exact absurd hp (ho k)

theorem keep_none {s : St} {p : Nat} {pc : Pc} (hk : pc.keeps = false) (ho : ∀ k, pc ≠ .olock k) : Keep (s.to p pc) p := by
  constructor
  · intro hp
    simp only [St.to, St.setP, Proc.goto, if_true] at hp
    rw [hk] at hp; cases hp
  · intro k hp
    simp only [St.to, St.setP, Proc.goto, if_true] at hp
    exact absurd hp (ho k)

theorem keep_append {s : St} {p n i o : Nat} {w : List UInt8} {pc : Pc} (hf : (s.procs p).file = .ok (some (n, i, o)))
    (ho : ∀ k, pc ≠ .olock k) : Keep ((s.append p n i w).to p pc) p := by
  obtain ⟨h1, _⟩ := file_some hf
  constructor
  · intro _ m hm
    simp only [St.to, St.append, St.setP, Proc.goto, Proc.bind, if_true] at hm ⊢
    rw [h1] at hm; cases hm
    simp
  · intro k hp
    simp only [St.to, St.setP, Proc.goto, if_true] at hp
    exact absurd hp (ho k)

theorem held_file {s : St} {p : Nat} (hi : Inv s) (h : (s.procs p).pc.held = true) :
    ∃ n i o, (s.procs p).file = .ok (some (n, i, o)) := by
  obtain ⟨i, o, ha, _⟩ := hi.held p h
  obtain ⟨n, hn, _⟩ := at_file ha
  exact ⟨n, i, o, hn⟩

theorem keep_unlockf {s s' : St} {p : Nat} {pos : Int} {pc : Pc} (hu : unlockf s p pos = .ok s') (h : Keep s p)
    (hk : (s.procs p).pc.keeps = true) (ho : ∀ k, pc ≠ .olock k) : Keep (s'.to p pc) p := by
  have hp := (unlockf_files hu).2
  have h' : Keep s' p := ⟨by rw [hp]; exact h.fd, by rw [hp]; exact h.ol⟩
  exact keep_to h' (.inl (by rw [hp]; exact hk)) ho

theorem step_keep {s s' : St} {e : Ev} (hi : Inv s) (hk : ∀ p, Keep s p) (hs : step s e = some (.ok s')) (hsf : e.Safe) (x : Nat) :
    Keep s' x := by
  by_cases hx : e.proc = some x
  case neg => exact keep_frame (step_frame hs hx) (hk x)
  have h := hk x
  cases e <;> simp only [Ev.proc, Option.some.injEq, reduceCtorEq] at hx <;> simp only [step] at hs <;> subst hx
  case ctor p => split at hs <;> cases hs; next hp => exact keep_to h (.inl (by rw [hp]; rfl)) (by simp)
  case begin p w => split at hs <;> cases hs; next hp => exact keep_to h (.inl (by rw [hp]; rfl)) (by simp)
  case stat p ok =>
    split at hs
    next hp => (repeat' split at hs) <;> cases hs <;> exact keep_to h (.inl (by rw [hp]; rfl)) (by simp)
    · cases hs
  case close p =>
    split at hs
    · simp only [Option.some.injEq] at hs
      unfold doClose at hs
      split at hs
      · cases hs; exact keep_none rfl (by simp)
      · split at hs <;> cases hs
        exact keep_none rfl (by simp)
    · cases hs
  case «open» p r =>
    split at hs
    next k hp =>
      rw [Option.map_eq_some_iff] at hs
      obtain ⟨s1, h1, h2⟩ := hs
      cases h2
      unfold doOpen at h1
      split at h1
      · cases h1
        constructor
        · intro _ n hn; simp [St.setP] at hn
        · intro k' hp; simp [St.setP] at hp; cases k <;> simp [failTo] at hp
      · split at h1
        · split at h1 <;> cases h1
          all_goals
            constructor
            · intro _ n hn
              simp only [St.setP, Proc.bind, if_true, Option.some.injEq] at hn ⊢
              subst hn; simp
            · intro k' _
              exact ⟨_, by simp only [St.setP, if_true]; exact ⟨_, rfl, by simp [Proc.bind]; rfl⟩⟩
        · cases h1
    · cases hs
  case olock p ok =>
    split at hs
    next k hp =>
      simp only [Ev.Safe] at hsf
      subst hsf
      obtain ⟨i, ha⟩ := h.ol k hp
      obtain ⟨n, hf, h1, h2⟩ := at_file ha
      unfold doOlock at hs
      rw [hf] at hs
      simp only [if_true] at hs
      split at hs
      · cases hs
      · rw [if_neg (by decide)] at hs
        cases hs
        have h' : Keep { s with locks := s.locks ++ [⟨i, p, 0, none⟩] } p := ⟨h.fd, h.ol⟩
        exact keep_to h' (.inl (by simp only; rw [hp]; rfl)) (by simp)
    · cases hs
  case ofstat p ok =>
    split at hs
    next k pos hp =>
      simp only [Ev.Safe] at hsf
      subst hsf
      obtain ⟨n, i, o, hf⟩ := held_file hi (p := p) (by rw [hp]; rfl)
      simp only [Option.some.injEq] at hs
      unfold doOfstat at hs
      rw [hf] at hs
      simp only [if_true] at hs
      cases hs
      constructor
      · intro _ n hn
        simp only [St.setP, if_true] at hn ⊢
        exact h.fd (by rw [hp]; rfl) n hn
      · intro k' hp'
        simp only [St.setP, if_true] at hp'
        split at hp' <;> cases hp'
    · cases hs
  case head p r =>
    split at hs
    next k pos hp =>
      obtain ⟨n, i, o, hf⟩ := held_file hi (p := p) (by rw [hp]; rfl)
      unfold doHead at hs
      rw [hf] at hs
      simp only at hs
      (repeat' split at hs) <;> cases hs <;>
        first
          | exact keep_append hf (by simp)
          | exact keep_to h (.inl (by rw [hp]; rfl)) (by simp)
    · cases hs
  case ounlock p =>
    split at hs
    next k pos g hp =>
      simp only [Option.some.injEq] at hs
      cases hu : unlockf s p pos with
      | error f => rw [hu] at hs; cases hs
      | ok s1 =>
        rw [hu] at hs; cases hs
        exact keep_unlockf hu h (by rw [hp]; rfl) (by cases g <;> cases k <;> simp [goodTo, failTo])
    · cases hs
  case lock p ok =>
    split at hs
    next w hp =>
      unfold doLock at hs
      simp only at hs
      (repeat' split at hs) <;> cases hs <;>
        first
          | exact keep_to h (.inl (by rw [hp]; rfl)) (by simp)
          | exact keep_to (s := { s with locks := _ }) ⟨h.fd, h.ol⟩ (.inl (by simp only; rw [hp]; rfl)) (by simp)
    · cases hs
  case write p r =>
    split at hs
    next w pos hp =>
      obtain ⟨n, i, o, hf⟩ := held_file hi (p := p) (by rw [hp]; rfl)
      unfold doWrite at hs
      rw [hf] at hs
      simp only at hs
      (repeat' split at hs) <;> cases hs <;>
        first
          | exact keep_append hf (by simp)
          | exact keep_to h (.inl (by rw [hp]; rfl)) (by simp)
    · cases hs
  case unlock p =>
    split at hs
    next pos hp =>
      simp only [Option.some.injEq] at hs
      cases hu : unlockf s p pos with
      | error f => rw [hu] at hs; cases hs
      | ok s1 => rw [hu] at hs; cases hs; exact keep_unlockf hu h (by rw [hp]; rfl) (by simp)
    · cases hs
  case dtor p =>
    split at hs
    · simp only [Option.some.injEq] at hs
      unfold doDtor at hs
      split at hs
      · cases hs; exact keep_none rfl (by simp)
      · split at hs <;> cases hs
        exact keep_none rfl (by simp)
    · cases hs
  case die p =>
    cases hs
    constructor
    · intro _ n hn; simp [St.setP] at hn
    · intro k hp; simp [St.setP] at hp

theorem close_ok {s : St} {p n : Nat} (h : ∃ i o : Nat, (s.procs p).tbl n = some (.csv i o)) : ∃ s', s.closeFd p n = .ok s' := by
  obtain ⟨i, o, h⟩ := h
  unfold St.closeFd
  rw [h]
  exact ⟨_, rfl⟩

theorem keep_file {s : St} {p : Nat} (h : Keep s p) (hk : (s.procs p).pc.keeps = true) : ∃ r, (s.procs p).file = .ok r := by
  unfold Proc.file
  split
  · exact ⟨_, rfl⟩
  next n hn =>
    obtain ⟨i, o, hio⟩ := h.fd hk n hn
    rw [hio]
    exact ⟨_, rfl⟩

theorem unlockf_ok {s : St} {p : Nat} (pos : Int) (h : ∃ r, (s.procs p).file = .ok r) : ∃ s', unlockf s p pos = .ok s' := by
  obtain ⟨r, h⟩ := h
  unfold unlockf
  rw [h]
  cases r <;> exact ⟨_, rfl⟩

/-- No step goes to a descriptor of another thread. -/
theorem step_safe {s : St} {e : Ev} (hi : Inv s) (hk : ∀ p, Keep s p) (hsf : e.Safe) (f : Fault) :
    step s e ≠ some (.error f) := by
  intro hs
  cases e <;> simp only [step] at hs
  case ctor p => split at hs <;> cases hs
  case begin p w => split at hs <;> cases hs
  case stat p ok => (repeat' split at hs) <;> cases hs
  case close p =>
    split at hs
    next k hp =>
      simp only [Option.some.injEq] at hs
      unfold doClose at hs
      split at hs
      · cases hs
      next n hn =>
        obtain ⟨s1, h1⟩ := close_ok ((hk p).fd (by rw [hp]; rfl) n hn)
        rw [h1] at hs; cases hs
    · cases hs
  case «open» p r =>
    split at hs
    · rw [Option.map_eq_some_iff] at hs
      obtain ⟨s1, h1, h2⟩ := hs
      cases h2
    · cases hs
  case olock p ok =>
    split at hs
    next k hp =>
      simp only [Ev.Safe] at hsf
      subst hsf
      obtain ⟨i, ha⟩ := (hk p).ol k hp
      obtain ⟨n, hf, h1, h2⟩ := at_file ha
      unfold doOlock at hs
      rw [hf] at hs
      simp only [if_true] at hs
      split at hs
      · cases hs
      · rw [if_neg (by decide)] at hs
        cases hs
    · cases hs
  case ofstat p ok =>
    split at hs
    next k pos hp =>
      simp only [Ev.Safe] at hsf
      subst hsf
      obtain ⟨n, i, o, hf⟩ := held_file hi (p := p) (by rw [hp]; rfl)
      unfold doOfstat at hs
      rw [hf] at hs
      cases hs
    · cases hs
  case head p r =>
    split at hs
    next k pos hp =>
      obtain ⟨n, i, o, hf⟩ := held_file hi (p := p) (by rw [hp]; rfl)
      unfold doHead at hs
      rw [hf] at hs
      simp only at hs
      (repeat' split at hs) <;> cases hs
    · cases hs
  case ounlock p =>
    split at hs
    next k pos g hp =>
      obtain ⟨s1, h1⟩ := unlockf_ok pos (keep_file (hk p) (by rw [hp]; rfl))
      rw [h1] at hs; cases hs
    · cases hs
  case lock p ok =>
    split at hs
    next w hp =>
      obtain ⟨r, hf⟩ := keep_file (hk p) (by rw [hp]; rfl)
      unfold doLock at hs
      rw [hf] at hs
      simp only at hs
      (repeat' split at hs) <;> cases hs <;> simp_all
    · cases hs
  case write p r =>
    split at hs
    next w pos hp =>
      obtain ⟨n, i, o, hf⟩ := held_file hi (p := p) (by rw [hp]; rfl)
      unfold doWrite at hs
      rw [hf] at hs
      simp only at hs
      (repeat' split at hs) <;> cases hs
    · cases hs
  case unlock p =>
    split at hs
    next pos hp =>
      obtain ⟨s1, h1⟩ := unlockf_ok pos (keep_file (hk p) (by rw [hp]; rfl))
      rw [h1] at hs; cases hs
    · cases hs
  case dtor p =>
    split at hs
    next hp =>
      simp only [Option.some.injEq] at hs
      unfold doDtor at hs
      split at hs
      · cases hs
      next n hn =>
        obtain ⟨s1, h1⟩ := close_ok ((hk p).fd (by rw [hp]; rfl) n hn)
        rw [h1] at hs; cases hs
    · cases hs
  case die p => cases hs
  case fopen p n => split at hs <;> cases hs
  case fclose p n => split at hs <;> cases hs
  case unlink => cases hs
  case mkfile => cases hs
  case relink i => split at hs <;> cases hs
  case trunc i => split at hs <;> cases hs

theorem keep_init (p : Nat) : Keep init p := ⟨by simp [init], by simp [init]⟩

end Verif.Acct
