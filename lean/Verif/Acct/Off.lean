import Verif.Acct.Keep

/-! # Offsets and locks -/

namespace Verif.Acct

/-- No descriptor is beyond the end of its file. -/
def Off (s : St) (p : Nat) : Prop := ∀ i o : Nat, (s.procs p).at i o → o ≤ (s.files.getD i []).length

theorem off_frame {s s' : St} {x : Nat} (hf : Frame s s' x) (hl : s.le s') (h : Off s x) : Off s' x := by
  intro i o ha
  exact Nat.le_trans (h i o ((hf.proc.at i o).mp ha)) (hl i)

theorem off_of {s s' : St} {p : Nat} (h : Off s p) (hp : (s'.procs p).fd = (s.procs p).fd)
    (ht : ∀ n i o : Nat, (s'.procs p).tbl n = some (.csv i o) → (s.procs p).tbl n = some (.csv i o)) (hf : s'.files = s.files) :
    Off s' p := by
  rintro i o ⟨n, h1, h2⟩
  rw [hf]
  exact h i o ⟨n, by rw [← hp]; exact h1, ht n i o h2⟩

theorem off_close {s s' : St} {p n : Nat} {pc : Pc} (h : Off s p) (hc : s.closeFd p n = .ok s') : Off (s'.to p pc) p := by
  obtain ⟨hu, h1, _, _, _, _, _, _, _, h2⟩ := closeFd_spec hc
  refine off_of h ?_ ?_ ?_
  · simp [St.to, St.setP, Proc.goto, h1]
  · intro m i o hm
    simp only [St.to, St.setP, Proc.goto, if_true] at hm
    rcases h2 m with h2 | h2 <;> rw [h2] at hm
    · exact hm
    · cases hm
  · exact hu.files

theorem off_e1 {s s' : St} {p : Nat} {k : Option (List UInt8)} (h : Off s p) (hs : s.e1 p k = .ok s') : Off s' p := by
  unfold St.e1 at hs
  split at hs
  · cases hs; exact off_of h (by simp [St.to, St.setP, Proc.goto]) (by simp [St.to, St.setP, Proc.goto]) rfl
  · split at hs
    · cases hs
    next hc => cases hs; exact off_close h hc

theorem off_to {s : St} {p : Nat} {pc : Pc} (h : Off s p) : Off (s.to p pc) p :=
  off_of h (by simp [St.to, St.setP, Proc.goto]) (by simp [St.to, St.setP, Proc.goto]) rfl

theorem off_append {s : St} {p n i o : Nat} {w : List UInt8} {pc : Pc} (hi : Inv s) (hf : (s.procs p).file = .ok (some (n, i, o))) :
    Off ((s.append p n i w).to p pc) p := by
  obtain ⟨h1, h2⟩ := file_some hf
  have hlt := hi.tbl p n i o h2
  rintro j o' ⟨m, a1, a2⟩
  simp only [St.to, St.append, St.setP, Proc.goto, Proc.bind, if_true] at a1 a2 ⊢
  rw [h1] at a1; cases a1
  simp only [if_true, Option.some.injEq, Obj.csv.injEq] at a2
  obtain ⟨rfl, rfl⟩ := a2
  simp [List.getD_eq_getElem?_getD, hlt]

theorem step_off {s s' : St} {e : Ev} (hi : Inv s) (hk : ∀ p, Off s p) (hs : step s e = some (.ok s')) (ht : ∀ i, e ≠ .trunc i)
    (x : Nat) : Off s' x := by
  by_cases hx : e.proc = some x
  case neg => exact off_frame (step_frame hs hx) (step_le hs ht) (hk x)
  have h := hk x
  cases e <;> simp only [Ev.proc, Option.some.injEq, reduceCtorEq] at hx <;> simp only [step] at hs <;> subst hx
  case ctor p => split at hs <;> cases hs; exact off_to h
  case begin p w => split at hs <;> cases hs; exact off_to h
  case stat p ok => (repeat' split at hs) <;> cases hs <;> exact off_to h
  case close p =>
    split at hs
    · simp only [Option.some.injEq] at hs
      unfold doClose at hs
      split at hs
      · cases hs; exact off_to h
      · split at hs
        · cases hs
        next hc => cases hs; exact off_close h hc
    · cases hs
  case «open» p r =>
    split at hs
    next k hp =>
      rw [Option.map_eq_some_iff] at hs
      obtain ⟨s1, h1, h2⟩ := hs
      cases h2
      unfold doOpen at h1
      split at h1
      · cases h1; rintro i o ⟨n, a1, _⟩; simp [St.setP] at a1
      · split at h1
        · split at h1 <;> cases h1 <;>
          · rintro i o ⟨n, a1, a2⟩
            simp only [St.setP, Proc.bind, if_true, Option.some.injEq] at a1 a2
            rw [if_pos a1.symm] at a2
            cases a2; exact Nat.zero_le _
        · cases h1
    · cases hs
  case olock p ok =>
    split at hs
    · unfold doOlock at hs
      split at hs
      · cases hs
      · simp only [Option.some.injEq] at hs; exact off_e1 h hs
      · split at hs
        · split at hs
          · cases hs
          · simp only at hs
            split at hs
            · simp only [Option.some.injEq] at hs; refine off_e1 ?_ hs; exact h
            · cases hs; exact off_to (s := { s with locks := _ }) h
        · simp only [Option.some.injEq] at hs; exact off_e1 h hs
    · cases hs
  case ofstat p ok =>
    split at hs
    · simp only [Option.some.injEq] at hs
      unfold doOfstat at hs
      split at hs
      · cases hs
      · exact off_e1 h hs
      · split at hs
        · cases hs; exact off_of h (by simp [St.setP]) (by simp [St.setP]) rfl
        · exact off_e1 h hs
    · cases hs
  case head p r =>
    split at hs
    · unfold doHead at hs
      split at hs
      · cases hs
      · cases hs; exact off_to h
      next hf => (repeat' split at hs) <;> cases hs <;> first | exact off_append hi hf | exact off_to h
    · cases hs
  case ounlock p =>
    split at hs
    next k pos g hp =>
      simp only [Option.some.injEq] at hs
      cases hu : unlockf s p pos with
      | error f => rw [hu] at hs; cases hs
      | ok s1 =>
        rw [hu] at hs; cases hs
        obtain ⟨h1, h2⟩ := unlockf_files hu
        exact off_to (off_of h (by rw [h2]) (by rw [h2]; exact fun _ _ _ => id) h1)
    · cases hs
  case lock p ok =>
    split at hs
    · unfold doLock at hs
      simp only at hs
      (repeat' split at hs) <;> cases hs <;> first | exact off_to h | exact off_to (s := { s with locks := _ }) h
    · cases hs
  case write p r =>
    split at hs
    · unfold doWrite at hs
      split at hs
      · cases hs
      · cases hs; exact off_to h
      next hf => (repeat' split at hs) <;> cases hs <;> first | exact off_append hi hf | exact off_to h
    · cases hs
  case unlock p =>
    split at hs
    next pos hp =>
      simp only [Option.some.injEq] at hs
      cases hu : unlockf s p pos with
      | error f => rw [hu] at hs; cases hs
      | ok s1 =>
        rw [hu] at hs; cases hs
        obtain ⟨h1, h2⟩ := unlockf_files hu
        exact off_to (off_of h (by rw [h2]) (by rw [h2]; exact fun _ _ _ => id) h1)
    · cases hs
  case dtor p =>
    split at hs
    · simp only [Option.some.injEq] at hs
      unfold doDtor at hs
      split at hs
      · cases hs; exact off_to h
      · split at hs
        · cases hs
        next hc => cases hs; exact off_close h hc
    · cases hs
  case die p => cases hs; rintro i o ⟨n, a1, _⟩; simp [St.setP] at a1

theorem off_init (p : Nat) : Off init p := by rintro i o ⟨n, h, _⟩; simp [init] at h

/-- Where the lock begins that is to be removed. -/
def Pc.pos : Pc → Option Int
  | .ofstat _ p | .head _ p | .ounlock _ p _ | .write _ p | .unlock p => some p
  | _ => none

/-- A process has no locks but the one that it is going to remove. -/
def Lks (s : St) (p : Nat) : Prop := ∀ l ∈ s.locks, l.pid = p → (s.procs p).pc.pos = some (l.s : Int) ∧ ∃ o : Nat, (s.procs p).at l.ino o

theorem lks_frame {s s' : St} {x : Nat} (hf : Frame s s' x) (h : Lks s x) : Lks s' x := by
  intro l hl hp
  obtain ⟨h1, o, h2⟩ := h l ((hf.locks l hp).mp hl) hp
  exact ⟨by rw [hf.proc.pc]; exact h1, o, (hf.proc.at _ _).mpr h2⟩

/-- No lock is held. -/
theorem lks_free {s : St} {p : Nat} (h : Lks s p) (hp : (s.procs p).pc.pos = none) : ∀ l ∈ s.locks, l.pid ≠ p := by
  intro l hl he
  have := (h l hl he).1
  rw [hp] at this; cases this

theorem lks_none {s : St} {p : Nat} (h : ∀ l ∈ s.locks, l.pid ≠ p) : Lks s p := fun l hl hp => absurd hp (h l hl)

theorem lks_of {s s' : St} {p : Nat} (h : Lks s p) (hl : s'.locks = s.locks) (hp : (s'.procs p).pc.pos = (s.procs p).pc.pos)
    (ha : ∀ i o : Nat, (s.procs p).at i o → ∃ o' : Nat, (s'.procs p).at i o') : Lks s' p := by
  intro l hm he
  rw [hl] at hm
  obtain ⟨h1, o, h2⟩ := h l hm he
  exact ⟨by rw [hp]; exact h1, ha _ _ h2⟩

theorem lks_to {s : St} {p : Nat} {pc : Pc} (h : Lks s p) (hp : pc.pos = (s.procs p).pc.pos) : Lks (s.to p pc) p :=
  lks_of h rfl (by simpa [St.to, St.setP, Proc.goto] using hp) fun i o ⟨n, h1, h2⟩ =>
    ⟨o, n, by simpa [St.to, St.setP, Proc.goto] using h1, by simpa [St.to, St.setP, Proc.goto] using h2⟩

theorem lks_close {s s' : St} {p n : Nat} {pc : Pc} (h : Lks s p) (hp : (s.procs p).pc.pos = none)
    (hc : s.closeFd p n = .ok s') : Lks (s'.to p pc) p := by
  obtain ⟨_, _, _, _, _, _, h1, _⟩ := closeFd_spec hc
  exact lks_none fun l hl => lks_free h hp l (h1 l hl)

theorem lks_append {s : St} {p n i o : Nat} {w : List UInt8} {pc : Pc} (h : Lks s p)
    (hf : (s.procs p).file = .ok (some (n, i, o))) (hp : pc.pos = (s.procs p).pc.pos) : Lks ((s.append p n i w).to p pc) p := by
  obtain ⟨h1, h2⟩ := file_some hf
  refine lks_of h rfl (by simpa [St.to, St.setP, Proc.goto] using hp) ?_
  rintro j o' ⟨m, a1, a2⟩
  rw [h1] at a1; cases a1
  rw [h2] at a2; cases a2
  exact ⟨_, n, by simpa [St.to, St.append, St.setP, Proc.goto, Proc.bind] using h1,
    by simp [St.to, St.append, St.setP, Proc.goto, Proc.bind]; rfl⟩

theorem lks_unlockf {s s' : St} {p : Nat} {pos : Int} {pc : Pc} (h : Lks s p) (hp : (s.procs p).pc.pos = some pos)
    (hh : ∃ n i o, (s.procs p).file = .ok (some (n, i, o))) (hu : unlockf s p pos = .ok s') : Lks (s'.to p pc) p := by
  obtain ⟨n, i, o, hf⟩ := hh
  obtain ⟨h1, h2⟩ := file_some hf
  refine lks_none ?_
  intro l hl he
  unfold unlockf at hu
  rw [hf] at hu
  cases hu
  simp only [St.to, St.setP, List.mem_filterMap] at hl
  obtain ⟨m, hm, hl⟩ := hl
  have hmp : m.pid = p := by
    unfold unlk at hl
    (repeat' split at hl) <;> grind
  obtain ⟨g1, o', n', g2, g3⟩ := h m hm hmp
  rw [hp] at g1
  rw [h1] at g2; cases g2
  rw [h2] at g3; cases g3
  unfold unlk at hl
  rw [if_pos ⟨rfl, hmp⟩] at hl
  simp only [Option.some.injEq] at g1
  subst g1
  simp at hl

theorem step_lks {s s' : St} {e : Ev} (hi : Inv s) (hkp : ∀ p, Keep s p) (hof : ∀ p, Off s p) (hsm : Small s)
    (hk : ∀ p, Lks s p) (hs : step s e = some (.ok s')) (hsf : e.Safe) (x : Nat) : Lks s' x := by
  by_cases hx : e.proc = some x
  case neg => exact lks_frame (step_frame hs hx) (hk x)
  have h := hk x
  have hlen : ∀ i o, (s.procs x).at i o → toInt o = o := by
    intro i o ha
    exact toInt_small (Nat.lt_of_le_of_lt (hof x i o ha) ((small_iff s).mp hsm i))
  cases e <;> simp only [Ev.proc, Option.some.injEq, reduceCtorEq] at hx <;> simp only [step] at hs <;> subst hx
  case ctor p => split at hs <;> cases hs; next hp => exact lks_to h (by rw [hp]; rfl)
  case begin p w => split at hs <;> cases hs; next hp => exact lks_to h (by rw [hp]; rfl)
  case stat p ok =>
    split at hs
    next hp => (repeat' split at hs) <;> cases hs <;> exact lks_to h (by rw [hp]; rfl)
    · cases hs
  case close p =>
    split at hs
    next hp =>
      simp only [Option.some.injEq] at hs
      unfold doClose at hs
      split at hs
      · cases hs; exact lks_to h (by rw [hp]; rfl)
      · split at hs
        · cases hs
        next hc => cases hs; exact lks_close h (by rw [hp]; rfl) hc
    · cases hs
  case «open» p r =>
    split at hs
    next k hp =>
      have hfr := lks_free h (by rw [hp]; rfl)
      rw [Option.map_eq_some_iff] at hs
      obtain ⟨s1, h1, h2⟩ := hs
      cases h2
      unfold doOpen at h1
      (repeat' split at h1) <;> cases h1 <;> exact lks_none hfr
    · cases hs
  case olock p ok =>
    split at hs
    next k hp =>
      have hfr := lks_free h (by rw [hp]; rfl)
      simp only [Ev.Safe] at hsf
      subst hsf
      obtain ⟨i, ha⟩ := (hkp p).ol k hp
      obtain ⟨n, hf, h1, h2⟩ := at_file ha
      unfold doOlock at hs
      rw [hf] at hs
      simp only [if_true] at hs
      split at hs
      · cases hs
      · rw [if_neg (by decide)] at hs
        cases hs
        intro l hl hp'
        simp only [St.to, St.setP, List.mem_append, List.mem_singleton] at hl
        rcases hl with hl | rfl
        · exact absurd hp' (hfr l hl)
        · exact ⟨by simp [St.to, St.setP, Proc.goto, Pc.pos, toInt], 0, n, by simpa [St.to, St.setP, Proc.goto] using h1,
            by simpa [St.to, St.setP, Proc.goto] using h2⟩
    · cases hs
  case ofstat p ok =>
    split at hs
    next k pos hp =>
      simp only [Ev.Safe] at hsf
      subst hsf
      obtain ⟨n, i, o, hf⟩ := held_file hi (p := p) (by rw [hp]; rfl)
      simp only [Option.some.injEq] at hs
      unfold doOfstat at hs
      rw [hf] at hs
      simp only [if_true] at hs
      cases hs
      refine lks_of h rfl ?_ ?_
      · simp only [St.setP, if_true]; rw [hp]; split <;> rfl
      · rintro j o' ⟨m, a1, a2⟩
        exact ⟨o', m, by simpa [St.setP] using a1, by simpa [St.setP] using a2⟩
    · cases hs
  case head p r =>
    split at hs
    next k pos hp =>
      obtain ⟨n, i, o, hf⟩ := held_file hi (p := p) (by rw [hp]; rfl)
      unfold doHead at hs
      rw [hf] at hs
      simp only at hs
      (repeat' split at hs) <;> cases hs <;>
        first
          | exact lks_append h hf (by rw [hp]; rfl)
          | exact lks_to h (by rw [hp]; rfl)
    · cases hs
  case ounlock p =>
    split at hs
    next k pos g hp =>
      have hh := held_file hi (p := p) (by rw [hp]; rfl)
      simp only [Option.some.injEq] at hs
      cases hu : unlockf s p pos with
      | error f => rw [hu] at hs; cases hs
      | ok s1 => rw [hu] at hs; cases hs; exact lks_unlockf h (by rw [hp]; rfl) hh hu
    · cases hs
  case lock p ok =>
    split at hs
    next w hp =>
      have hfr := lks_free h (by rw [hp]; rfl)
      unfold doLock at hs
      split at hs
      · cases hs
      · cases hs; exact lks_to h (by rw [hp]; rfl)
      next n i o hf =>
        obtain ⟨h1, h2⟩ := file_some hf
        split at hs
        · split at hs
          · cases hs
          · simp only at hs
            rw [if_neg (by rw [hlen i o ⟨n, h1, h2⟩]; omega)] at hs
            cases hs
            intro l hl hp'
            simp only [St.to, St.setP, List.mem_append, List.mem_singleton] at hl
            rcases hl with hl | rfl
            · exact absurd hp' (hfr l hl)
            · exact ⟨by simpa [St.to, St.setP, Proc.goto, Pc.pos] using hlen i o ⟨n, h1, h2⟩, o, n,
                by simpa [St.to, St.setP, Proc.goto] using h1, by simpa [St.to, St.setP, Proc.goto] using h2⟩
        · cases hs; exact lks_to h (by rw [hp]; rfl)
    · cases hs
  case write p r =>
    split at hs
    next w pos hp =>
      obtain ⟨n, i, o, hf⟩ := held_file hi (p := p) (by rw [hp]; rfl)
      unfold doWrite at hs
      rw [hf] at hs
      simp only at hs
      (repeat' split at hs) <;> cases hs <;>
        first
          | exact lks_append h hf (by rw [hp]; rfl)
          | exact lks_to h (by rw [hp]; rfl)
    · cases hs
  case unlock p =>
    split at hs
    next pos hp =>
      have hh := held_file hi (p := p) (by rw [hp]; rfl)
      simp only [Option.some.injEq] at hs
      cases hu : unlockf s p pos with
      | error f => rw [hu] at hs; cases hs
      | ok s1 => rw [hu] at hs; cases hs; exact lks_unlockf h (by rw [hp]; rfl) hh hu
    · cases hs
  case dtor p =>
    split at hs
    next hp =>
      simp only [Option.some.injEq] at hs
      unfold doDtor at hs
      split at hs
      · cases hs; exact lks_to h (by rw [hp]; rfl)
      · split at hs
        · cases hs
        next hc => cases hs; exact lks_close h (by rw [hp]; rfl) hc
    · cases hs
  case die p =>
    cases hs
    refine lks_none ?_
    intro l hl
    simp only [List.mem_filter] at hl
    grind

theorem lks_init (p : Nat) : Lks init p := by intro l hl; simp [init] at hl

/-- A process that holds a lock can go on. -/
theorem held_step {s : St} {p : Nat} (hi : Inv s) (h : (s.procs p).pc.pos ≠ none) :
    ∃ e s', e.module = true ∧ e.proc = some p ∧ e.Fine ∧ step s e = some (.ok s') := by
  have hh : (s.procs p).pc.held = true := by
    cases hp : (s.procs p).pc <;> rw [hp] at h <;> simp_all [Pc.pos, Pc.held]
  obtain ⟨n, i, o, hf⟩ := held_file hi hh
  cases hp : (s.procs p).pc <;> rw [hp] at h <;> simp only [Pc.pos, ne_eq, not_true_eq_false] at h
  · exact ⟨.ofstat p true, _, rfl, rfl, rfl, by simp [step, hp, doOfstat, hf]; rfl⟩
  · exact ⟨.head p .whole, _, rfl, rfl, rfl, by simp [step, hp, doHead, hf]; rfl⟩
  · exact ⟨.ounlock p, _, rfl, rfl, trivial, by simp [step, hp, unlockf, hf, Except.map]; rfl⟩
  · exact ⟨.write p .whole, _, rfl, rfl, rfl, by simp [step, hp, doWrite, hf]; rfl⟩
  · exact ⟨.unlock p, _, rfl, rfl, trivial, by simp [step, hp, unlockf, hf, Except.map]; rfl⟩

end Verif.Acct
