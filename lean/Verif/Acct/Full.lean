import Verif.Acct.Off

/-! # Every row handed over is written; steps are counted -/

namespace Verif.Acct

/-- The file is open. -/
def Pc.opened : Pc → Bool
  | .off | .dead | .close none | .open _ => false
  | _ => true

/-- Nothing has gone wrong for a process. -/
structure Full (s : St) (p : Nat) : Prop where
  alive : (s.procs p).pc ≠ .dead
  at_ : (s.procs p).pc.opened = true → ∃ i o : Nat, (s.procs p).at i o
  good : ∀ (k : Option (List UInt8)) (pos : Int) (g : Bool), (s.procs p).pc = .ounlock k pos g → g = true

theorem full_frame {s s' : St} {x : Nat} (hf : Frame s s' x) (h : Full s x) : Full s' x := by
  refine ⟨by rw [hf.proc.pc]; exact h.alive, ?_, by rw [hf.proc.pc]; exact h.good⟩
  intro ho
  rw [hf.proc.pc] at ho
  obtain ⟨i, o, ha⟩ := h.at_ ho
  exact ⟨i, o, (hf.proc.at i o).mpr ha⟩

theorem full_of {s s' : St} {p : Nat} (hd : (s'.procs p).pc ≠ .dead) (hg : ∀ k pos, (s'.procs p).pc ≠ .ounlock k pos false)
    (ha : (s'.procs p).pc.opened = true → ∃ i o : Nat, (s'.procs p).at i o) : Full s' p := by
  refine ⟨hd, ha, ?_⟩
  intro k pos g hp
  cases g
  · exact absurd hp (hg k pos)
  · rfl

theorem full_to {s : St} {p : Nat} {pc : Pc} (hd : pc ≠ .dead) (hg : ∀ k pos, pc ≠ .ounlock k pos false)
    (ha : pc.opened = true → ∃ i o : Nat, (s.procs p).at i o) : Full (s.to p pc) p := by
  refine full_of (s := s) ?_ ?_ ?_
  · simpa [St.to, St.setP, Proc.goto] using hd
  · simpa [St.to, St.setP, Proc.goto] using hg
  · intro ho
    simp only [St.to, St.setP, Proc.goto, if_true] at ho
    obtain ⟨i, o, n, h1, h2⟩ := ha ho
    exact ⟨i, o, n, by simpa [St.to, St.setP, Proc.goto] using h1, by simpa [St.to, St.setP, Proc.goto] using h2⟩

theorem full_append {s : St} {p n i o : Nat} {w : List UInt8} {pc : Pc} (hf : (s.procs p).file = .ok (some (n, i, o)))
    (hd : pc ≠ .dead) (hg : ∀ k pos, pc ≠ .ounlock k pos false) : Full ((s.append p n i w).to p pc) p := by
  obtain ⟨h1, h2⟩ := file_some hf
  refine full_to hd hg fun _ => ?_
  exact ⟨i, _, n, by simpa [St.append, St.setP, Proc.bind] using h1, by simp [St.append, St.setP, Proc.bind]; rfl⟩

/-- What is written by a step. -/
def Ev.outs (p : Nat) (s : St) : Ev → List (List UInt8)
  | .write q .whole => if q = p then (s.procs p).pc.left else []
  | _ => []

/-- What is handed over by a step. -/
def Ev.ins (p : Nat) : Ev → List (List UInt8)
  | .begin q w => if q = p then [w] else []
  | _ => []

theorem step_full {s s' : St} {e : Ev} {x : Nat} (hi : Inv s) (hof : Off s x) (hsm : Small s)
    (h : Full s x) (hs : step s e = some (.ok s')) (hsf : e.proc = some x → e.Fine) :
    Full s' x ∧ (s.procs x).pc.left ++ e.ins x = e.outs x s ++ (s'.procs x).pc.left := by
  by_cases hx : e.proc = some x
  case neg =>
    refine ⟨full_frame (step_frame hs hx) h, ?_⟩
    rw [(step_frame hs hx).proc.pc]
    have h1 : e.ins x = [] := by
      cases e <;> simp_all [Ev.ins, Ev.proc]
    have h2 : e.outs x s = [] := by
      cases e <;> simp_all [Ev.outs, Ev.proc]
      split <;> simp_all
    simp [h1, h2]
  replace hsf := hsf hx
  have hlen : ∀ i o, (s.procs x).at i o → toInt o = o := by
    intro i o ha
    exact toInt_small (Nat.lt_of_le_of_lt (hof i o ha) ((small_iff s).mp hsm i))
  cases e <;> simp only [Ev.proc, Option.some.injEq, reduceCtorEq] at hx <;> simp only [step] at hs <;> subst hx
  case ctor p =>
    split at hs <;> cases hs
    next hp =>
      refine ⟨full_to (by simp) (by simp) (by simp [Pc.opened]), ?_⟩
      rw [hp]; simp [Pc.left, Ev.ins, Ev.outs, St.to, St.setP, Proc.goto]
  case begin p w =>
    split at hs <;> cases hs
    next hp =>
      refine ⟨full_to (by simp) (by simp) fun _ => h.at_ (by rw [hp]; rfl), ?_⟩
      rw [hp]; simp [Pc.left, Ev.ins, Ev.outs, St.to, St.setP, Proc.goto]
  case stat p ok =>
    split at hs
    next w hp =>
      (repeat' split at hs) <;> cases hs <;>
      · refine ⟨full_to (by simp) (by simp) fun _ => h.at_ (by rw [hp]; rfl), ?_⟩
        rw [hp]; simp [Pc.left, Ev.ins, Ev.outs, St.to, St.setP, Proc.goto]
    · cases hs
  case close p =>
    split at hs
    next k hp =>
      have hl : (Pc.close k).left = (Pc.open k).left := by cases k <;> rfl
      simp only [Option.some.injEq] at hs
      unfold doClose at hs
      split at hs
      · cases hs
        refine ⟨full_to (by simp) (by simp) (by simp [Pc.opened]), ?_⟩
        rw [hp]; simp [hl, Ev.ins, Ev.outs, St.to, St.setP, Proc.goto]
      · split at hs <;> cases hs
        refine ⟨full_to (by simp) (by simp) (by simp [Pc.opened]), ?_⟩
        rw [hp]; simp [hl, Ev.ins, Ev.outs, St.to, St.setP, Proc.goto]
    · cases hs
  case «open» p r =>
    split at hs
    next k hp =>
      have hl : (Pc.open k).left = (Pc.olock k).left := by cases k <;> rfl
      rw [Option.map_eq_some_iff] at hs
      obtain ⟨s1, h1, h2⟩ := hs
      cases h2
      unfold doOpen at h1
      split at h1
      · exact absurd rfl hsf
      next n =>
        split at h1
        · split at h1 <;> cases h1 <;>
          · refine ⟨full_of (s := s) (by simp [St.setP]) (by simp [St.setP])
              fun _ => ⟨_, 0, n, by simp [St.setP], by simp [St.setP, Proc.bind]; rfl⟩, ?_⟩
            rw [hp]; simp [hl, Ev.ins, Ev.outs, St.setP]
        · cases h1
    · cases hs
  case olock p ok =>
    split at hs
    next k hp =>
      have hl : ∀ pos, (Pc.olock k).left = (Pc.ofstat k pos).left := by intro pos; cases k <;> rfl
      simp only [Ev.Fine] at hsf
      subst hsf
      obtain ⟨i, o, ha⟩ := h.at_ (by rw [hp]; rfl)
      obtain ⟨n, hf, h1, h2⟩ := at_file ha
      unfold doOlock at hs
      rw [hf] at hs
      simp only [if_true] at hs
      split at hs
      · cases hs
      · rw [if_neg (by rw [hlen i o ha]; omega)] at hs
        cases hs
        refine ⟨full_to (by simp) (by simp) fun _ => ⟨i, o, n, h1, h2⟩, ?_⟩
        rw [hp]; simp [hl (toInt o), Ev.ins, Ev.outs, St.to, St.setP, Proc.goto]
    · cases hs
  case ofstat p ok =>
    split at hs
    next k pos hp =>
      simp only [Ev.Fine] at hsf
      subst hsf
      obtain ⟨n, i, o, hf⟩ := held_file hi (p := p) (by rw [hp]; rfl)
      obtain ⟨h1, h2⟩ := file_some hf
      simp only [Option.some.injEq] at hs
      unfold doOfstat at hs
      rw [hf] at hs
      simp only [if_true] at hs
      cases hs
      refine ⟨full_of (s := s) ?_ ?_ fun _ => ⟨i, o, n, by simpa [St.setP] using h1, by simpa [St.setP] using h2⟩, ?_⟩
      · simp only [St.setP, if_true]; split <;> simp
      · intro k' pos'; simp only [St.setP, if_true]; split <;> simp
      · rw [hp]
        simp only [Ev.ins, Ev.outs, St.setP, if_true, List.append_nil, List.nil_append]
        split <;> cases k <;> rfl
    · cases hs
  case head p r =>
    split at hs
    next k pos hp =>
      have hl : (Pc.head k pos).left = (Pc.ounlock k pos true).left := by cases k <;> rfl
      simp only [Ev.Fine] at hsf
      subst hsf
      obtain ⟨n, i, o, hf⟩ := held_file hi (p := p) (by rw [hp]; rfl)
      unfold doHead at hs
      rw [hf] at hs
      cases hs
      refine ⟨full_append hf (by simp) (by simp), ?_⟩
      rw [hp]; simp [hl, Ev.ins, Ev.outs, St.to, St.setP, Proc.goto]
    · cases hs
  case ounlock p =>
    split at hs
    next k pos g hp =>
      obtain rfl := h.good k pos g hp
      have hl : (Pc.ounlock k pos true).left = (goodTo k).left := by cases k <;> rfl
      simp only [Option.some.injEq] at hs
      cases hu : unlockf s p pos with
      | error f => rw [hu] at hs; cases hs
      | ok s1 =>
        rw [hu] at hs; cases hs
        obtain ⟨_, h2⟩ := unlockf_files hu
        refine ⟨full_to (by cases k <;> simp [goodTo]) (by cases k <;> simp [goodTo])
          fun _ => by rw [h2]; exact h.at_ (by rw [hp]; rfl), ?_⟩
        rw [hp]; simp [hl, Ev.ins, Ev.outs, St.to, St.setP, Proc.goto]
    · cases hs
  case lock p ok =>
    split at hs
    next w hp =>
      simp only [Ev.Fine] at hsf
      subst hsf
      obtain ⟨i, o, ha⟩ := h.at_ (by rw [hp]; rfl)
      obtain ⟨n, hf, h1, h2⟩ := at_file ha
      unfold doLock at hs
      rw [hf] at hs
      simp only [if_true] at hs
      split at hs
      · cases hs
      · rw [if_neg (by rw [hlen i o ha]; omega)] at hs
        cases hs
        refine ⟨full_to (by simp) (by simp) fun _ => ⟨i, o, n, h1, h2⟩, ?_⟩
        rw [hp]; simp [Pc.left, Ev.ins, Ev.outs, St.to, St.setP, Proc.goto]
    · cases hs
  case write p r =>
    split at hs
    next w pos hp =>
      simp only [Ev.Fine] at hsf
      subst hsf
      obtain ⟨n, i, o, hf⟩ := held_file hi (p := p) (by rw [hp]; rfl)
      unfold doWrite at hs
      rw [hf] at hs
      cases hs
      refine ⟨full_append hf (by simp) (by simp), ?_⟩
      rw [hp]; simp [Pc.left, Ev.ins, Ev.outs, St.to, St.setP, Proc.goto, hp]
    · cases hs
  case unlock p =>
    split at hs
    next pos hp =>
      simp only [Option.some.injEq] at hs
      cases hu : unlockf s p pos with
      | error f => rw [hu] at hs; cases hs
      | ok s1 =>
        rw [hu] at hs; cases hs
        obtain ⟨_, h2⟩ := unlockf_files hu
        refine ⟨full_to (by simp) (by simp) fun _ => by rw [h2]; exact h.at_ (by rw [hp]; rfl), ?_⟩
        rw [hp]; simp [Pc.left, Ev.ins, Ev.outs, St.to, St.setP, Proc.goto]
    · cases hs
  case dtor p => exact absurd hsf (by simp [Ev.Fine])
  case die p => exact absurd hsf (by simp [Ev.Fine])

theorem full_init (p : Nat) : Full init p := ⟨by simp [init], by simp [init, Pc.opened], by simp [init]⟩

/-- All but finitely many numbers are free. -/
def Fin' (s : St) (p : Nat) : Prop := ∃ N : Nat, ∀ n ≥ N, (s.procs p).tbl n = none

theorem fin_of {s s' : St} {p : Nat} (h : Fin' s p) (n : Nat)
    (hm : ∀ m, m ≠ n → (s'.procs p).tbl m = (s.procs p).tbl m ∨ (s'.procs p).tbl m = none) : Fin' s' p := by
  obtain ⟨N, hN⟩ := h
  refine ⟨N + n + 1, fun m hge => ?_⟩
  rcases hm m (by omega) with h | h
  · rw [h]; exact hN m (by omega)
  · exact h

theorem fin_eq {s s' : St} {p : Nat} (h : Fin' s p) (hm : (s'.procs p).tbl = (s.procs p).tbl) : Fin' s' p :=
  fin_of h 0 fun m _ => .inl (by rw [hm])

theorem fin_close {s s' : St} {p x n : Nat} {pc : Pc} (h : Fin' s x) (hc : s.closeFd p n = .ok s') : Fin' (s'.to p pc) x := by
  obtain ⟨hu, _, _, _, _, _, _, _, _, h2⟩ := closeFd_spec hc
  by_cases hx : x = p
  · subst hx
    exact fin_of h 0 fun m _ => by simpa [St.to, St.setP, Proc.goto] using h2 m
  · exact fin_eq h (by simp [St.to, St.setP, hx, hu.others x hx])

theorem fin_e1 {s s' : St} {p x : Nat} {k : Option (List UInt8)} (h : Fin' s x) (hs : s.e1 p k = .ok s') : Fin' s' x := by
  unfold St.e1 at hs
  split at hs
  · cases hs; exact fin_eq h (by simp only [St.to, St.setP, Proc.goto]; split <;> simp_all)
  · split at hs
    · cases hs
    next hc => cases hs; exact fin_close h hc

theorem fin_to {s : St} {p x : Nat} {pc : Pc} (h : Fin' s x) : Fin' (s.to p pc) x :=
  fin_eq h (by simp only [St.to, St.setP, Proc.goto]; split <;> simp_all)

theorem fin_append {s : St} {p x n i : Nat} {w : List UInt8} {pc : Pc} (h : Fin' s x) : Fin' ((s.append p n i w).to p pc) x := by
  refine fin_to (fin_of h n fun m hm => .inl ?_)
  simp only [St.append, St.setP, Proc.bind]
  split <;> simp_all

theorem fin_bind {s : St} {p x n : Nat} {o : Option Obj} (h : Fin' s x) : Fin' (s.setP p ((s.procs p).bind n o)) x := by
  refine fin_of h n fun m hm => .inl ?_
  simp only [St.setP, Proc.bind]
  split <;> simp_all

theorem step_fin {s s' : St} {e : Ev} {x : Nat} (h : Fin' s x) (hs : step s e = some (.ok s')) : Fin' s' x := by
  cases e <;> simp only [step] at hs
  case ctor p => split at hs <;> cases hs; exact fin_to h
  case begin p w => split at hs <;> cases hs; exact fin_to h
  case stat p ok => (repeat' split at hs) <;> cases hs <;> exact fin_to h
  case close p =>
    split at hs
    · simp only [Option.some.injEq] at hs
      unfold doClose at hs
      split at hs
      · cases hs; exact fin_to h
      · split at hs
        · cases hs
        next hc => cases hs; exact fin_close h hc
    · cases hs
  case «open» p r =>
    split at hs
    · rw [Option.map_eq_some_iff] at hs
      obtain ⟨s1, h1, h2⟩ := hs
      cases h2
      unfold doOpen at h1
      split at h1
      · cases h1; exact fin_eq h (by simp only [St.setP]; split <;> simp_all)
      next n =>
        split at h1
        · split at h1 <;> cases h1 <;>
          · refine fin_of h n fun m hm => .inl ?_
            simp only [St.setP, Proc.bind]
            split <;> simp_all
        · cases h1
    · cases hs
  case olock p ok =>
    split at hs
    · unfold doOlock at hs
      split at hs
      · cases hs
      · simp only [Option.some.injEq] at hs; exact fin_e1 h hs
      · split at hs
        · split at hs
          · cases hs
          · simp only at hs
            split at hs
            · simp only [Option.some.injEq] at hs; refine fin_e1 ?_ hs; exact h
            · cases hs; exact fin_to (s := { s with locks := _ }) h
        · simp only [Option.some.injEq] at hs; exact fin_e1 h hs
    · cases hs
  case ofstat p ok =>
    split at hs
    · simp only [Option.some.injEq] at hs
      unfold doOfstat at hs
      split at hs
      · cases hs
      · exact fin_e1 h hs
      · split at hs
        · cases hs; exact fin_eq h (by simp only [St.setP]; split <;> simp_all)
        · exact fin_e1 h hs
    · cases hs
  case head p r =>
    split at hs
    · unfold doHead at hs
      (repeat' split at hs) <;> cases hs <;> first | exact fin_append h | exact fin_to h
    · cases hs
  case ounlock p =>
    split at hs
    next k pos g hp =>
      simp only [Option.some.injEq] at hs
      cases hu : unlockf s p pos with
      | error f => rw [hu] at hs; cases hs
      | ok s1 => rw [hu] at hs; cases hs; exact fin_to (fin_eq h (by rw [(unlockf_files hu).2]))
    · cases hs
  case lock p ok =>
    split at hs
    · unfold doLock at hs
      simp only at hs
      (repeat' split at hs) <;> cases hs <;> first | exact fin_to h | exact fin_to (s := { s with locks := _ }) h
    · cases hs
  case write p r =>
    split at hs
    · unfold doWrite at hs
      (repeat' split at hs) <;> cases hs <;> first | exact fin_append h | exact fin_to h
    · cases hs
  case unlock p =>
    split at hs
    next pos hp =>
      simp only [Option.some.injEq] at hs
      cases hu : unlockf s p pos with
      | error f => rw [hu] at hs; cases hs
      | ok s1 => rw [hu] at hs; cases hs; exact fin_to (fin_eq h (by rw [(unlockf_files hu).2]))
    · cases hs
  case dtor p =>
    split at hs
    · simp only [Option.some.injEq] at hs
      unfold doDtor at hs
      split at hs
      · cases hs; exact fin_to h
      · split at hs
        · cases hs
        next hc => cases hs; exact fin_close h hc
    · cases hs
  case die p =>
    cases hs
    refine fin_of h 0 fun m _ => ?_
    simp only [St.setP]
    split <;> simp
  case fopen p n => split at hs <;> cases hs; exact fin_bind h
  case fclose p n => split at hs <;> cases hs; exact fin_bind h
  case unlink => cases hs; exact h
  case mkfile => cases hs; exact h
  case relink i => split at hs <;> cases hs; exact h
  case trunc i => split at hs <;> cases hs; exact h

theorem fin_init (p : Nat) : Fin' init p := ⟨0, by simp [init]⟩

/-- The most steps that are left to do. -/
def Pc.rank : Pc → Nat
  | .off | .dead | .idle => 0
  | .stat _ => 10
  | .close k => if k = none then 6 else 9
  | .open k => if k = none then 5 else 8
  | .olock k => if k = none then 4 else 7
  | .ofstat k _ => if k = none then 3 else 6
  | .head k _ => if k = none then 2 else 5
  | .ounlock k _ _ => if k = none then 1 else 4
  | .lock _ => 3
  | .write _ _ => 2
  | .unlock _ => 1

/-- What a step adds to what is to be done. -/
def Ev.work (p : Nat) : Ev → Nat
  | .begin q _ => if q = p then 10 else 0
  | .ctor q => if q = p then 6 else 0
  | _ => 0

/-- Whether a step is one of the module of a process. -/
def Ev.ours (p : Nat) (e : Ev) : Nat := if e.module = true ∧ e.proc = some p then 1 else 0

theorem e1_pc {s s' : St} {p : Nat} {k : Option (List UInt8)} (h : s.e1 p k = .ok s') : (s'.procs p).pc = failTo k := by
  unfold St.e1 at h
  (repeat' split at h) <;> cases h <;> simp [St.to, St.setP, Proc.goto]

theorem rank_fail (k : Option (List UInt8)) : (failTo k).rank = 0 := by cases k <;> rfl

theorem step_rank {s s' : St} {e : Ev} (x : Nat) (hs : step s e = some (.ok s')) :
    e.ours x + (s'.procs x).pc.rank ≤ (s.procs x).pc.rank + e.work x := by
  by_cases hx : e.proc = some x
  case neg =>
    rw [(step_frame hs hx).proc.pc]
    simp [Ev.ours, hx]
  cases e <;> simp only [Ev.proc, Option.some.injEq, reduceCtorEq] at hx <;> simp only [step] at hs <;> subst hx <;>
    simp only [Ev.ours, Ev.module, Ev.proc, Ev.work, if_true, and_self, Bool.false_eq_true, false_and, if_false]
  case ctor p => split at hs <;> cases hs; next hp => rw [hp]; simp [St.to, St.setP, Proc.goto, Pc.rank]
  case begin p w => split at hs <;> cases hs; next hp => rw [hp]; simp [St.to, St.setP, Proc.goto, Pc.rank]
  case stat p ok =>
    split at hs
    next hp => rw [hp]; (repeat' split at hs) <;> cases hs <;> simp [St.to, St.setP, Proc.goto, Pc.rank]
    · cases hs
  case close p =>
    split at hs
    next k hp =>
      rw [hp]
      simp only [Option.some.injEq] at hs
      unfold doClose at hs
      (repeat' split at hs) <;> cases hs <;> simp only [St.to, St.setP, Proc.goto, Pc.rank, if_true] <;> split <;> omega
    · cases hs
  case «open» p r =>
    split at hs
    next k hp =>
      rw [hp]
      rw [Option.map_eq_some_iff] at hs
      obtain ⟨s1, h1, h2⟩ := hs
      cases h2
      unfold doOpen at h1
      (repeat' split at h1) <;> cases h1 <;> cases k <;> simp [St.setP, Pc.rank, failTo]
    · cases hs
  case olock p ok =>
    split at hs
    next k hp =>
      rw [hp]
      unfold doOlock at hs
      simp only at hs
      (repeat' split at hs) <;> simp only [Option.some.injEq, reduceCtorEq] at hs <;>
        first
          | (rw [e1_pc hs, rank_fail]; simp only [Pc.rank]; split <;> omega)
          | (cases hs <;> simp only [St.to, St.setP, Proc.goto, Pc.rank, if_true] <;> split <;> omega)
    · cases hs
  case ofstat p ok =>
    split at hs
    next k pos hp =>
      rw [hp]
      simp only [Option.some.injEq] at hs
      unfold doOfstat at hs
      (repeat' split at hs) <;>
        first
          | (rw [e1_pc hs, rank_fail]; simp only [Pc.rank]; split <;> omega)
          | (cases hs <;> cases k <;> simp [St.setP, Pc.rank])
    · cases hs
  case head p r =>
    split at hs
    next k pos hp =>
      rw [hp]
      unfold doHead at hs
      (repeat' split at hs) <;> cases hs <;> simp only [St.to, St.setP, Proc.goto, Pc.rank, if_true] <;> split <;> omega
    · cases hs
  case ounlock p =>
    split at hs
    next k pos g hp =>
      rw [hp]
      simp only [Option.some.injEq] at hs
      cases hu : unlockf s p pos with
      | error f => rw [hu] at hs; cases hs
      | ok s1 => rw [hu] at hs; cases hs; cases g <;> cases k <;> simp [St.to, St.setP, Proc.goto, Pc.rank, goodTo, failTo]
    · cases hs
  case lock p ok =>
    split at hs
    next hp =>
      rw [hp]
      unfold doLock at hs
      simp only at hs
      (repeat' split at hs) <;> cases hs <;> simp [St.to, St.setP, Proc.goto, Pc.rank]
    · cases hs
  case write p r =>
    split at hs
    next hp =>
      rw [hp]
      unfold doWrite at hs
      (repeat' split at hs) <;> cases hs <;> simp [St.to, St.setP, Proc.goto, Pc.rank]
    · cases hs
  case unlock p =>
    split at hs
    next pos hp =>
      rw [hp]
      simp only [Option.some.injEq] at hs
      cases hu : unlockf s p pos with
      | error f => rw [hu] at hs; cases hs
      | ok s1 => rw [hu] at hs; cases hs; simp [St.to, St.setP, Proc.goto, Pc.rank]
    · cases hs
  case dtor p =>
    split at hs
    next hp =>
      rw [hp]
      simp only [Option.some.injEq] at hs
      unfold doDtor at hs
      (repeat' split at hs) <;> cases hs <;> simp [St.to, St.setP, Proc.goto, Pc.rank]
    · cases hs
  case die p => cases hs; simp [St.setP, Pc.rank]

theorem fail_left' (k : Option (List UInt8)) : (failTo k).left = [] := by cases k <;> rfl

/-- No row is written twice, and none that was not handed over. -/
theorem step_left {s s' : St} {e : Ev} (x : Nat) (hs : step s e = some (.ok s')) :
    (e.outs x s ++ (s'.procs x).pc.left).Sublist ((s.procs x).pc.left ++ e.ins x) := by
  by_cases hx : e.proc = some x
  case neg =>
    rw [(step_frame hs hx).proc.pc]
    have h2 : e.outs x s = [] := by
      cases e <;> simp_all [Ev.outs, Ev.proc]
      split <;> simp_all
    rw [h2]
    exact List.sublist_append_left _ _
  cases e <;> simp only [Ev.proc, Option.some.injEq, reduceCtorEq] at hx <;> simp only [step] at hs <;> subst hx
  case ctor p => split at hs <;> cases hs; next hp => rw [hp]; simp [St.to, St.setP, Proc.goto, Pc.left, Ev.outs, Ev.ins]
  case begin p w => split at hs <;> cases hs; next hp => rw [hp]; simp [St.to, St.setP, Proc.goto, Pc.left, Ev.outs, Ev.ins]
  case stat p ok =>
    split at hs
    next hp =>
      rw [hp]; (repeat' split at hs) <;> cases hs <;> simp [St.to, St.setP, Proc.goto, Pc.left, Ev.outs, Ev.ins]
    · cases hs
  case close p =>
    split at hs
    next k hp =>
      rw [hp]
      simp only [Option.some.injEq] at hs
      unfold doClose at hs
      (repeat' split at hs) <;> cases hs <;> cases k <;> simp [St.to, St.setP, Proc.goto, Pc.left, Ev.outs, Ev.ins]
    · cases hs
  case «open» p r =>
    split at hs
    next k hp =>
      rw [hp]
      rw [Option.map_eq_some_iff] at hs
      obtain ⟨s1, h1, h2⟩ := hs
      cases h2
      unfold doOpen at h1
      (repeat' split at h1) <;> cases h1 <;> cases k <;> simp [St.setP, Pc.left, failTo, Ev.outs, Ev.ins]
    · cases hs
  case olock p ok =>
    split at hs
    next k hp =>
      rw [hp]
      unfold doOlock at hs
      simp only at hs
      (repeat' split at hs) <;> simp only [Option.some.injEq, reduceCtorEq] at hs <;>
        first
          | (rw [e1_pc hs, fail_left']; simp [Ev.outs])
          | (cases hs <;> cases k <;> simp [St.to, St.setP, Proc.goto, Pc.left, Ev.outs, Ev.ins])
    · cases hs
  case ofstat p ok =>
    split at hs
    next k pos hp =>
      rw [hp]
      simp only [Option.some.injEq] at hs
      unfold doOfstat at hs
      (repeat' split at hs) <;>
        first
          | (rw [e1_pc hs, fail_left']; simp [Ev.outs])
          | (cases hs <;> cases k <;> simp [St.setP, Pc.left, Ev.outs, Ev.ins])
    · cases hs
  case head p r =>
    split at hs
    next k pos hp =>
      rw [hp]
      unfold doHead at hs
      (repeat' split at hs) <;> cases hs <;> cases k <;> simp [St.to, St.setP, Proc.goto, Pc.left, Ev.outs, Ev.ins]
    · cases hs
  case ounlock p =>
    split at hs
    next k pos g hp =>
      rw [hp]
      simp only [Option.some.injEq] at hs
      cases hu : unlockf s p pos with
      | error f => rw [hu] at hs; cases hs
      | ok s1 =>
        rw [hu] at hs; cases hs
        cases g <;> cases k <;> simp [St.to, St.setP, Proc.goto, Pc.left, goodTo, failTo, Ev.outs, Ev.ins]
    · cases hs
  case lock p ok =>
    split at hs
    next hp =>
      rw [hp]
      unfold doLock at hs
      simp only at hs
      (repeat' split at hs) <;> cases hs <;> simp [St.to, St.setP, Proc.goto, Pc.left, Ev.outs, Ev.ins]
    · cases hs
  case write p r =>
    split at hs
    next hp =>
      unfold doWrite at hs
      cases r <;> (repeat' split at hs) <;> cases hs <;>
        simp [St.to, St.setP, Proc.goto, Pc.left, Ev.outs, Ev.ins, hp]
    · cases hs
  case unlock p =>
    split at hs
    next pos hp =>
      rw [hp]
      simp only [Option.some.injEq] at hs
      cases hu : unlockf s p pos with
      | error f => rw [hu] at hs; cases hs
      | ok s1 => rw [hu] at hs; cases hs; simp [St.to, St.setP, Proc.goto, Pc.left, Ev.outs]
    · cases hs
  case dtor p =>
    split at hs
    next hp =>
      rw [hp]
      simp only [Option.some.injEq] at hs
      unfold doDtor at hs
      (repeat' split at hs) <;> cases hs <;> simp [St.to, St.setP, Proc.goto, Pc.left, Ev.outs]
    · cases hs
  case die p => cases hs; simp [St.setP, Pc.left, Ev.outs]

/-- The row at hand is the one of the history. -/
def Cur (s : St) (h : Hist) : Prop := ∀ (p : Nat) (w : List UInt8), w ∈ (s.procs p).pc.left → h.cur p = w

theorem step_cur {s s' : St} {e : Ev} {h : Hist} (hc : Cur s h) (hs : step s e = some (.ok s')) : Cur s' (h.step e) := by
  intro p w hw
  have hsub := (step_left p hs).subset (List.mem_append_right _ hw)
  by_cases hb : ∃ v, e = .begin p v
  · obtain ⟨v, rfl⟩ := hb
    simp only [step] at hs
    split at hs <;> cases hs
    next hp => rw [hp] at hsub; simp [Pc.left, Ev.ins] at hsub; simp [Hist.step, hsub]
  · have hi : e.ins p = [] := by
      cases e <;> simp only [Ev.ins]
      split
      next h => subst h; exact absurd ⟨_, rfl⟩ hb
      · rfl
    rw [hi, List.append_nil] at hsub
    have hcu : (h.step e).cur p = h.cur p := by
      cases e with
      | begin q v =>
        simp only [Hist.step]
        split
        next h => subst h; exact absurd ⟨_, rfl⟩ hb
        · rfl
      | write q r => cases r <;> rfl
      | _ => rfl
    rw [hcu]; exact hc p w hsub

/-- The rows that a process has written. -/
def Hist.of (h : Hist) (p : Nat) : List (List UInt8) := (h.out.filter fun x => decide (x.1 = p)).map fun x => x.2

theorem step_of {s s' : St} {e : Ev} {h : Hist} (hc : Cur s h) (hs : step s e = some (.ok s')) (p : Nat) :
    (h.step e).of p = h.of p ++ e.outs p s := by
  by_cases hw : ∃ q, e = .write q .whole
  · obtain ⟨q, rfl⟩ := hw
    simp only [step] at hs
    split at hs
    next w pos hp =>
      have := hc q w (by rw [hp]; simp [Pc.left])
      simp only [Hist.of, Hist.step, Ev.outs, List.filter_append, List.map_append]
      by_cases hq : q = p
      · subst hq; simp [hp, Pc.left, this]
      · simp [hq]
    · cases hs
  · have ho : e.outs p s = [] := by
      cases e with
      | write q r =>
        cases r
        · exact absurd ⟨_, rfl⟩ hw
        all_goals rfl
      | _ => rfl
    have hh : (h.step e).out = h.out := by
      cases e with
      | write q r =>
        cases r
        · exact absurd ⟨_, rfl⟩ hw
        all_goals rfl
      | _ => rfl
    simp [Hist.of, hh, ho]

theorem handed_snoc (p : Nat) (es : List Ev) (e : Ev) : handed p (es ++ [e]) = handed p es ++ e.ins p := by
  simp only [handed, List.filterMap_append, List.append_cancel_left_eq]
  cases e <;> simp [Ev.ins]
  split <;> simp_all

theorem hist_snoc (es : List Ev) (e : Ev) : hist (es ++ [e]) = (hist es).step e := by simp [hist]

end Verif.Acct
