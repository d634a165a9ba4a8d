import Verif.Acct.Steps

/-! # What the steps of one process do to another -/

namespace Verif.Acct

/-- The module of a process is where it was. -/
structure Same (q q' : Proc) : Prop where
  fd : q'.fd = q.fd
  pc : q'.pc = q.pc
  stt : q'.stt = q.stt
  tbl : ∀ n i o : Nat, q'.tbl n = some (.csv i o) ↔ q.tbl n = some (.csv i o)

theorem Same.rfl' (q : Proc) : Same q q := ⟨rfl, rfl, rfl, fun _ _ _ => Iff.rfl⟩

theorem Same.at {q q' : Proc} (h : Same q q') (i o : Nat) : q'.at i o ↔ q.at i o := by
  unfold Proc.at
  rw [h.fd]
  simp only [h.tbl]

structure Frame (s s' : St) (x : Nat) : Prop where
  proc : Same (s.procs x) (s'.procs x)
  locks : ∀ l : Lk, l.pid = x → (l ∈ s'.locks ↔ l ∈ s.locks)

theorem Frame.rfl' (s : St) (x : Nat) : Frame s s x := ⟨.rfl' _, fun _ _ => Iff.rfl⟩

theorem Frame.of {s s' : St} {x : Nat} (h : s'.procs x = s.procs x) (hl : ∀ l : Lk, l.pid = x → (l ∈ s'.locks ↔ l ∈ s.locks)) :
    Frame s s' x := ⟨by rw [h]; exact .rfl' _, hl⟩

theorem Frame.trans {s s' s'' : St} {x : Nat} (h : Frame s s' x) (h' : Frame s' s'' x) : Frame s s'' x where
  proc := ⟨h'.proc.fd.trans h.proc.fd, h'.proc.pc.trans h.proc.pc, h'.proc.stt.trans h.proc.stt,
    fun n i o => (h'.proc.tbl n i o).trans (h.proc.tbl n i o)⟩
  locks l hl := (h'.locks l hl).trans (h.locks l hl)

theorem frame_setP (s : St) {p x : Nat} (q : Proc) (h : x ≠ p) : Frame s (s.setP p q) x :=
  .of (by simp [St.setP, h]) fun _ _ => Iff.rfl

theorem frame_to (s : St) {p x : Nat} (pc : Pc) (h : x ≠ p) : Frame s (s.to p pc) x := frame_setP s _ h

theorem frame_close {s s' : St} {p n x : Nat} (hc : s.closeFd p n = .ok s') (h : x ≠ p) : Frame s s' x := by
  obtain ⟨hu, _, _, _, _, _, h1, h2, _⟩ := closeFd_spec hc
  exact .of (hu.others x h) fun l hl => ⟨h1 l, fun hm => h2 l hm (by omega)⟩

theorem frame_e1 {s s' : St} {p x : Nat} {k : Option (List UInt8)} (hc : s.e1 p k = .ok s') (h : x ≠ p) : Frame s s' x := by
  unfold St.e1 at hc
  split at hc
  · cases hc; exact frame_to s _ h
  · split at hc
    · cases hc
    next hcl => cases hc; exact (frame_close hcl h).trans (frame_to _ _ h)

theorem frame_lock (s : St) {p x : Nat} (i o : Nat) (h : x ≠ p) :
    Frame s { s with locks := s.locks ++ [⟨i, p, o, none⟩] } x := by
  refine .of rfl fun l hl => ?_
  simp only [List.mem_append, List.mem_singleton]
  grind

theorem frame_unlockf {s s' : St} {p x : Nat} {pos : Int} (hu : unlockf s p pos = .ok s') (h : x ≠ p) : Frame s s' x := by
  unfold unlockf at hu
  split at hu
  · cases hu
  · cases hu; exact .rfl' _ _
  · cases hu
    refine .of rfl fun l hl => ?_
    simp only [List.mem_filterMap]
    constructor
    · rintro ⟨m, hm, he⟩
      unfold unlk at he
      (repeat' split at he) <;> grind
    · intro hm; exact ⟨l, hm, by unfold unlk; rw [if_neg (by grind)]⟩

theorem frame_append (s : St) {p x : Nat} (n i : Nat) (w : List UInt8) (h : x ≠ p) : Frame s (s.append p n i w) x :=
  .of (by simp [St.append, St.setP, h]) fun _ _ => Iff.rfl

/-- A step that is not one of a process leaves its module where it is. -/
theorem step_frame {s s' : St} {e : Ev} {x : Nat} (hs : step s e = some (.ok s')) (hx : e.proc ≠ some x) : Frame s s' x := by
  cases e <;> simp only [Ev.proc, ne_eq, Option.some.injEq] at hx <;> simp only [step] at hs
  case ctor p => split at hs <;> cases hs; exact frame_to s _ (Ne.symm hx)
  case begin p w => split at hs <;> cases hs; exact frame_to s _ (Ne.symm hx)
  case stat p ok => (repeat' split at hs) <;> cases hs <;> exact frame_to s _ (Ne.symm hx)
  case close p =>
    split at hs
    · simp only [Option.some.injEq] at hs
      unfold doClose at hs
      split at hs
      · cases hs; exact frame_to s _ (Ne.symm hx)
      · split at hs
        · cases hs
        next hc => cases hs; exact (frame_close hc (Ne.symm hx)).trans (frame_to _ _ (Ne.symm hx))
    · cases hs
  case «open» p r =>
    split at hs
    · rw [Option.map_eq_some_iff] at hs
      obtain ⟨s1, h1, h2⟩ := hs
      cases h2
      unfold doOpen at h1
      (repeat' split at h1) <;> cases h1 <;> exact .of (by simp [St.setP, Ne.symm hx]) fun _ _ => Iff.rfl
    · cases hs
  case olock p ok =>
    split at hs
    · unfold doOlock at hs
      split at hs
      · cases hs
      · simp only [Option.some.injEq] at hs; exact frame_e1 hs (Ne.symm hx)
      · split at hs
        · split at hs
          · cases hs
          · simp only at hs
            split at hs
            · simp only [Option.some.injEq] at hs
              exact (frame_lock s _ _ (Ne.symm hx)).trans (frame_e1 hs (Ne.symm hx))
            · cases hs
              exact (frame_lock s _ _ (Ne.symm hx)).trans (frame_to _ _ (Ne.symm hx))
        · simp only [Option.some.injEq] at hs; exact frame_e1 hs (Ne.symm hx)
    · cases hs
  case ofstat p ok =>
    split at hs
    · simp only [Option.some.injEq] at hs
      unfold doOfstat at hs
      split at hs
      · cases hs
      · exact frame_e1 hs (Ne.symm hx)
      · split at hs
        · cases hs; exact frame_setP s _ (Ne.symm hx)
        · exact frame_e1 hs (Ne.symm hx)
    · cases hs
  case head p r =>
    split at hs
    · unfold doHead at hs
      (repeat' split at hs) <;> cases hs <;>
        first
          | exact frame_to s _ (Ne.symm hx)
          | exact (frame_append s _ _ _ (Ne.symm hx)).trans (frame_to _ _ (Ne.symm hx))
    · cases hs
  case ounlock p =>
    split at hs
    next pos g _ =>
      simp only [Option.some.injEq] at hs
      cases hu : unlockf s p pos with
      | error f => rw [hu] at hs; cases hs
      | ok s1 => rw [hu] at hs; cases hs; exact (frame_unlockf hu (Ne.symm hx)).trans (frame_to _ _ (Ne.symm hx))
    · cases hs
  case lock p ok =>
    split at hs
    · unfold doLock at hs
      simp only at hs
      (repeat' split at hs) <;> cases hs <;>
        first
          | exact frame_to s _ (Ne.symm hx)
          | exact (frame_lock s _ _ (Ne.symm hx)).trans (frame_to _ _ (Ne.symm hx))
    · cases hs
  case write p r =>
    split at hs
    · unfold doWrite at hs
      (repeat' split at hs) <;> cases hs <;>
        first
          | exact frame_to s _ (Ne.symm hx)
          | exact (frame_append s _ _ _ (Ne.symm hx)).trans (frame_to _ _ (Ne.symm hx))
    · cases hs
  case unlock p =>
    split at hs
    next pos _ =>
      simp only [Option.some.injEq] at hs
      cases hu : unlockf s p pos with
      | error f => rw [hu] at hs; cases hs
      | ok s1 => rw [hu] at hs; cases hs; exact (frame_unlockf hu (Ne.symm hx)).trans (frame_to _ _ (Ne.symm hx))
    · cases hs
  case dtor p =>
    split at hs
    · simp only [Option.some.injEq] at hs
      unfold doDtor at hs
      split at hs
      · cases hs; exact frame_to s _ (Ne.symm hx)
      · split at hs
        · cases hs
        next hc => cases hs; exact (frame_close hc (Ne.symm hx)).trans (frame_to _ _ (Ne.symm hx))
    · cases hs
  case die p =>
    cases hs
    refine .of (by simp [St.setP, Ne.symm hx]) fun l hl => ?_
    simp only [List.mem_filter]
    grind
  case fopen p n =>
    split at hs
    next hn =>
      cases hs
      by_cases hp : x = p
      · subst hp
        refine ⟨⟨by simp [St.setP, Proc.bind], by simp [St.setP, Proc.bind], by simp [St.setP, Proc.bind], ?_⟩,
          fun _ _ => Iff.rfl⟩
        intro m i o; simp only [St.setP, Proc.bind, if_true]; grind
      · exact frame_setP s _ hp
    · cases hs
  case fclose p n =>
    split at hs
    next hn =>
      cases hs
      by_cases hp : x = p
      · subst hp
        refine ⟨⟨by simp [St.setP, Proc.bind], by simp [St.setP, Proc.bind], by simp [St.setP, Proc.bind], ?_⟩,
          fun _ _ => Iff.rfl⟩
        intro m i o; simp only [St.setP, Proc.bind, if_true]; grind
      · exact frame_setP s _ hp
    · cases hs
  case unlink => cases hs; exact .of rfl fun _ _ => Iff.rfl
  case mkfile => cases hs; exact .of rfl fun _ _ => Iff.rfl
  case relink i => split at hs <;> cases hs; exact .of rfl fun _ _ => Iff.rfl
  case trunc i => split at hs <;> cases hs; exact .of rfl fun _ _ => Iff.rfl

/-- What a step does to the files, if it does not empty one. -/
theorem closeFd_files {s s' : St} {p n : Nat} (h : s.closeFd p n = .ok s') : s'.files = s.files := (closeFd_spec h).1.files

theorem e1_files {s s' : St} {p : Nat} {k : Option (List UInt8)} (h : s.e1 p k = .ok s') : s'.files = s.files := by
  unfold St.e1 at h
  split at h
  · cases h; rfl
  · split at h
    · cases h
    next hc => cases h; exact (closeFd_files hc :)

theorem unlockf_files {s s' : St} {p : Nat} {pos : Int} (h : unlockf s p pos = .ok s') : s'.files = s.files ∧ s'.procs = s.procs := by
  unfold unlockf at h; split at h <;> cases h <;> exact ⟨rfl, rfl⟩

theorem step_files {s s' : St} {e : Ev} (hs : step s e = some (.ok s')) (ht : ∀ i, e ≠ .trunc i) :
    s'.files = s.files ∨ s'.files = s.files ++ [[]] ∨ ∃ i w, s'.files = s.files.set i (s.files.getD i [] ++ w) := by
  cases e <;> simp only [step] at hs
  case ctor p => split at hs <;> cases hs; exact .inl rfl
  case begin p w => split at hs <;> cases hs; exact .inl rfl
  case stat p ok => (repeat' split at hs) <;> cases hs <;> exact .inl rfl
  case close p =>
    split at hs
    · simp only [Option.some.injEq] at hs
      unfold doClose at hs
      split at hs
      · cases hs; exact .inl rfl
      · split at hs
        · cases hs
        next hc => cases hs; exact .inl (closeFd_files hc :)
    · cases hs
  case «open» p r =>
    split at hs
    · rw [Option.map_eq_some_iff] at hs
      obtain ⟨s1, h1, h2⟩ := hs
      cases h2
      unfold doOpen at h1
      (repeat' split at h1) <;> cases h1 <;> first | exact .inl rfl | exact .inr (.inl rfl)
    · cases hs
  case olock p ok =>
    split at hs
    · unfold doOlock at hs
      simp only at hs
      (repeat' split at hs) <;> simp only [Option.some.injEq, reduceCtorEq] at hs <;>
        first
          | exact .inl (e1_files hs)
          | (cases hs <;> exact .inl rfl)
          | exact .inl ((e1_files hs).trans rfl)
    · cases hs
  case ofstat p ok =>
    split at hs
    · simp only [Option.some.injEq] at hs
      unfold doOfstat at hs
      (repeat' split at hs) <;> first | exact .inl (e1_files hs) | (cases hs <;> exact .inl rfl)
    · cases hs
  case head p r =>
    split at hs
    · unfold doHead at hs
      (repeat' split at hs) <;> cases hs <;> first | exact .inl rfl | exact .inr (.inr ⟨_, _, rfl⟩)
    · cases hs
  case ounlock p =>
    split at hs
    next pos g _ =>
      simp only [Option.some.injEq] at hs
      cases hu : unlockf s p pos with
      | error f => rw [hu] at hs; cases hs
      | ok s1 => rw [hu] at hs; cases hs; exact .inl (unlockf_files hu).1
    · cases hs
  case lock p ok =>
    split at hs
    · unfold doLock at hs
      simp only at hs
      (repeat' split at hs) <;> cases hs <;> exact .inl rfl
    · cases hs
  case write p r =>
    split at hs
    · unfold doWrite at hs
      (repeat' split at hs) <;> cases hs <;> first | exact .inl rfl | exact .inr (.inr ⟨_, _, rfl⟩)
    · cases hs
  case unlock p =>
    split at hs
    next pos _ =>
      simp only [Option.some.injEq] at hs
      cases hu : unlockf s p pos with
      | error f => rw [hu] at hs; cases hs
      | ok s1 => rw [hu] at hs; cases hs; exact .inl (unlockf_files hu).1
    · cases hs
  case dtor p =>
    split at hs
    · simp only [Option.some.injEq] at hs
      unfold doDtor at hs
      split at hs
      · cases hs; exact .inl rfl
      · split at hs
        · cases hs
        next hc => cases hs; exact .inl (closeFd_files hc :)
    · cases hs
  case die p => cases hs; exact .inl rfl
  case fopen p n => split at hs <;> cases hs; exact .inl rfl
  case fclose p n => split at hs <;> cases hs; exact .inl rfl
  case unlink => cases hs; exact .inl rfl
  case mkfile => cases hs; exact .inr (.inl rfl)
  case relink i => split at hs <;> cases hs; exact .inl rfl
  case trunc i => exact absurd rfl (ht i)

/-- Files only grow. -/
def St.le (s s' : St) : Prop := ∀ i : Nat, (s.files.getD i []).length ≤ (s'.files.getD i []).length

theorem step_le {s s' : St} {e : Ev} (hs : step s e = some (.ok s')) (ht : ∀ i, e ≠ .trunc i) : s.le s' := by
  intro j
  rcases step_files hs ht with h | h | ⟨i, w, h⟩ <;> rw [h]
  · simp only [List.getD_eq_getElem?_getD, List.getElem?_append]
    split
    · exact Nat.le_refl _
    · rw [List.getElem?_eq_none (l := s.files) (by omega)]; simp
  · simp only [List.getD_eq_getElem?_getD, List.getElem?_set]
    grind

theorem small_iff (s : St) : Small s ↔ ∀ i, (s.files.getD i []).length < 2 ^ 31 := by
  constructor
  · intro h i
    rw [List.getD_eq_getElem?_getD]
    cases hd : s.files[i]? with
    | none => simp
    | some d => exact h d (List.mem_of_getElem? hd)
  · intro h d hd
    obtain ⟨i, hi, he⟩ := List.mem_iff_getElem.mp hd
    have := h i
    rw [List.getD_eq_getElem?_getD, List.getElem?_eq_getElem hi, he] at this
    exact this

theorem small_of_le {s s' : St} (h : s.le s') (hs : Small s') : Small s := by
  rw [small_iff] at *
  exact fun i => Nat.lt_of_le_of_lt (h i) (hs i)

theorem toInt_small {n : Nat} (h : n < 2 ^ 31) : toInt n = n := by unfold toInt; omega

end Verif.Acct
