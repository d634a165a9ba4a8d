import Verif.Acct.Spec

/-! # Invariants of the accounting files -/

namespace Verif.Acct

/-- The descriptor of the module of a process is for this file, at this offset. -/
def Proc.at (q : Proc) (i o : Nat) : Prop := ∃ n, q.fd = some n ∧ q.tbl n = some (.csv i o)

/-- The lock is held. -/
def Pc.held : Pc → Bool
  | .ofstat _ _ | .head _ _ | .ounlock _ _ _ | .write _ _ | .unlock _ => true
  | _ => false

structure Inv (s : St) : Prop where
  name : ∀ i : Nat, s.name = some i → i < s.files.length
  tbl : ∀ p n i o : Nat, (s.procs p).tbl n = some (.csv i o) → i < s.files.length
  held : ∀ p : Nat, (s.procs p).pc.held = true → ∃ i o : Nat, (s.procs p).at i o ∧ ∃ l ∈ s.locks, l.ino = i ∧ l.pid = p ∧ l.e = none
  olock : ∀ (p : Nat) (k : Option (List UInt8)), (s.procs p).pc = .olock k → ∃ i o : Nat, (s.procs p).at i o
  excl : ∀ l ∈ s.locks, ∀ l' ∈ s.locks, l.ino = l'.ino → l.e = none → l'.e = none → l.pid = l'.pid

theorem file_some {q : Proc} {n i o : Nat} (h : q.file = .ok (some (n, i, o))) : q.fd = some n ∧ q.tbl n = some (.csv i o) := by
  unfold Proc.file at h
  (repeat' split at h) <;> grind

theorem at_file {q : Proc} {i o : Nat} (h : q.at i o) : ∃ n, q.file = .ok (some (n, i, o)) ∧ q.fd = some n ∧
    q.tbl n = some (.csv i o) := by
  obtain ⟨n, h1, h2⟩ := h
  exact ⟨n, by simp [Proc.file, h1, h2], h1, h2⟩

theorem not_busy {s : St} {p i o : Nat} (h : s.busy p i o = false) : ∀ l ∈ s.locks, l.ino = i → l.e = none → l.pid = p := by
  intro l hl hi he
  simp only [St.busy, List.any_eq_false] at h
  have := h l hl
  simp only [he, Bool.and_true, decide_eq_true_eq] at this
  grind

theorem mem_unlk {p i u : Nat} {ls : List Lk} {l : Lk} (h : l ∈ ls.filterMap (unlk p i u)) (he : l.e = none) :
    l ∈ ls ∧ ¬(l.ino = i ∧ l.pid = p) := by
  rw [List.mem_filterMap] at h
  obtain ⟨m, hm, h⟩ := h
  unfold unlk at h
  (repeat' split at h) <;> grind

theorem unlk_mem {p i u : Nat} {ls : List Lk} {l : Lk} (h : l ∈ ls) (hn : ¬(l.ino = i ∧ l.pid = p)) :
    l ∈ ls.filterMap (unlk p i u) := by
  rw [List.mem_filterMap]
  exact ⟨l, h, by simp [unlk, hn]⟩

/-- What a step of one process does, seen from outside. -/
structure Upd (s s' : St) (p : Nat) : Prop where
  others : ∀ x, x ≠ p → s'.procs x = s.procs x
  name : s'.name = s.name
  files : s'.files = s.files

theorem closeFd_spec {s s' : St} {p n : Nat} (h : s.closeFd p n = .ok s') :
    Upd s s' p ∧ (s'.procs p).fd = (s.procs p).fd ∧ (s'.procs p).stt = (s.procs p).stt ∧ (s'.procs p).pc = (s.procs p).pc ∧
    (∀ i o, (s'.procs p).tbl n ≠ some (.csv i o)) ∧ (∀ m, m ≠ n → (s'.procs p).tbl m = (s.procs p).tbl m) ∧
    (∀ l, l ∈ s'.locks → l ∈ s.locks) ∧ (∀ l, l ∈ s.locks → l.pid ≠ p → l ∈ s'.locks) ∧
    (∀ i o, (s.procs p).tbl n = some (.csv i o) → (∀ l ∈ s'.locks, ¬(l.ino = i ∧ l.pid = p))) ∧
    (∀ m, (s'.procs p).tbl m = (s.procs p).tbl m ∨ (s'.procs p).tbl m = none) := by
  unfold St.closeFd at h
  split at h
  · cases h
    refine ⟨⟨fun _ _ => rfl, rfl, rfl⟩, rfl, rfl, rfl, ?_, fun _ _ => rfl, fun _ h => h, fun _ h _ => h, ?_, fun _ => .inl rfl⟩ <;> grind
  · cases h
  next i o ht =>
    cases h
    refine ⟨⟨?_, rfl, rfl⟩, ?_⟩
    · intro x hx; simp [St.setP, hx]
    · simp only [St.setP, Proc.bind, if_true, List.mem_filter]
      grind

end Verif.Acct
