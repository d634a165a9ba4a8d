import Verif.Copy.Flow

/-! What the command registers, and what becomes of packets. -/

namespace Verif.Copy

variable {W : World} {m m' : Mgrs}

/-- The processor that copies, on side `j`. -/
def Cp.tee (x : Cp) (i j : Bool) : Proc :=
  ⟨8, .fwd x.c i j false, .copy ⟨x.b, i, x.t ^^ !j⟩ ⟨x.b, i, x.t ^^ j⟩⟩

/-- The processor that stops what the party of the target says. -/
def Cp.gag (x : Cp) (i j : Bool) : Proc := ⟨7, .fwd x.c i j true, .stop⟩

theorem inst_src {x : Cp} (h : x.a ≠ x.b) (i j : Bool) :
    installed m x ⟨x.a, i, x.s ^^ j⟩ = ins (x.tee i j) (m ⟨x.a, i, x.s ^^ j⟩) := by
  obtain ⟨c, a, s, b, t⟩ := x
  simp only at h
  cases i <;> cases j <;> cases s <;> cases t <;>
    simp [installed, Cp.regs, regs, regAll, put, h, Cp.tee, ordWitness]

theorem inst_tgt {x : Cp} (h : x.a ≠ x.b) (i j : Bool) :
    installed m x ⟨x.b, i, x.t ^^ j⟩ = ins (x.gag i j) (m ⟨x.b, i, x.t ^^ j⟩) := by
  obtain ⟨c, a, s, b, t⟩ := x
  simp only at h
  have h' := Ne.symm h
  cases i <;> cases j <;> cases s <;> cases t <;>
    simp [installed, Cp.regs, regs, regAll, put, h', Cp.gag, ordPlay]

theorem inst_other {x : Cp} {y : Strm} (ha : y.sess ≠ x.a) (hb : y.sess ≠ x.b) :
    installed m x y = m y := by
  obtain ⟨c, a, s, b, t⟩ := x
  obtain ⟨n, i, j⟩ := y
  simp only at ha hb
  simp [installed, Cp.regs, regs, regAll, put, ha, hb]

/-- Every stream of a session, seen from side `s`. -/
theorem side_of (y : Strm) (s : Bool) : y = ⟨y.sess, y.rtcp, s ^^ (s ^^ y.side)⟩ := by
  obtain ⟨n, i, j⟩ := y
  cases s <;> cases j <;> rfl

theorem mem_ins {p q : Proc} {l : List Proc} : q ∈ ins p l ↔ q = p ∨ q ∈ l := by
  induction l with
  | nil => simp [ins]
  | cons a l ih =>
    rw [ins]
    split
    · simp
    · simp [ih]; grind

theorem filter_ins_lt {p : Proc} {l : List Proc} {n : Nat} (h : p.order < n) :
    (ins p l).filter (fun q => decide (n ≤ q.order)) = l.filter (fun q => decide (n ≤ q.order)) := by
  induction l with
  | nil => simp [ins]; omega
  | cons a l ih =>
    rw [ins]
    split
    · rw [List.filter_cons, if_neg (by simp; omega)]
    · rw [List.filter_cons, List.filter_cons, ih]

/-- A session other than the source passes on the same as before. -/
theorem same {r : Nat → Nat} {x : Cp} (h : x.a ≠ x.b) (hr : Acyclic r (installed m x)) :
    ∀ (d : Nat) (y o : Strm), r y.sess < r x.a →
      handleat W (installed m x) d y o 8 = handleat W m d y o 8
  | 0, _, _, _ => rfl
  | d + 1, y, o, hy => by
    have hya : y.sess ≠ x.a := by intro e; rw [e] at hy; omega
    apply handleat_congr (by omega)
    · by_cases hyb : y.sess = x.b
      · have := inst_tgt (m := m) h y.rtcp (x.t ^^ y.side)
        rw [← hyb, ← side_of] at this
        rw [this]
        exact filter_ins_lt (by simp [Cp.gag])
      · rw [inst_other hya hyb]
    · intro p hp ti to hk
      have := hr y p hp ti to hk
      exact same h hr d ti to (by omega)

theorem acyclic_of_inst {r : Nat → Nat} {x : Cp} (h : x.a ≠ x.b) (hr : Acyclic r (installed m x)) :
    Acyclic r m := by
  intro y p hp
  apply hr y p
  by_cases ha : y.sess = x.a
  · have := inst_src (m := m) h y.rtcp (x.s ^^ y.side)
    rw [← ha, ← side_of] at this
    rw [this]; exact mem_ins.mpr (.inr hp)
  · by_cases hb : y.sess = x.b
    · have := inst_tgt (m := m) h y.rtcp (x.t ^^ y.side)
      rw [← hb, ← side_of] at this
      rw [this]; exact mem_ins.mpr (.inr hp)
    · rw [inst_other ha hb]; exact hp

end Verif.Copy
