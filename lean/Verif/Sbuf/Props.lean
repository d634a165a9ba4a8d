import Verif.Sbuf.Model

/-!
# C36: the string buffer keeps its contents
-/

namespace Verif.Sbuf

/-! ## Specification: contents, allocation, and whether the contents are terminated -/

structure S where
  text : List UInt8
  alen : Nat
  term : Bool
  deriving DecidableEq, Repr

def S.step (s : S) : Op → S × Res
  | .write (.out w) => if s.text.length + w.length < s.alen then ({ s with text := s.text ++ w, term := true }, .ok) else ({ s with term := true }, .short)
  | .write (.fail _) => ({ s with term := false }, .err)
  | .extend n (.at _ _) => ({ s with alen := s.alen + n }, .ok)
  | .extend _ .fail => (s, .err)
  | .reset => ({ s with text := [], term := true }, .ok)

def S.run (s : S) : List Op → S × List Res
  | [] => (s, [])
  | o :: os =>
    let (s', r) := s.step o
    let (s'', rs) := s'.run os
    (s'', r :: rs)

/-- Extensions really extend. -/
def Op.valid : Op → Prop
  | .extend n _ => n ≠ 0
  | _ => True

structure Rep (b : Buf) (s : S) : Prop where
  alen : b.alen = s.alen
  mem : b.mem.length = s.alen
  cp : b.cp = b.bp + s.text.length
  room : s.text.length < s.alen
  text : b.mem.take s.text.length = s.text
  term : s.term = true → b.mem[s.text.length]? = some 0

theorem store_ok {b : Buf} {k : Nat} {w : List UInt8} (h : k + w.length ≤ b.mem.length) :
    ∃ b', b.store (b.bp + k) w = .ok b' ∧ b'.alen = b.alen ∧ b'.bp = b.bp ∧ b'.cp = b.cp ∧ b'.mem.length = b.mem.length ∧
      b'.mem.take k = b.mem.take k ∧ b'.mem.take (k + w.length) = b.mem.take k ++ w := by
  unfold Buf.store
  have e : b.bp + k - b.bp = k := by omega
  rw [e, if_pos ⟨by omega, h⟩]
  refine ⟨_, rfl, rfl, rfl, rfl, by simp; omega, ?_, ?_⟩
  · simp only []
    rw [List.append_assoc, List.take_append_of_le_length (by simp; omega), List.take_take, Nat.min_self]
  · simp only []
    rw [List.take_append_of_le_length (by simp; omega), List.take_of_length_le (by simp; omega)]

theorem take_snoc {l t : List UInt8} {x : UInt8} (h : l.take (t.length + 1) = t ++ [x]) : l[t.length]? = some x := by
  have : (l.take (t.length + 1))[t.length]? = some x := by rw [h]; simp
  rwa [List.getElem?_take, if_pos (by omega)] at this

theorem take_pre {l t w : List UInt8} (h : l.take (t.length + w.length) = t ++ w) : l.take t.length = t := by
  have : (l.take (t.length + w.length)).take t.length = t := by rw [h]; simp
  rwa [List.take_take, Nat.min_eq_left (by omega)] at this

theorem step_rep {b : Buf} {s : S} (h : Rep b s) {o : Op} (hv : o.valid) :
    ∃ b', step b o = .ok (b', (s.step o).2) ∧ Rep b' (s.step o).1 := by
  have hcp : b.cp - b.bp = s.text.length := by rw [h.cp]; omega
  have hr := h.room
  have ha := h.alen
  have hm := h.mem
  cases o with
  | write f =>
    have hlen : ¬ b.alen - s.text.length = 0 := by omega
    simp only [step, write, hcp, if_neg hlen]
    cases f with
    | fail junk =>
      simp only []
      obtain ⟨b1, e, h1, h2, h3, h4, h5, -⟩ := store_ok (b := b) (k := s.text.length) (w := junk.take (b.alen - s.text.length)) (by simp; omega)
      rw [h.cp, e]
      refine ⟨b1, rfl, ?_, ?_, ?_, h.room, ?_, by simp [S.step]⟩
      · simp only [S.step]; omega
      · simp only [S.step]; omega
      · simp only [S.step]; rw [h3, h2, h.cp]
      · simp only [S.step]; rw [h5, h.text]
    | out w =>
      simp only [Buf.snprintf]
      obtain ⟨b1, e, h1, h2, h3, h4, h5, h6⟩ := store_ok (b := b) (k := s.text.length)
        (w := w.take (b.alen - s.text.length - 1) ++ [0]) (by simp; omega)
      rw [h.cp, e]
      simp only []
      by_cases c : w.length ≥ b.alen - s.text.length
      · rw [if_pos c]
        have hs : s.step (.write (.out w)) = ({ s with term := true }, .short) := by
          simp only [S.step]; rw [if_neg (by omega)]
        obtain ⟨b2, f, g1, g2, g3, g4, g5, g6⟩ := store_ok (b := b1) (k := s.text.length) (w := [0]) (by simp; omega)
        rw [h3, h.cp, ← h2, f, hs]
        refine ⟨b2, rfl, ?_, ?_, ?_, h.room, ?_, ?_⟩
        · simp only []; omega
        · simp only []; omega
        · simp only []; rw [g3, g2, h3, h2, h.cp]
        · simp only []; rw [g5, h5, h.text]
        · intro _
          simp only []
          rw [h5, h.text] at g6
          exact take_snoc g6
      · rw [if_neg c]
        have hs : s.step (.write (.out w)) = ({ s with text := s.text ++ w, term := true }, .ok) := by
          simp only [S.step]; rw [if_pos (by omega)]
        have hw : w.take (b.alen - s.text.length - 1) = w := List.take_of_length_le (by omega)
        rw [hw, h.text, ← List.append_assoc] at h6
        rw [hs]
        refine ⟨_, rfl, ?_, ?_, ?_, ?_, ?_, ?_⟩
        · simp only []; omega
        · simp only []; omega
        · have hc := h.cp
          simp only [List.length_append]; omega
        · simp only [List.length_append]; omega
        · simp only []
          refine take_pre (w := [0]) ?_
          rw [← h6]; simp [Nat.add_assoc]
        · intro _
          simp only []
          refine take_snoc ?_
          rw [← h6]; simp [Nat.add_assoc]
  | extend n r =>
    have hn : ¬ n = 0 := hv
    simp only [step, extend, if_neg hn]
    cases r with
    | fail => exact ⟨b, rfl, h⟩
    | «at» a more =>
      simp only []
      refine ⟨_, rfl, ?_⟩
      have e1 : ((more ++ List.replicate n 0).take n).length = n := by simp
      have ht : ∀ x, (b.mem ++ x).take s.text.length = s.text := by
        intro x; rw [List.take_append_of_le_length (by omega)]; exact h.text
      have hz : s.term = true → ∀ x, (b.mem ++ x)[s.text.length]? = some 0 := by
        intro hx x
        rw [List.getElem?_append_left (by omega)]; exact h.term hx
      by_cases c : b.bp ≠ a
      · rw [if_pos c]
        refine ⟨?_, ?_, ?_, ?_, ht _, fun x => hz x _⟩
        · simp only [S.step]; omega
        · simp only [S.step, List.length_append, e1]; omega
        · simp only [S.step]; omega
        · simp only [S.step]; omega
      · rw [if_neg c]
        refine ⟨?_, ?_, ?_, ?_, ht _, fun x => hz x _⟩
        · simp only [S.step]; omega
        · simp only [S.step, List.length_append, e1]; omega
        · simp only [S.step]; exact h.cp
        · simp only [S.step]; omega
  | reset =>
    obtain ⟨b1, e, h1, h2, h3, h4, h5, h6⟩ := store_ok (b := { b with cp := b.bp }) (k := 0) (w := [0]) (by simp; omega)
    simp only [Nat.add_zero] at e h1 h2 h3 h4
    simp only [step, reset, e]
    refine ⟨b1, rfl, ?_, ?_, ?_, ?_, rfl, ?_⟩
    · simp only [S.step]; omega
    · simp only [S.step]; omega
    · simp only [S.step, List.length_nil]; omega
    · simp only [S.step, List.length_nil]; omega
    · intro _
      exact take_snoc (t := []) h6

theorem run_rep : ∀ (os : List Op) {b : Buf} {s : S}, Rep b s → (∀ o ∈ os, o.valid) →
    ∃ b', run b os = .ok (b', (s.run os).2) ∧ Rep b' (s.run os).1
  | [], b, s, h, _ => ⟨b, rfl, h⟩
  | o :: os, b, s, h, hv => by
    obtain ⟨b1, e1, h1⟩ := step_rep h (hv o List.mem_cons_self)
    obtain ⟨b2, e2, h2⟩ := run_rep os h1 fun x hx => hv x (List.mem_cons_of_mem _ hx)
    refine ⟨b2, ?_, h2⟩
    simp only [run, e1, e2, S.run]

theorem ctor_rep (a : Nat) (mem : List UInt8) (h : mem ≠ []) : ∃ b, ctor a mem = .ok b ∧ Rep b ⟨[], mem.length, true⟩ := by
  have hp : 0 < mem.length := List.length_pos_iff.2 h
  obtain ⟨b1, e, h1, h2, h3, h4, h5, h6⟩ := store_ok (b := ⟨mem.length, a, a, mem⟩) (k := 0) (w := [0]) (by simp; omega)
  simp only [Nat.add_zero] at e h1 h2 h3 h4
  exact ⟨b1, e, h1, h4, by simp only [List.length_nil]; omega, hp, rfl, fun _ => take_snoc (t := []) h6⟩

/-- What was written since the last reset and fitted, given the room. -/
def written (acc : List UInt8) (alen : Nat) : List Op → List UInt8
  | [] => acc
  | .write (.out w) :: os => written (if acc.length + w.length < alen then acc ++ w else acc) alen os
  | .write (.fail _) :: os => written acc alen os
  | .extend n (.at _ _) :: os => written acc (alen + n) os
  | .extend _ .fail :: os => written acc alen os
  | .reset :: os => written [] alen os

theorem written_eq : ∀ (os : List Op) (s : S), (s.run os).1.text = written s.text s.alen os
  | [], s => rfl
  | o :: os, s => by
    have ih := written_eq os (s.step o).1
    simp only [S.run]
    rw [ih]
    cases o with
    | write f =>
      cases f with
      | out w => simp only [S.step, written]; split <;> rfl
      | fail j => rfl
    | extend n r => cases r <;> rfl
    | reset => rfl

/-- **C36.**  After any sequence of writes, extensions and resets the buffer holds what was written since the last reset,
within its allocation; the outcome of each operation is the one specified: in particular a write that does not fit
reports so and changes nothing.  Nothing outside the block is touched and no assertion fails. -/
theorem C36_contents (a : Nat) (mem : List UInt8) (hm : mem ≠ []) (os : List Op) (hv : ∀ o ∈ os, o.valid) :
    ∃ b0 b, ctor a mem = .ok b0 ∧ run b0 os = .ok (b, ((⟨[], mem.length, true⟩ : S).run os).2) ∧
      b.cp = b.bp + (written [] mem.length os).length ∧ b.cp - b.bp < b.alen ∧ b.alen = b.mem.length ∧
      b.mem.take (b.cp - b.bp) = written [] mem.length os ∧
      (((⟨[], mem.length, true⟩ : S).run os).1.term = true → b.mem[b.cp - b.bp]? = some 0) := by
  obtain ⟨b0, e0, h0⟩ := ctor_rep a mem hm
  obtain ⟨b, e, h⟩ := run_rep os h0 hv
  have ht := written_eq os ⟨[], mem.length, true⟩
  have hcp := h.cp
  have : b.cp - b.bp = ((⟨[], mem.length, true⟩ : S).run os).1.text.length := by omega
  refine ⟨b0, b, e0, e, ?_, ?_, ?_, ?_, ?_⟩
  · rw [← ht]; exact h.cp
  · rw [this, h.alen]; exact h.room
  · rw [h.alen, h.mem]
  · rw [this, h.text, ht]
  · intro hx; rw [this]; exact h.term hx

def Op.formats : Op → Bool
  | .write (.fail _) => false
  | _ => true

theorem term_run : ∀ (os : List Op) (s : S), s.term = true → (∀ o ∈ os, o.formats = true) → (s.run os).1.term = true
  | [], s, h, _ => h
  | o :: os, s, h, hf => by
    simp only [S.run]
    refine term_run os _ ?_ fun x hx => hf x (List.mem_cons_of_mem _ hx)
    have := hf o List.mem_cons_self
    cases o with
    | write f =>
      cases f with
      | out w => simp only [S.step]; split <;> rfl
      | fail j => cases this
    | extend n r => cases r <;> exact h
    | reset => rfl

/-- **C36.**  If no formatting fails, the contents are always terminated. -/
theorem C36_terminated (a : Nat) (mem : List UInt8) (hm : mem ≠ []) (os : List Op) (hv : ∀ o ∈ os, o.valid) (hf : ∀ o ∈ os, o.formats = true) :
    ∃ b0 b rs, ctor a mem = .ok b0 ∧ run b0 os = .ok (b, rs) ∧ b.mem.take (b.cp - b.bp) = written [] mem.length os ∧
      b.mem[b.cp - b.bp]? = some 0 := by
  obtain ⟨b0, b, h1, h2, -, -, -, h3, h4⟩ := C36_contents a mem hm os hv
  exact ⟨b0, b, _, h1, h2, h3, h4 (term_run os _ rfl hf)⟩

/-- After a write that fails in the formatting the terminator may be gone. -/
theorem C36_error_counterexample : ∃ b, (ctor 100 [1, 2, 3, 4]).toOption = some b ∧
    ((run b [.write (.out [65]), .write (.fail [66, 67])]).toOption.map fun r => r.1.mem) = some [65, 66, 67, 4] := by
  exact ⟨⟨4, 100, 100, [0, 2, 3, 4]⟩, by decide, by decide⟩

/-- An extension that does not extend terminates the process. -/
theorem C36_extend_asserts (b : Buf) (r : Realloc) : extend b 0 r = .error .abort := rfl

/-! ## A case -/

example : ((ctor 100 (List.replicate 6 9)).toOption.bind fun b =>
    (run b [.write (.out [49, 50, 51, 52, 53]), .write (.out [70]), .extend 1 (.at 300 [7]), .write (.out [70])]).toOption) =
    some (⟨7, 300, 306, [49, 50, 51, 52, 53, 70, 0]⟩, [.ok, .short, .ok, .ok]) := by decide

end Verif.Sbuf
