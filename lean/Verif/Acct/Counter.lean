import Verif.Acct.Props

/-! # C72: what goes wrong -/

namespace Verif.Acct

def ends (es : List Ev) (P : St → Bool) : Bool :=
  match run init es with
  | some (.ok st) => P st
  | _ => false

theorem ends_spec {es : List Ev} {P : St → Bool} (h : ends es P = true) :
    ∃ st, run init es = some (.ok st) ∧ P st = true := by
  simp only [ends] at h
  split at h
  next st hs => exact ⟨st, hs, h⟩
  · cases h

/-- A side of a session with nothing on it. -/
def quiet : Face := ⟨[45], [45], 0, 0, .empty, .empty, 0, 0, 0, 0, 0, 0, 0, none, 0, -1, [48], [48], [48]⟩

/-- A session whose Call-ID has a comma. -/
def comma : Rec := ⟨[104], 1, 7, some (bytes "a,b@c"), some (bytes "tag"), [48], [49], 0, 0, 0, 0, quiet, quiet⟩

/-- A comma in a Call-ID, which is allowed there, moves all values after it under wrong names. -/
theorem C72_comma_counterexample : ∃ w, row comma = .ok (w ++ [10]) ∧ value headLine w "from_tag" = some (bytes "b@c") ∧
    value headLine w "setup_ts" = some (bytes "tag") ∧ (split 44 w).length = (split 44 headLine).length + 1 :=
  ⟨_, row_eq comma, by decide +kernel⟩

/-- The module of process `p` starts, with descriptor `n`, and makes the file. -/
def start (p n : Nat) : List Ev :=
  [.ctor p, .close p, .open p (some n), .olock p true, .ofstat p true, .head p .whole, .ounlock p]

/-- It starts and finds the file there. -/
def join' (p n : Nat) : List Ev :=
  [.ctor p, .close p, .open p (some n), .olock p true, .ofstat p true, .ounlock p]

/-- One row. -/
def put (p : Nat) (w : List UInt8) (r : Wr) : List Ev := [.begin p w, .stat p true, .lock p true, .write p r, .unlock p]

/-- The disk is full for a moment. -/
def torn : List Ev := start 0 3 ++ put 0 [97, 44, 98, 10] (.part 2) ++ put 0 [99, 44, 100, 10] .whole

/-- A write that is cut short is not noticed: the first row is lost but for its beginning, and the next one is appended to
that. -/
theorem C72_torn_counterexample : ∃ s, run init torn = some (.ok s) ∧ handed 0 torn = [[97, 44, 98, 10], [99, 44, 100, 10]] ∧
    ∃ d, s.files[0]? = some d ∧ lines d = [headLine, [97, 44, 99, 44, 100]] := by
  obtain ⟨st, h, hp⟩ := ends_spec (es := torn)
    (P := fun s => decide (s.files = [headLine ++ [10, 97, 44, 99, 44, 100, 10]])) (by decide +kernel)
  have hp := of_decide_eq_true hp
  exact ⟨st, h, rfl, _, by rw [hp]; rfl, by decide +kernel⟩

/-- The file is emptied in place, as some programs for rotating logs do. -/
def emptied : List Ev := start 0 3 ++ [.trunc 0] ++ put 0 [97, 10] .whole

/-- The names are not written to a file that was emptied in place. -/
theorem C72_trunc_counterexample : ∃ s, run init emptied = some (.ok s) ∧ s.files = [[97, 10]] := by
  obtain ⟨st, h, hp⟩ := ends_spec (es := emptied) (P := fun s => decide (s.files = [[97, 10]])) (by decide +kernel)
  exact ⟨st, h, of_decide_eq_true hp⟩

/-- The file was moved away; the new one cannot be locked, and another thread opens something. -/
def stale : List Ev :=
  start 0 3 ++ [.unlink, .begin 0 [97, 10], .stat 0 true, .close 0, .open 0 (some 4), .olock 0 false, .fopen 0 4,
    .begin 0 [98, 10], .stat 0 true, .close 0]

/-- After a failed lock the number of the closed descriptor is kept, and is closed once more for the next row, by which
time it may belong to another thread. -/
theorem C72_stale_counterexample : run init stale = some (.error .ub) := by
  have h : (match run init stale with
    | some (.error .ub) => true
    | _ => false) = true := by decide +kernel
  split at h
  next h' => exact h'
  · cases h

theorem run_append {l1 l2 : List Ev} {s s1 : St} (h : run s l1 = some (.ok s1)) : run s (l1 ++ l2) = run s1 l2 := by
  induction l1 generalizing s with
  | nil => cases h; rfl
  | cons e l1 ih =>
    simp only [run, List.cons_append] at h ⊢
    split at h
    · cases h
    · cases h
    · exact ih h

/-- Process 0 has the file `d` open at offset `o`, with these locks, and process 1 is idle with the file open. -/
structure Desc (s : St) (d : List UInt8) (o : Nat) (ls : List Lk) (pc : Pc) : Prop where
  files : s.files = [d]
  name : s.name = some 0
  locks : s.locks = ls
  fd : (s.procs 0).fd = some 3
  stt : (s.procs 0).stt = some 0
  tbl : (s.procs 0).tbl 3 = some (.csv 0 o)
  pc : (s.procs 0).pc = pc
  two : (s.procs 1).pc = .idle ∧ (s.procs 1).stt = some 0

theorem toInt_neg {n : Nat} (h1 : 2 ^ 31 ≤ n) (h2 : n < 2 ^ 32) : toInt n < 0 := by unfold toInt; omega

theorem desc_to {s : St} {d : List UInt8} {o : Nat} {ls : List Lk} {pc : Pc} (h : Desc s d o ls pc) (pc' : Pc) :
    Desc (s.to 0 pc') d o ls pc' := by
  obtain ⟨h1, h2, h3, h4, h5, h6, h7, h8⟩ := h
  constructor <;> simp [St.to, St.setP, Proc.goto, *]

theorem desc_file {s : St} {d : List UInt8} {o : Nat} {ls : List Lk} {pc : Pc} (h : Desc s d o ls pc) :
    (s.procs 0).file = .ok (some (3, 0, o)) := by simp [Proc.file, h.fd, h.tbl]

/-- To the lock. -/
theorem desc_stat {s : St} {d : List UInt8} (w : List UInt8) {o : Nat} {ls : List Lk} (h : Desc s d o ls .idle) :
    ∃ s', (∀ es, run s (.begin 0 w :: .stat 0 true :: es) = run s' es) ∧ Desc s' d o ls (.lock w) := by
  have h1 := desc_to h (.stat w)
  refine ⟨(s.to 0 (.stat w)).to 0 (.lock w), fun es => ?_, desc_to h1 _⟩
  have e1 : step s (.begin 0 w) = some (.ok (s.to 0 (.stat w))) := by simp [step, h.pc]
  have e2 : step (s.to 0 (.stat w)) (.stat 0 true) = some (.ok ((s.to 0 (.stat w)).to 0 (.lock w))) := by
    simp [step, h1.pc, h1.name, h1.stt]
  simp only [run, e1, e2]

/-- A row. -/
theorem desc_put {s : St} {d : List UInt8} (w : List UInt8) (h : Desc s d d.length [] .idle) (hd : d.length < 2 ^ 31) :
    ∃ s', (∀ es, run s (put 0 w .whole ++ es) = run s' es) ∧ Desc s' (d ++ w) (d ++ w).length [] .idle := by
  obtain ⟨s1, hr, h1⟩ := desc_stat w h
  let s2 : St := { s1 with locks := [⟨0, 0, d.length, none⟩] }
  have g2 : Desc s2 d d.length [⟨0, 0, d.length, none⟩] (.lock w) :=
    ⟨h1.files, h1.name, rfl, h1.fd, h1.stt, h1.tbl, h1.pc, h1.two⟩
  let s3 := s2.to 0 (.write w d.length)
  have g3 : Desc s3 d d.length [⟨0, 0, d.length, none⟩] (.write w d.length) := desc_to g2 _
  have e3 : step s1 (.lock 0 true) = some (.ok s3) := by
    simp only [step, h1.pc, doLock, desc_file h1, if_true, St.busy, h1.locks, List.any_nil, Bool.false_eq_true, if_false]
    rw [if_neg (by rw [toInt_small hd]; omega), toInt_small hd]; rfl
  let s4 := (s3.append 0 3 0 w).to 0 (.unlock d.length)
  have g4 : Desc s4 (d ++ w) (d ++ w).length [⟨0, 0, d.length, none⟩] (.unlock d.length) := by
    obtain ⟨a1, a2, a3, a4, a5, a6, a7, a8⟩ := g3
    constructor <;> simp [s4, St.to, St.append, St.setP, Proc.goto, Proc.bind, *]
  have e4 : step s3 (.write 0 .whole) = some (.ok s4) := by
    simp only [step, g3.pc, doWrite, desc_file g3, s4]
  let s5 : St := { s4 with locks := [] }
  have g5 : Desc s5 (d ++ w) (d ++ w).length [] (.unlock d.length) :=
    ⟨g4.files, g4.name, rfl, g4.fd, g4.stt, g4.tbl, g4.pc, g4.two⟩
  have e5 : step s4 (.unlock 0) = some (.ok (s5.to 0 .idle)) := by
    have hu : List.filterMap (unlk 0 0 d.length) [(⟨0, 0, d.length, none⟩ : Lk)] = [] := by simp [unlk]
    simp only [step, g4.pc, unlockf, desc_file g4, Except.map, g4.locks, Int.toNat_natCast, hu, s5]
  refine ⟨s5.to 0 .idle, fun es => ?_, desc_to g5 _⟩
  simp only [put, List.cons_append, List.nil_append, hr]
  simp only [run, e3, e4, e5]

/-- The file grows past two gigabytes. -/
theorem desc_grow {w : List UInt8} (h0 : w ≠ []) (h1 : w.length < 2 ^ 31) (m : Nat) :
    ∀ {s : St} {d : List UInt8}, Desc s d d.length [] .idle → d.length < 2 ^ 32 → 2 ^ 31 - d.length ≤ m →
      ∃ n s' d', (∀ es, run s ((List.replicate n (put 0 w .whole)).flatten ++ es) = run s' es) ∧
        Desc s' d' d'.length [] .idle ∧ 2 ^ 31 ≤ d'.length ∧ d'.length < 2 ^ 32 := by
  have hl : 0 < w.length := by cases w <;> simp_all
  induction m with
  | zero => intro s d h hd hm; exact ⟨0, s, d, fun _ => rfl, h, by omega, hd⟩
  | succ m ih =>
    intro s d h hd hm
    by_cases hb : 2 ^ 31 ≤ d.length
    · exact ⟨0, s, d, fun _ => rfl, h, hb, hd⟩
    · obtain ⟨s1, hr, g⟩ := desc_put w h (by omega)
      obtain ⟨n, s', d', a1, a2, a3, a4⟩ := ih g (by rw [List.length_append]; omega) (by rw [List.length_append]; omega)
      refine ⟨n + 1, s', d', fun es => ?_, a2, a3, a4⟩
      rw [List.replicate_succ, List.flatten_cons, List.append_assoc, hr, a1]

/-- Two processes with the file open. -/
theorem desc_start : ∃ s, (∀ es, run init (start 0 3 ++ (join' 1 3 ++ es)) = run s es) ∧ Desc s head head.length [] .idle := by
  obtain ⟨st, h, hp⟩ := ends_spec (es := start 0 3 ++ join' 1 3) (P := fun s => decide (s.files = [head] ∧ s.name = some 0 ∧
    s.locks = [] ∧ (s.procs 0).fd = some 3 ∧ (s.procs 0).stt = some 0 ∧
    (s.procs 0).tbl 3 = some (.csv 0 head.length) ∧ (s.procs 0).pc = .idle ∧ (s.procs 1).pc = .idle ∧
    (s.procs 1).stt = some 0)) (by decide +kernel)
  obtain ⟨h1, h2, h3, h4, h5, h6, h7, h8, h9⟩ := of_decide_eq_true hp
  exact ⟨st, fun es => by rw [← List.append_assoc, run_append h], h1, h2, h3, h4, h5, h6, h7, h8, h9⟩

/-- Whether an event is that a row is written. -/
def Ev.whole : Ev → Bool
  | .write _ .whole => true
  | _ => false

theorem written_length (es : List Ev) : (written es).length = es.countP Ev.whole := by
  have key : ∀ h : Hist, (es.foldl Hist.step h).out.length = h.out.length + es.countP Ev.whole := by
    induction es with
    | nil => intro h; rfl
    | cons e es ih =>
      intro h
      rw [List.foldl_cons, ih, List.countP_cons]
      cases e with
      | write q r => cases r <;> simp [Hist.step, Ev.whole] <;> omega
      | _ => simp [Hist.step, Ev.whole]
  simpa [written, hist] using key ⟨fun _ => [], []⟩

theorem handed_append (p : Nat) (l1 l2 : List Ev) : handed p (l1 ++ l2) = handed p l1 ++ handed p l2 := by
  simp [handed]

theorem put_counts (w : List UInt8) (n : Nat) : (handed 0 (List.replicate n (put 0 w .whole)).flatten).length = n ∧
    (List.replicate n (put 0 w .whole)).flatten.countP Ev.whole = n := by
  induction n with
  | zero => exact ⟨rfl, rfl⟩
  | succ n ih =>
    obtain ⟨i1, i2⟩ := ih
    have p1 : (handed 0 (put 0 w .whole)).length = 1 := by simp [handed, put]
    have p2 : (put 0 w .whole).countP Ev.whole = 1 := rfl
    rw [List.replicate_succ, List.flatten_cons, handed_append, List.length_append, List.countP_append]
    omega

/-- When the file has grown to two gigabytes, a row, though no call has failed, is not written, and the lock is not
removed: process 0 is idle, and process 1 waits at its next row, and so would any other. -/
theorem C72_big_counterexample {w : List UInt8} (h0 : w ≠ []) (h1 : w.length < 2 ^ 31) : ∃ n es s,
    es = start 0 3 ++ (join' 1 3 ++ ((List.replicate n (put 0 w .whole)).flatten ++
      [.begin 0 w, .stat 0 true, .lock 0 true, .begin 1 w, .stat 1 true])) ∧
    run init es = some (.ok s) ∧ (handed 0 es).length = n + 1 ∧ (written es).length = n ∧ (s.procs 0).pc = .idle ∧
    (s.procs 1).pc = .lock w ∧ ∀ q o : Nat, q ≠ 0 → s.busy q 0 o = true := by
  obtain ⟨s0, r0, g0⟩ := desc_start
  obtain ⟨n, s1, d, r1, g1, a1, a2⟩ := desc_grow h0 h1 _ g0 (by decide +kernel) (Nat.le_refl _)
  obtain ⟨s2, r2, g2⟩ := desc_stat w g1
  let s3 : St := { s2 with locks := [⟨0, 0, d.length, none⟩] }
  have g3 : Desc s3 d d.length [⟨0, 0, d.length, none⟩] (.lock w) :=
    ⟨g2.files, g2.name, rfl, g2.fd, g2.stt, g2.tbl, g2.pc, g2.two⟩
  have g4 := desc_to g3 .idle
  have e3 : step s2 (.lock 0 true) = some (.ok (s3.to 0 .idle)) := by
    simp only [step, g2.pc, doLock, desc_file g2, if_true, St.busy, g2.locks, List.any_nil, Bool.false_eq_true, if_false]
    rw [if_pos (toInt_neg a1 a2)]; rfl
  let s5 := (s3.to 0 .idle).to 1 (.stat w)
  have e4 : step (s3.to 0 .idle) (.begin 1 w) = some (.ok s5) := by simp only [step, g4.two.1, s5]
  have e5 : step s5 (.stat 1 true) = some (.ok (s5.to 1 (.lock w))) := by
    have b1 : (s5.procs 1).pc = .stat w := by simp [s5, St.to, St.setP, Proc.goto]
    have b2 : (s5.procs 1).stt = some 0 := by
      have := g4.two.2
      simp only [s5]
      rw [St.to, St.setP]
      simpa [Proc.goto] using this
    have b3 : s5.name = some 0 := g4.name
    simp [step, b1, b2, b3]
  refine ⟨n, _, s5.to 1 (.lock w), rfl, ?_, ?_, ?_, ?_, ?_, ?_⟩
  · rw [r0, r1, r2]; simp only [run, e3, e4, e5]
  · simp only [handed_append, List.length_append, (put_counts w n).1]
    simp [handed, start, join']
  · rw [written_length]
    simp only [List.countP_append, (put_counts w n).2]
    simp [start, join', Ev.whole]
  · have := g4.pc
    simpa [s5, St.to, St.setP] using this
  · simp [St.to, St.setP, Proc.goto]
  · intro q o hq
    have : (s5.to 1 (.lock w)).locks = [⟨0, 0, d.length, none⟩] := rfl
    simp [St.busy, this, Ne.symm hq]

end Verif.Acct
