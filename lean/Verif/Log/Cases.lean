import Verif.Log.Props

/-! # Concrete cases, and what can go wrong -/

namespace Verif.Log

/-- The execution is there and ends in a state with this property. -/
def ends (es : List Ev) (P : St → Bool) : Bool :=
  match run init es with
  | some (.ok s) => P s
  | _ => false

theorem ends_spec {es : List Ev} {P : St → Bool} (h : ends es P = true) : ∃ s, run init es = some (.ok s) ∧ P s = true := by
  unfold ends at h
  split at h
  · rename_i s hs
    exact ⟨s, hs, h⟩
  · cases h

/-- The execution ends in an error. -/
def faults (es : List Ev) : Bool :=
  match run init es with
  | some (.error .ub) => true
  | _ => false

theorem faults_spec {es : List Ev} (h : faults es = true) : run init es = some (.error .ub) := by
  unfold faults at h
  split at h
  · assumption
  · cases h

/-- "a: " "hello" -/
def hello : Raw := ⟨6, [97, 58, 32], some [104, 101, 108, 108, 111], none⟩

/-- "b: " "x" ": err" -/
def other : Raw := ⟨3, [98, 58, 32], some [120], some [58, 32, 101, 114, 114]⟩

/-- Two threads at the same time, and the end. -/
def twoRun : List Ev :=
  [.get 1 hello, .get 2 other, .fill 2, .put 2, .take, .fill 1, .work, .put 1, .rel, .xget, .xfill, .xput, .get 3 hello,
    .fill 3, .put 3, .take, .work, .rel, .take, .work, .xjoin]

/-- The two messages, in the order of having been handed in; the one after the end is not there. -/
theorem two_run : ∃ s, run init twoRun = some (.ok s) ∧
    s.out = [⟨3, [98, 58, 32, 120, 58, 32, 101, 114, 114]⟩, ⟨6, [97, 58, 32, 104, 101, 108, 108, 111]⟩] ∧ s.joined = true := by
  obtain ⟨s, h, hp⟩ := ends_spec (es := twoRun)
    (P := fun s => s.out == [⟨3, [98, 58, 32, 120, 58, 32, 101, 114, 114]⟩, ⟨6, [97, 58, 32, 104, 101, 108, 108, 111]⟩] && s.joined)
    (by decide +kernel)
  simp only [Bool.and_eq_true, beq_iff_eq] at hp
  exact ⟨s, h, hp.1, hp.2⟩

/-- It meets the hypotheses of the theorems. -/
theorem two_run_ok : .init ∉ twoRun ∧ (∀ e ∈ twoRun, e.sane) ∧ (seen twoRun).drops < 2 ^ 31 := by
  refine ⟨by decide, ?_, by decide⟩
  intro e he
  simp only [twoRun, List.mem_cons, List.not_mem_nil, or_false] at he
  rcases he with h | h | h | h | h | h | h | h | h | h | h | h | h | h | h | h | h | h | h | h | h <;> subst h <;> first
    | trivial
    | (intro hu; cases hu)

/-- Sixty-four threads have a message and a sixty-fifth wants to log. -/
def fullRun : List Ev := (List.range 64).map (.get · hello)

theorem full_run : ∃ s, run init fullRun = some (.ok s) ∧ s.free = none ∧ s.dropped = 0 ∧ s.pr 64 = .idle := by
  obtain ⟨s, h, hp⟩ := ends_spec (es := fullRun)
    (P := fun s => s.free == none && s.dropped == 0 && s.pr 64 == .idle) (by decide +kernel)
  simp only [Bool.and_eq_true, beq_iff_eq] at hp
  exact ⟨s, h, hp.1.1, hp.1.2, hp.2⟩

/-- It is dropped. -/
theorem full_drop : ∃ s, run init (fullRun ++ [.get 64 other]) = some (.ok s) ∧ s.dropped = 1 := by
  obtain ⟨s, h, hp⟩ := ends_spec (es := fullRun ++ [.get 64 other]) (P := fun s => s.dropped == 1) (by decide +kernel)
  simp only [beq_iff_eq] at hp
  exact ⟨s, h, hp⟩

/-- **C74.** If the queue is set up twice, then two handlers are run at the end of the process, and the second one waits for
a thread that has been waited for: `_rtpp_log_open` tests whether the queue has been set up and says so in two steps, so two
threads that start a log at the same time do this. -/
theorem C74_twice_counterexample : ∃ es, es.count .init = 1 ∧ (∀ e ∈ es, e.sane) ∧ run init es = some (.error .ub) :=
  ⟨[.init, .xget, .xfill, .xput, .take, .work, .xjoin, .xget, .xfill, .xput, .xjoin], by decide, by
    intro e he
    simp only [List.mem_cons, List.not_mem_nil, or_false] at he
    rcases he with h | h | h | h | h | h | h | h | h | h | h <;> subst h <;> trivial,
    faults_spec (by decide +kernel)⟩

theorem drop_many (t : Nat) (r : Raw) (n : Nat) : ∀ s : St, s.free = none → s.pr t = .idle → s.dropped + n = 2 ^ 31 - 1 →
    run s (List.replicate (n + 1) (.get t r)) = some (.error .ub) := by
  induction n with
  | zero =>
    intro s h1 h2 h3
    have : ¬ s.dropped + 1 < 2 ^ 31 := by omega
    simp [List.replicate, run, step, stepGet, h1, h2, this]
  | succ n ih =>
    intro s h1 h2 h3
    have hlt : s.dropped + 1 < 2 ^ 31 := by omega
    rw [List.replicate_succ]
    have hst : step s (.get t r) = some (.ok { s with dropped := s.dropped + 1 }) := by
      simp only [step, stepGet, h1, h2, if_pos hlt]
    simp only [run, hst]
    exact ih _ h1 h2 (by show s.dropped + 1 + n = _; omega)

theorem run_join {es fs : List Ev} : ∀ {s s' : St}, run s es = some (.ok s') → run s (es ++ fs) = run s' fs := by
  induction es with
  | nil =>
    intro s s' h
    simp only [run, Option.some.injEq, Except.ok.injEq] at h
    rw [h]
    rfl
  | cons e es ih =>
    intro s s' h
    rw [List.cons_append]
    unfold run at h
    cases hst : step s e with
    | none => rw [hst] at h; cases h
    | some y =>
      rw [hst] at h
      cases y with
      | error f => cases h
      | ok s1 =>
        have : run s (e :: (es ++ fs)) = run s1 (es ++ fs) := by simp only [run, hst]
        rw [this]
        exact ih h

/-- **C74.** The number of messages dropped is counted in an `int` that is never set back and never looked at: it overflows. -/
theorem C74_dropped_counterexample : ∃ es, .init ∉ es ∧ (∀ e ∈ es, e.sane) ∧ run init es = some (.error .ub) := by
  obtain ⟨s, h, h1, h2, h3⟩ := full_run
  refine ⟨fullRun ++ List.replicate (2 ^ 31 - 1 + 1) (.get 64 hello), ?_, ?_, ?_⟩
  · intro hm
    rcases List.mem_append.mp hm with hm | hm
    · simp only [fullRun, List.mem_map] at hm
      obtain ⟨_, _, hm⟩ := hm
      cases hm
    · exact absurd (List.eq_of_mem_replicate hm) (by nofun)
  · intro e he
    rcases List.mem_append.mp he with hm | hm
    · simp only [fullRun, List.mem_map] at hm
      obtain ⟨_, _, hm⟩ := hm
      subst hm
      intro hu
      cases hu
    · rw [List.eq_of_mem_replicate hm]
      intro hu
      cases hu
  · rw [run_join h]
    exact drop_many 64 hello _ s h1 h3 (by rw [h2])

/-- **C74.** If `vsnprintf` reports an error, the last byte of the first part is lost. -/
theorem C74_text_counterexample : ∃ r : Raw, r.user = none ∧ r.pre = [97, 58, 32] ∧ r.post = some [33] ∧
    format r = .ok ([97, 58, 33], 3) :=
  ⟨⟨6, [97, 58, 32], none, some [33]⟩, rfl, rfl, rfl, by rfl⟩

end Verif.Log
