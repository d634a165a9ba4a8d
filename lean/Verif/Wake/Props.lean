import Verif.Wake.Step

/-! C67: changes to the sets of sockets are noticed. -/

namespace Verif.Wake

variable {K : Par} {σ σ' : St}

theorem leftP_write {x : Poller} {n : Int} {t : Nat} (h : x.pc = .proc true → x.pipe ≠ []) :
    leftP { x with pipe := x.pipe ++ [n], log := t :: x.log } ≤ leftP x + 4 := by
  simp only [leftP, List.length_append, List.length_cons, List.length_nil]
  cases hpc : x.pc <;> simp only [] <;> try omega
  rename_i r
  cases r
  · simp; omega
  · have := h hpc
    simp [this]; omega

theorem leftP_poll {x y : Poller} (hc : x.closed = false) (hr : x.pc = .proc true → x.pipe ≠ [])
    (h : pollStep x true = some y) : leftP y < leftP x := by
  unfold pollStep at h
  split at h
  · rename_i hpc
    cases h
    simp [leftP, hpc]
  · rename_i c hpc
    cases h
    simp only [leftP, hpc]
    cases c <;> simp
  · rename_i hpc
    simp only [hc, if_true] at h
    split at h
    · rename_i hp
      cases h
      have hp : x.pipe ≠ [] := by simpa using hp
      simp [leftP, hpc, hp]
    · cases h
  · rename_i r hpc
    cases r with
    | false => cases h; simp [leftP, hpc]
    | true =>
      have := hr hpc
      cases hp : x.pipe with
      | nil => exact absurd hp this
      | cons n l =>
        simp only [hp, if_true] at h
        cases h
        simp only [leftP, hpc, hp, List.length_cons]
        simp; omega
  · cases h

theorem left_step {e : Ev} (h : Inv K σ) (hu : Up σ) (he : e.inner) (hs : step K σ e = some σ') :
    left σ' < left σ ∧ Up σ' := by
  obtain ⟨hst, hub, hcl⟩ := hu
  have hrd : ∀ p, (σ.P p).pc = .proc true → (σ.P p).pipe ≠ [] := by
    intro p hp hq
    have := (h.P p).ready hp hq
    rw [hcl p] at this; cases this
  unfold step at hs
  rw [if_neg (by simp [hub])] at hs
  cases e with
  | timeout =>
    simp only [timeout] at hs
    split at hs
    · rename_i s t hpc hat
      split at hs
      · cases hs
        refine ⟨?_, by simp [Up, hub, hcl]⟩
        simp only [left, hpc]
        cases s <;> simp <;> omega
      · cases hs
    · cases hs
  | wake bad =>
    have hb : bad = false := by simpa [Ev.inner] using he
    subst hb
    simp only [wake] at hs
    split at hs
    case h_6 hpc =>
      unfold write at hs
      split at hs
      · cases hs
        have := leftP_write (n := σ.loc) (t := σ.clk) (hrd false)
        refine ⟨?_, by simp, hub, ?_⟩
        · simp only [left, hpc, upd, if_true]
          simp
          split <;> omega
        · intro p; cases p <;> simp [upd, hcl]
      · cases hs
    case h_7 hpc =>
      unfold write at hs
      split at hs
      · cases hs
        have := leftP_write (n := σ.loc) (t := σ.clk) (hrd true)
        refine ⟨?_, by simp, hub, ?_⟩
        · simp only [left, hpc, upd, if_true]
          simp
          split <;> omega
        · intro p; cases p <;> simp [upd, hcl]
      · cases hs
    all_goals
      rename_i hpc
      (repeat' split at hs) <;> cases hs
    all_goals
      refine ⟨?_, by grind, hub, hcl⟩
      simp only [left, hpc]
    all_goals grind
  | poll p r =>
    have hr : r = true := he
    subst hr
    simp only [Option.map_eq_some_iff] at hs
    obtain ⟨x, hx, rfl⟩ := hs
    have hlt := leftP_poll (hcl p) (hrd p) hx
    have hxc : x.closed = false := by
      have := hcl p
      unfold pollStep at hx
      (repeat' split at hx) <;> cases hx <;> exact this
    refine ⟨?_, hst, hub, ?_⟩
    · cases p <;> simp only [left, upd] <;> simp <;> omega
    · intro q
      simp only [upd]
      split
      · exact hxc
      · exact hcl q
  | _ => cases he

/-- C67. Left to themselves the threads come to rest: they take at most `left σ` steps, however these
interleave and however the clock runs. -/
theorem C67_settles_partial (h : Reach K σ) (hu : Up σ) {es : List Ev} (he : ∀ e ∈ es, e.idle)
    (hr : run K σ es = some σ') : es.countP Ev.inner + left σ' ≤ left σ ∧ Up σ' ∧ Reach K σ' := by
  induction es generalizing σ with
  | nil => cases hr; simp [hu, h]
  | cons e es ih =>
    rw [run] at hr
    split at hr
    · cases hr
    · rename_i τ hτ
      have h2 := Reach.step e h hτ
      have he' := fun e' he'' => he e' (List.mem_cons_of_mem _ he'')
      by_cases hi : e.inner
      · obtain ⟨h1, hu'⟩ := left_step (inv_reach h) hu hi hτ
        obtain ⟨a, b, c⟩ := ih h2 hu' he' hr
        refine ⟨?_, b, c⟩
        rw [List.countP_cons, if_pos hi]
        omega
      · have hid := he e (List.mem_cons_self ..)
        cases e with
        | tick n =>
          unfold step at hτ
          rw [if_neg (by simp [hu.2.1])] at hτ
          cases hτ
          obtain ⟨a, b, c⟩ := ih h2 hu he' hr
          refine ⟨?_, b, c⟩
          rw [List.countP_cons, if_neg hi]
          exact a
        | _ => first | exact absurd hid hi | exact absurd hid (by simp [Ev.idle, Ev.inner])

theorem still_of (h : Inv K σ) (hu : Up σ) (hc : 0 < K.cap) (hs : Still K σ) :
    (∀ p, (σ.P p).pc = .poll ∧ (σ.P p).pipe = []) ∧
      (σ.pc = .wait false ∨ σ.pc = .ended) := by
  obtain ⟨hst, hub, hcl⟩ := hu
  have hP : ∀ p, (σ.P p).pc = .poll ∧ (σ.P p).pipe = [] := by
    intro p
    have := hs 0 (.poll p true) rfl
    unfold step at this
    rw [if_neg (by simp [hub])] at this
    simp only [Option.map_eq_none_iff] at this
    unfold pollStep at this
    (repeat' split at this) <;> try (cases this)
    · rename_i hpc _ hn
      refine ⟨hpc, ?_⟩
      simpa [hcl p] using hn
    · rename_i hpc
      have h1 := (h.P p).ended hpc
      have h2 := (h.P p).ceased h1
      rw [hcl p] at h2; cases h2
  refine ⟨hP, ?_⟩
  have hw := fun n => hs n (.wake false) rfl
  have ht := fun n => hs n .timeout rfl
  unfold step at hw ht
  simp only [hub, Bool.false_eq_true, if_false] at hw ht
  unfold wake at hw
  unfold timeout at ht
  have hroom : ∀ p, (σ.P p).pipe.length < K.cap := by intro p; rw [(hP p).2]; exact hc
  cases hpc : σ.pc with
  | wait s =>
    cases s with
    | false => exact .inl rfl
    | true => have := hw 0; simp [hpc] at this
  | waitT s =>
    have hat := h.waitT s hpc
    cases hq : σ.at_ with
    | none => exact absurd hq hat
    | some t =>
      have := ht t
      simp only [hpc, hq] at this
      rw [if_pos (by omega)] at this
      cases this
  | top =>
    have := hw 0
    simp only [hpc] at this
    (repeat' split at this) <;> cases this
  | stuck => exact absurd hpc hst
  | w1 =>
    have := hw 0
    simp only [hpc, write] at this
    rw [if_pos (hroom false)] at this
    cases this
  | w2 =>
    have := hw 0
    simp only [hpc, write] at this
    rw [if_pos (hroom true)] at this
    cases this
  | ended => exact .inr rfl

/-- C67. When the threads have come to rest, unless the server is being shut down, both media threads
have seen every change made before the last request to look. -/
theorem C67_noticed_partial (h : Reach K σ) (hu : Up σ) (hc : 0 < K.cap) (hts : σ.ts = false)
    (hs : Still K σ) (p : Bool) : Noticed σ p := by
  have hi := inv_reach h
  obtain ⟨hP, hpc⟩ := still_of hi hu hc hs
  have hne : σ.pc ≠ .ended := by
    intro he
    have := ended_ts h he
    rw [hts] at this; cases this
  have hpc : σ.pc = .wait false := hpc.resolve_right hne
  obtain ⟨h1, h2⟩ := hi.wait _ hpc
  rcases (hi.P p).noticed with q | q | q | q
  · exact q
  · exact absurd (hP p).1 q
  · exact absurd (hP p).2 q
  · exfalso
    simp only [Pend, hpc, hts, h1, h2 rfl] at q
    simp at q

/-- C67. And they do come to rest, without help from outside. -/
theorem C67_delivered_partial (h : Reach K σ) (hu : Up σ) (hc : 0 < K.cap) (hts : σ.ts = false) :
    ∃ es σ', (∀ e ∈ es, e.idle) ∧ run K σ es = some σ' ∧ Still K σ' ∧ ∀ p, Noticed σ' p := by
  generalize hn : left σ = n
  induction n using Nat.strongRecOn generalizing σ with
  | ind n ih =>
    by_cases hs : Still K σ
    · exact ⟨[], σ, by simp, rfl, hs, fun p => C67_noticed_partial h hu hc hts hs p⟩
    · obtain ⟨k, hs⟩ := Classical.not_forall.mp hs
      obtain ⟨e, hs⟩ := Classical.not_forall.mp hs
      obtain ⟨he, hs⟩ := Classical.not_imp.mp hs
      cases hst : step K { σ with clk := σ.clk + k } e with
      | none => exact absurd hst hs
      | some τ =>
        have htick : step K σ (.tick k) = some { σ with clk := σ.clk + k } := by
          unfold step
          rw [if_neg (by simp [hu.2.1])]
        have h1 := Reach.step _ h htick
        obtain ⟨hlt, hu'⟩ := left_step (σ := { σ with clk := σ.clk + k }) (inv_reach h1) hu he hst
        have hlt : left τ < n := by rw [← hn]; exact hlt
        have hts' : τ.ts = false := by
          have : ({ σ with clk := σ.clk + k } : St).ts = false := hts
          generalize ({ σ with clk := σ.clk + k } : St) = ρ at *
          unfold step at hst
          split at hst
          · cases hst
          cases e <;> simp only [timeout, wake, write, Option.map_eq_some_iff, Ev.inner] at hst he <;>
            (repeat' split at hst) <;> grind
        obtain ⟨es, σ', a, b, c⟩ := ih _ hlt (Reach.step _ h1 hst) hu' hts' rfl
        refine ⟨.tick k :: e :: es, σ', ?_, ?_, c⟩
        · intro e' he'
          rcases List.mem_cons.mp he' with q | q
          · subst q; rfl
          · rcases List.mem_cons.mp q with q | q
            · subst q
              cases e' <;> first | exact he | rfl
            · exact a e' q
        · simp only [run, htick, hst]
          exact b

/-- C67. Requests to look are passed on at most once in `ival` ticks. -/
theorem C67_rate (h : Reach K σ) (p : Bool) : Spaced K.ival (σ.P p).log := ((inv_reach h).P p).spaced

/-- C67. A wait for the clock is not longer than that. -/
theorem C67_soon (h : Reach K σ) {t : Nat} (ha : σ.at_ = some t) : t ≤ σ.clk + K.ival := by
  have hi := inv_reach h
  obtain ⟨l, hl, rfl⟩ := hi.at_ t ha
  have := hi.last l hl
  omega

/-- C67. Once the destructor of the thread has asked it to end, the threads come to rest only with the
thread ended, so the destructor does not wait for ever; the media threads are there to empty the
sockets the thread may be writing to. -/
theorem C67_stops (h : Reach K σ) (hub : σ.ub = false) (hcl : ∀ p, (σ.P p).closed = false)
    (hc : 0 < K.cap) (hf : σ.fin = true) (hs : Still K σ) : σ.pc = .ended := by
  have hi := inv_reach h
  obtain ⟨hts, hw, _⟩ := hi.fin hf
  have hst : σ.pc ≠ .stuck := by
    intro q
    have := hs 0 (.wake false) rfl
    unfold step at this
    rw [if_neg (by simp [hub])] at this
    simp [wake, q, hts] at this
  exact (still_of hi ⟨hst, hub, hcl⟩ hc hs).2.resolve_left hw

/-- How far a media thread is from its end. -/
def toEnd : Pp → Nat
  | .ended => 0
  | .sync true => 1
  | .top => 2
  | .proc _ => 3
  | .poll => 4
  | .sync false => 5

/-- C67. A media thread whose socket is closed and which has been told to end does end, within five
steps of its own, having seen every change. -/
theorem C67_ends (h : Reach K σ) {p : Bool} (ht : (σ.P p).ts = true) :
    ((σ.P p).pc = .ended ∨ ∃ x, pollStep (σ.P p) true = some x) ∧
    (∀ r x, pollStep (σ.P p) r = some x → toEnd x.pc < toEnd (σ.P p).pc ∧ x.ts = true ∧
      (x.pc = .ended → x.seen = x.chg)) := by
  have hi := (inv_reach h).P p
  have hcl := hi.ceased ht
  constructor
  · unfold pollStep
    cases hpc : (σ.P p).pc with
    | ended => exact .inl rfl
    | poll => exact .inr (by simp [hcl])
    | top => exact .inr (by simp)
    | sync c => exact .inr (by simp)
    | proc r =>
      right
      cases r
      · simp
      · cases (σ.P p).pipe <;> simp
  · intro r x hx
    unfold pollStep at hx
    (repeat' split at hx) <;> cases hx <;> simp_all [toEnd]

end Verif.Wake
