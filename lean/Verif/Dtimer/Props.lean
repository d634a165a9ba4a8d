import Verif.Dtimer.Model

/-!
# C88: a DTLS handshake is retransmitted until it is over, and nothing after
-/

namespace Verif.Dtimer

/-- What holds of every state: the timer the connection knows is in the queue or on its way, and tasks have different names. -/
structure Inv (s : St) : Prop where
  live : ∀ t, s.ttp = some t → t ∈ s.queue ∨ s.flight = some t
  old : ∀ t ∈ s.queue, t < s.next
  nodup : s.queue.Nodup
  apart : ∀ t, s.flight = some t → t ∉ s.queue ∧ t < s.next

theorem Inv.of {s s' : St} (h : Inv s) (h1 : s'.ttp = s.ttp) (h2 : s'.queue = s.queue) (h3 : s'.flight = s.flight)
    (h4 : s'.next = s.next) : Inv s' :=
  ⟨by rw [h1, h2, h3]; exact h.live, by rw [h2, h4]; exact h.old, by rw [h2]; exact h.nodup,
    by rw [h2, h3, h4]; exact h.apart⟩

theorem inv_cancel {s : St} (t : Nat) (h : Inv s) : Inv { s with ttp := none, queue := s.queue.erase t } :=
  ⟨nofun, fun x hx => h.old x (List.mem_of_mem_erase hx), h.nodup.erase t,
    fun x hx => ⟨fun hm => (h.apart x hx).1 (List.mem_of_mem_erase hm), (h.apart x hx).2⟩⟩

theorem inv_check {s : St} {w m : Bool} (h : Inv s) : Inv (checkTimer s w m).2 := by
  unfold checkTimer
  split
  · split
    · exact h.of rfl rfl rfl rfl
    · split
      · refine ⟨?_, ?_, ?_, ?_⟩
        · intro t ht
          simp only [Option.some.injEq] at ht
          subst ht
          exact .inl (by simp)
        · intro t ht
          simp only [List.mem_append, List.mem_singleton] at ht ⊢
          rcases ht with ht | rfl
          · exact Nat.lt_succ_of_lt (h.old t ht)
          · exact Nat.lt_succ_self _
        · simp only
          rw [List.nodup_append]
          refine ⟨h.nodup, by simp, ?_⟩
          intro a ha b hb
          rw [List.mem_singleton] at hb
          subst hb
          exact Nat.ne_of_lt (h.old a ha)
        · intro t ht
          obtain ⟨h1, h2⟩ := h.apart t ht
          simp only [List.mem_append, List.mem_singleton, not_or]
          exact ⟨⟨h1, Nat.ne_of_lt h2⟩, Nat.lt_succ_of_lt h2⟩
      · exact h.of rfl rfl rfl rfl
  · split
    · rename_i t _
      exact (inv_cancel t h).of rfl rfl rfl rfl
    · exact h.of rfl rfl rfl rfl

theorem inv_connect {s : St} {f w m : Bool} (h : Inv s) : Inv (tlsConnect s f w m).2 := by
  unfold tlsConnect
  split
  · exact h
  · exact inv_check h

theorem inv_accept {s : St} {f w m : Bool} (h : Inv s) : Inv (tlsAccept s f w m).2 := by
  unfold tlsAccept
  split
  · exact h
  · exact inv_check h

theorem inv_step {s : St} (h : Inv s) (e : Ev) : Inv (step s e) := by
  cases e with
  | recv g m =>
    simp only [step, recv]
    split
    · exact h
    · have h1 : Inv (if s.rdc = .init then { s with rdc := .connecting } else s) := by
        split
        · exact h.of rfl rfl rfl rfl
        · exact h
      revert h1
      generalize (if s.rdc = .init then { s with rdc := .connecting } else s) = s1
      intro h1
      cases g with
      | nothing => exact h1
      | step f w o g =>
        simp only
        split
        · exact h1.of rfl rfl rfl rfl
        · have h2 : Inv (if s1.active then tlsConnect s1 f w m else tlsAccept s1 f w m).2 := by
            split
            · exact inv_connect h1
            · exact inv_accept h1
          revert h2
          generalize (if s1.active then tlsConnect s1 f w m else tlsAccept s1 f w m) = r
          intro h2
          repeat' split
          all_goals first | exact h2 | exact h2.of rfl rfl rfl rfl
  | mode a f w m =>
    simp only [step, setMode]
    split
    · exact h
    · split
      · have h2 : Inv (tlsConnect { s with rdc := .connecting } f w m).2 := inv_connect (h.of rfl rfl rfl rfl)
        split
        · exact h2.of rfl rfl rfl rfl
        · exact h2
      · exact h.of rfl rfl rfl rfl
  | take t =>
    simp only [step]
    split
    · rename_i hc
      refine ⟨?_, fun x hx => h.old x (List.mem_of_mem_erase hx), h.nodup.erase t, ?_⟩
      · intro x hx
        rcases h.live x hx with h1 | h1
        · by_cases hxt : x = t
          · subst hxt; exact .inr rfl
          · exact .inl ((List.mem_erase_of_ne hxt).mpr h1)
        · rw [hc.1] at h1; cases h1
      · intro x hx
        simp only [Option.some.injEq] at hx
        subst hx
        exact ⟨fun hm => (List.Nodup.mem_erase_iff h.nodup).mp hm |>.1 rfl, h.old _ hc.2⟩
    · exact h
  | fire f w m =>
    simp only [step, fire]
    split
    · exact h
    · cases ht : s.ttp with
      | none =>
        simp only
        exact ⟨fun t h1 => absurd h1 (by simp), h.old, h.nodup, nofun⟩
      | some t =>
        simp only
        have h2 : Inv { s with flight := none, ttp := none } := ⟨nofun, h.old, h.nodup, nofun⟩
        have h3 := inv_check (w := w) (m := m) h2
        repeat' split
        all_goals first | exact h2 | exact h3 | exact h2.of rfl rfl rfl rfl | exact h3.of rfl rfl rfl rfl
  | bye =>
    simp only [step, bye]
    split
    · rename_i t _
      exact (inv_cancel t h).of rfl rfl rfl rfl
    · exact h.of rfl rfl rfl rfl

theorem run_inv (h : List Ev) : Inv (run h) := by
  induction h with
  | nil => exact ⟨nofun, nofun, List.nodup_nil, nofun⟩
  | cons e h ih => exact inv_step ih e

/-- While connecting there is a timer if OpenSSL wants one. -/
def Armed (s : St) : Prop := s.rdc = .connecting → s.wants = true → s.ttp ≠ none

theorem check_armed {s : St} {w m : Bool} (h : m = true ∨ (checkTimer s w m).1 = true) :
    (checkTimer s w m).2.wants = true → (checkTimer s w m).2.ttp ≠ none := by
  revert h
  unfold checkTimer
  cases w
  · cases s.ttp <;> simp
  · cases ht : s.ttp with
    | none => cases m <;> simp
    | some t => simp

theorem check_rdc {s : St} {w m : Bool} : (checkTimer s w m).2.rdc = s.rdc := by
  unfold checkTimer
  repeat' split
  all_goals rfl

theorem armed_step {s : St} (h : Armed s) (hi : s.rdc = .init → s.wants = false) (e : Ev)
    (hm : match e with
      | .recv _ m => m = true ∨ s.active = false
      | .mode _ _ _ m => m = true
      | _ => True) : Armed (step s e) ∧ ((step s e).rdc = .init → (step s e).wants = false) := by
  cases e with
  | recv g m =>
    simp only at hm
    simp only [step, recv]
    by_cases hd : s.rdc = .dead
    · rw [if_pos hd]; exact ⟨h, hi⟩
    rw [if_neg hd]
    have h1 : ∃ s1, s1 = (if s.rdc = .init then { s with rdc := .connecting } else s) ∧ Armed s1 ∧ s1.rdc ≠ .init ∧
        s1.active = s.active := by
      refine ⟨_, rfl, ?_⟩
      by_cases h0 : s.rdc = .init
      · rw [if_pos h0]
        exact ⟨fun _ hw => absurd (hi h0) (by rw [show s.wants = true from hw]; decide), by simp, rfl⟩
      · rw [if_neg h0]; exact ⟨h, h0, rfl⟩
    obtain ⟨s1, e1, a1, n1, c1⟩ := h1
    rw [← e1]
    cases g with
    | nothing => exact ⟨a1, fun h0 => absurd h0 n1⟩
    | step f w o g =>
      simp only
      by_cases hu : s1.rdc = .up
      · rw [if_pos hu]; exact ⟨fun h0 => (by cases h0), fun h0 => (by cases h0)⟩
      rw [if_neg hu]
      have key : ∃ r, r = (if s1.active then tlsConnect s1 f w m else tlsAccept s1 f w m) ∧
          (r.1 = true → r.2.wants = true → r.2.ttp ≠ none) ∧ r.2.rdc = s1.rdc := by
        refine ⟨_, rfl, ?_⟩
        unfold tlsConnect tlsAccept
        cases f
        · cases hact : s1.active
          · simp only [Bool.false_eq_true, if_false]
            exact ⟨fun h1 => check_armed (.inr h1), check_rdc⟩
          · simp only [Bool.false_eq_true, if_false, if_true]
            refine ⟨fun _ => check_armed (.inl ?_), check_rdc⟩
            rcases hm with hm | hm
            · exact hm
            · rw [← c1, hact] at hm; cases hm
        · cases s1.active <;> simp
      obtain ⟨r, er, k1, k2⟩ := key
      rw [← er]
      cases hr : r.1
      · simp only [Bool.not_false, if_true]
        exact ⟨fun h0 => (by cases h0), fun h0 => (by cases h0)⟩
      · simp only [Bool.not_true, Bool.false_eq_true, if_false]
        cases o
        · simp only [Bool.not_false, if_true]
          exact ⟨fun _ => k1 hr, fun h0 => absurd (k2 ▸ h0) n1⟩
        · cases g
          · exact ⟨fun h0 => (by cases h0), fun h0 => (by cases h0)⟩
          · exact ⟨fun h0 => (by cases h0), fun h0 => (by cases h0)⟩
  | mode a f w m =>
    simp only at hm
    subst hm
    simp only [step, setMode]
    by_cases hc : a ≠ s.active ∧ s.rdc ≠ .init
    · rw [if_pos hc]; exact ⟨h, hi⟩
    rw [if_neg hc]
    by_cases hb : a = true ∧ s.rdc = .init
    · rw [if_pos hb]
      unfold tlsConnect
      cases f
      · simp only [Bool.false_eq_true, if_false, if_true]
        refine ⟨fun _ => check_armed (s := { s with rdc := .connecting }) (.inl rfl), fun h0 => ?_⟩
        have := check_rdc (s := { s with rdc := .connecting }) (w := w) (m := true)
        simp only at this h0
        rw [this] at h0
        cases h0
      · simp only [if_true, Bool.false_eq_true, if_false]
        exact ⟨fun _ hw => absurd (hi hb.2) (by rw [show s.wants = true from hw]; decide), fun h0 => by cases h0⟩
    · rw [if_neg hb]; exact ⟨h, hi⟩
  | take t =>
    simp only [step]
    split
    · exact ⟨h, hi⟩
    · exact ⟨h, hi⟩
  | fire f w m =>
    simp only [step, fire]
    split
    · exact ⟨h, hi⟩
    · cases ht : s.ttp with
      | none => exact ⟨fun h0 hw => absurd ht (h h0 hw), hi⟩
      | some t =>
        simp only
        by_cases hr : s.rdc = .connecting
        · rw [if_neg (by simp [hr])]
          cases f
          · simp only [Bool.false_eq_true, if_false]
            cases hk : (checkTimer { s with ttp := none, flight := none } w m).1
            · simp only [Bool.false_eq_true, if_false]
              exact ⟨fun h0 => (by cases h0), fun h0 => (by cases h0)⟩
            · simp only [if_true]
              refine ⟨fun _ => check_armed (.inr hk), fun h0 => ?_⟩
              rw [check_rdc] at h0
              simp only [hr] at h0
              cases h0
          · simp only [if_true]
            exact ⟨fun h0 => (by cases h0), fun h0 => (by cases h0)⟩
        · rw [if_pos hr]
          exact ⟨fun h0 => absurd h0 hr, hi⟩
  | bye =>
    simp only [step, bye]
    split
    · exact ⟨fun h0 => (by cases h0), fun h0 => (by cases h0)⟩
    · exact ⟨fun h0 => (by cases h0), fun h0 => (by cases h0)⟩

/-- No allocation of a task fails when we are the active side. -/
def Lucky : List Ev → Prop
  | [] => True
  | .recv _ m :: h => (m = true ∨ (run h).active = false) ∧ Lucky h
  | .mode _ _ _ m :: h => m = true ∧ Lucky h
  | _ :: h => Lucky h

/-- **C88** (the handshake is retransmitted): whatever packets, roles, timeouts and cancellations there have been, in any order
and with the timer thread anywhere, while the handshake goes on and OpenSSL wants a timeout, a task is in the queue or has been
taken by the timer thread, and the connection knows of it.  Missing: `tls_connect` does not look at the failure of an
allocation. -/
theorem C88_retransmitted_partial (h : List Ev) (hl : Lucky h) (hc : (run h).rdc = .connecting)
    (hw : (run h).wants = true) :
    ∃ t, (run h).ttp = some t ∧ (t ∈ (run h).queue ∨ (run h).flight = some t) := by
  have key : ∀ h, Lucky h → Armed (run h) ∧ ((run h).rdc = .init → (run h).wants = false) := by
    intro h
    induction h with
    | nil => intro _; exact ⟨fun h0 => (by cases h0), fun _ => rfl⟩
    | cons e h ih =>
      intro hl
      have hl' : Lucky h := by cases e <;> first | exact hl.2 | exact hl
      obtain ⟨a, b⟩ := ih hl'
      refine armed_step a b e ?_
      cases e <;> first | exact hl.1 | trivial
  obtain ⟨t, ht⟩ := Option.ne_none_iff_exists'.mp ((key h hl).1 hc hw)
  exact ⟨t, ht, (run_inv h).live t ht⟩

/-- What of the timer still holds the connection: each task has a reference to it (rtpp_timed.c:244-247). -/
def refs (s : St) : Nat := s.queue.length + (if s.flight = none then 0 else 1)

theorem dead_step {s : St} (hd : s.rdc = .dead) (ht : s.ttp = none) (e : Ev) :
    (step s e).rdc = .dead ∧ (step s e).ttp = none ∧ refs (step s e) ≤ refs s ∧ (∀ t ∈ (step s e).queue, t ∈ s.queue) ∧
      (∀ f w m, e = .fire f w m → s.flight ≠ none → refs (step s e) + 1 = refs s) := by
  cases e with
  | recv g m =>
    have : step s (.recv g m) = s := by simp [step, recv, hd]
    rw [this]
    exact ⟨hd, ht, Nat.le_refl _, fun _ h => h, nofun⟩
  | mode a f w m =>
    simp only [step, setMode]
    split
    · exact ⟨hd, ht, Nat.le_refl _, fun _ h => h, nofun⟩
    · rw [if_neg (by simp [hd])]
      exact ⟨hd, ht, Nat.le_refl _, fun _ h => h, nofun⟩
  | take t =>
    simp only [step]
    split
    · rename_i hc
      refine ⟨hd, ht, ?_, fun x hx => List.mem_of_mem_erase hx, nofun⟩
      have hp : 0 < s.queue.length := List.length_pos_of_mem hc.2
      simp only [refs, List.length_erase_of_mem hc.2, hc.1, if_true, reduceCtorEq, if_false]
      omega
    · exact ⟨hd, ht, Nat.le_refl _, fun _ h => h, nofun⟩
  | fire f w m =>
    simp only [step, fire]
    cases hf : s.flight with
    | none =>
      simp only
      exact ⟨hd, ht, Nat.le_refl _, fun _ h => h, fun _ _ _ _ h => absurd rfl h⟩
    | some x =>
      simp only [ht]
      refine ⟨hd, trivial, ?_, fun _ h => h, fun _ _ _ _ _ => ?_⟩
      · simp [refs, hf]
      · simp [refs, hf]
  | bye =>
    have : step s .bye = s := by
      simp only [step, bye, ht]
      cases s
      simp only at hd ht
      subst hd
      subst ht
      rfl
    rw [this]
    exact ⟨hd, ht, Nat.le_refl _, fun _ h => h, nofun⟩

theorem bye_state (s : St) : (bye s).rdc = .dead ∧ (bye s).ttp = none := by
  unfold bye
  cases ht : s.ttp
  · exact ⟨rfl, rfl⟩
  · exact ⟨rfl, rfl⟩

/-- **C88** (nothing after): once the connection has been ended it stays dead, no timer is set any more, and those there may
still be are among the ones there were; each that comes lets go of the connection and does nothing else. -/
theorem C88_after (h' h : List Ev) :
    (run (h' ++ .bye :: h)).rdc = .dead ∧ (run (h' ++ .bye :: h)).ttp = none ∧
      refs (run (h' ++ .bye :: h)) ≤ refs (run (.bye :: h)) ∧
      (∀ t ∈ (run (h' ++ .bye :: h)).queue, t ∈ (run (.bye :: h)).queue) ∧
      (∀ f w m, (run (h' ++ .bye :: h)).flight ≠ none →
        refs (run (.fire f w m :: (h' ++ .bye :: h))) + 1 = refs (run (h' ++ .bye :: h))) := by
  have key : (run (h' ++ .bye :: h)).rdc = .dead ∧ (run (h' ++ .bye :: h)).ttp = none ∧
      refs (run (h' ++ .bye :: h)) ≤ refs (run (.bye :: h)) ∧
      (∀ t ∈ (run (h' ++ .bye :: h)).queue, t ∈ (run (.bye :: h)).queue) := by
    induction h' with
    | nil => exact ⟨(bye_state _).1, (bye_state _).2, Nat.le_refl _, fun _ h => h⟩
    | cons e h' ih =>
      obtain ⟨a, b, c, d⟩ := ih
      obtain ⟨a', b', c', d', -⟩ := dead_step a b e
      exact ⟨a', b', Nat.le_trans c' c, fun t ht => d t (d' t ht)⟩
  obtain ⟨a, b, c, d⟩ := key
  exact ⟨a, b, c, d, fun f w m hf => (dead_step a b (.fire f w m)).2.2.2.2 f w m rfl hf⟩

/-- No callback comes for a task that has been cancelled and replaced. -/
def Calm : List Ev → Prop
  | [] => True
  | .fire _ _ _ :: h => ((run h).ttp = none ∨ (run h).flight = none ∨ (run h).flight = (run h).ttp) ∧ Calm h
  | _ :: h => Calm h

theorem check_one {s : St} {w m : Bool} (h : ∀ t ∈ s.queue, s.ttp = some t) (hn : s.queue.Nodup) :
    ∀ t ∈ (checkTimer s w m).2.queue, (checkTimer s w m).2.ttp = some t := by
  unfold checkTimer
  cases w
  · cases ht : s.ttp with
    | none =>
      intro t hq
      exact absurd (h t hq) (by simp [ht])
    | some x =>
      intro t hq
      simp only [Bool.false_eq_true, if_false] at hq
      obtain ⟨h1, h2⟩ := (List.Nodup.mem_erase_iff hn).mp hq
      have := h t h2
      rw [ht, Option.some.injEq] at this
      exact absurd this.symm h1
  · cases ht : s.ttp with
    | none =>
      have he : s.queue = [] := List.eq_nil_iff_forall_not_mem.mpr fun t hq => absurd (h t hq) (by simp [ht])
      cases m
      · intro t hq
        simp only [if_true, Bool.false_eq_true, if_false, he] at hq
        cases hq
      · intro t hq
        simp only [if_true, he, List.nil_append, List.mem_singleton] at hq
        simp [hq]
    | some x =>
      intro t hq
      simp only [if_true] at hq ⊢
      rw [← ht]
      exact h t hq

/-- **C88** (one timer): if no callback comes for a task that has been cancelled and replaced, the connection never has more
than one task in the queue, and it is the one it knows of and can cancel. -/
theorem C88_one_partial (h : List Ev) (hc : Calm h) :
    (run h).queue.length ≤ 1 ∧ ∀ t ∈ (run h).queue, (run h).ttp = some t := by
  have key : ∀ h, Calm h → ∀ t ∈ (run h).queue, (run h).ttp = some t := by
    intro h
    induction h with
    | nil => intro _ t ht; cases ht
    | cons e h ih =>
      intro hc
      have hc' : Calm h := by cases e <;> first | exact hc.2 | exact hc
      have i := ih hc'
      have hn := (run_inv h).nodup
      have ha := (run_inv h).apart
      have hcf : ∀ f w m, e = .fire f w m →
          ((run h).ttp = none ∨ (run h).flight = none ∨ (run h).flight = (run h).ttp) := by
        intro f w m he
        subst he
        exact hc.1
      show ∀ t ∈ (step (run h) e).queue, (step (run h) e).ttp = some t
      revert i hn ha hcf
      generalize run h = s
      intro i hn ha hcf
      cases e with
      | recv g m =>
        simp only [step, recv]
        split
        · exact i
        · have i1 : (∀ t ∈ (if s.rdc = .init then { s with rdc := .connecting } else s).queue,
              (if s.rdc = .init then { s with rdc := .connecting } else s).ttp = some t) ∧
              (if s.rdc = .init then { s with rdc := .connecting } else s).queue.Nodup := by
            split <;> exact ⟨i, hn⟩
          revert i1
          generalize (if s.rdc = .init then { s with rdc := .connecting } else s) = s1
          rintro ⟨i1, n1⟩
          cases g with
          | nothing => exact i1
          | step f w o g =>
            simp only
            split
            · exact i1
            · have i2 : ∀ t ∈ (if s1.active then tlsConnect s1 f w m else tlsAccept s1 f w m).2.queue,
                  (if s1.active then tlsConnect s1 f w m else tlsAccept s1 f w m).2.ttp = some t := by
                unfold tlsConnect tlsAccept
                cases f <;> cases s1.active
                · exact check_one i1 n1
                · exact check_one i1 n1
                · exact i1
                · exact i1
              revert i2
              generalize (if s1.active then tlsConnect s1 f w m else tlsAccept s1 f w m) = r
              intro i2
              repeat' split
              all_goals exact i2
      | mode a f w m =>
        simp only [step, setMode]
        split
        · exact i
        · split
          · unfold tlsConnect
            cases f
            · exact check_one (s := { s with rdc := .connecting }) i hn
            · exact i
          · exact i
      | take t =>
        simp only [step]
        split
        · intro x hx
          exact i x (List.mem_of_mem_erase hx)
        · exact i
      | fire f w m =>
        simp only [step, fire]
        cases hf : s.flight with
        | none => exact i
        | some x =>
          cases ht : s.ttp with
          | none =>
            intro t hq
            exact absurd (i t hq) (by simp [ht])
          | some y =>
            have hxy : x = y := by
              rcases hcf f w m rfl with h1 | h1 | h1
              · rw [ht] at h1; cases h1
              · rw [hf] at h1; cases h1
              · rw [hf, ht, Option.some.injEq] at h1; exact h1
            have he : s.queue = [] := List.eq_nil_iff_forall_not_mem.mpr fun t hq => by
              have h1 := i t hq
              rw [ht, Option.some.injEq] at h1
              rw [← h1, ← hxy] at hq
              exact (ha x hf).1 hq
            simp only
            have i2 : ∀ t ∈ ({ s with flight := none, ttp := none } : St).queue,
                ({ s with flight := none, ttp := none } : St).ttp = some t := by
              intro t hq
              simp only [he] at hq
              cases hq
            have i3 := check_one (w := w) (m := m) i2 hn
            repeat' split
            all_goals first | exact i2 | exact i3
      | bye =>
        simp only [step, bye]
        cases ht : s.ttp with
        | none =>
          intro t hq
          exact absurd (i t hq) (by simp [ht])
        | some x =>
          intro t hq
          obtain ⟨h1, h2⟩ := (List.Nodup.mem_erase_iff hn).mp hq
          have := i t h2
          rw [ht, Option.some.injEq] at this
          exact absurd this.symm h1
  refine ⟨?_, key h hc⟩
  have k := key h hc
  have n := (run_inv h).nodup
  match hq : (run h).queue with
  | [] => simp
  | [_] => simp
  | a :: b :: l =>
    rw [hq] at k n
    have h1 := k a (by simp)
    have h2 := k b (by simp)
    rw [h1, Option.some.injEq] at h2
    subst h2
    simp at n

/-! ## What is not so -/

/-- A task that cannot be allocated in `tls_connect` is not noticed: the connection goes on connecting, OpenSSL wants a timeout,
and there is none, so that a lost message is not sent again. -/
theorem C88_retransmitted_counterexample :
    ∃ h, (run h).rdc = .connecting ∧ (run h).wants = true ∧ (run h).ttp = none ∧ (run h).queue = [] ∧ (run h).flight = none :=
  ⟨[.mode true false true false], by decide⟩

/-- Two tasks: one is taken by the timer thread, cancelled too late, and replaced; its callback takes the new one for its own and
lets go of it, and another is set.  The connection is ended and the task it has lost sight of stays. -/
theorem C88_one_counterexample :
    (run [.fire false true true, .recv (.step false true false true) true, .recv (.step false false false true) true, .take 0,
      .recv (.step false true false true) true]).queue = [1, 2] ∧
    (run [.bye, .fire false true true, .recv (.step false true false true) true, .recv (.step false false false true) true,
      .take 0, .recv (.step false true false true) true]).queue = [1] := by
  decide

end Verif.Dtimer
