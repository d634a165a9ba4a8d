import Verif.Conns.Locks

/-!
# C50: the two threads exclude each other and wait for each other
-/

namespace Verif.Conns

/-- The places where the table is used. -/
def APc.inTable (a : APc) : Prop := a = .unlockC ∨ a = .add

def WPc.inTable (w : WPc) : Prop := w = .poll ∨ w = .read ∨ w = .proc ∨ w = .chk ∨ w = .unlock

/-- What holds in every state that can be reached. -/
structure LInv (s : LSt) : Prop where
  cmdA : s.cmd = some .acceptor ↔ (s.a = .write ∨ s.a = .lockP ∨ s.a = .unlockC)
  cmdW : s.cmd ≠ some .worker
  pfdsA : s.pfds = some .acceptor ↔ s.a.inTable
  pfdsW : s.pfds = some .worker ↔ s.w.inTable
  wake : s.a = .lockP → (s.w = .lockP ∨ s.w = .poll ∨ s.w = .read) → 0 < s.wake
  rd : s.w = .read → 0 < s.wake

theorem linv_start : LInv lstart := by
  constructor <;> simp [lstart, APc.inTable, WPc.inTable]

theorem linv_step (cap : Nat) (ovl : Bool) (s s' : LSt) (l : Lab) (h : LInv s) (hs : lstep cap ovl s l = some s') : LInv s' := by
  obtain ⟨a, w, m, cmd, pfds, wake, cease⟩ := s
  obtain ⟨h1, h2, h3, h4, h5, h6⟩ := h
  simp only [APc.inTable, WPc.inTable] at h1 h2 h3 h4 h5 h6
  cases l <;> simp only [lstep] at hs <;> split at hs <;> try cases hs
  all_goals rename_i hc
  all_goals first
    | (constructor <;> simp_all [APc.inTable, WPc.inTable] <;> done)
    | (rename_i ok; cases ok <;> constructor <;> simp_all [APc.inTable, WPc.inTable] <;> omega)
    | (cases cease <;> constructor <;> simp_all [APc.inTable, WPc.inTable] <;> omega)
    | (constructor <;> simp_all [APc.inTable, WPc.inTable] <;> omega)

theorem linv_run (cap : Nat) (ovl : Bool) (ls : List Lab) : ∀ s s', LInv s → lrun cap ovl s ls = some s' → LInv s' := by
  induction ls with
  | nil =>
    intro s s' h e
    cases e
    exact h
  | cons l ls ih =>
    intro s s' h e
    simp only [lrun] at e
    split at e
    · cases e
    · rename_i s1 h1
      exact ih s1 s' (linv_step cap ovl s s1 l h h1) e

theorem nochk_step (cap : Nat) (s s' : LSt) (l : Lab) (h : s.w ≠ .chk) (hs : lstep cap false s l = some s') : s'.w ≠ .chk := by
  cases l <;> simp only [lstep] at hs <;> split at hs <;> try cases hs
  all_goals first
    | exact h
    | (simp; done)
    | (rename_i ok _; cases ok <;> first | exact h | (simp; done))
    | (dsimp only; split <;> (simp; done))
    | (simp_all; done)

theorem nochk_run (cap : Nat) (ls : List Lab) : ∀ s s', s.w ≠ .chk → lrun cap false s ls = some s' → s'.w ≠ .chk := by
  induction ls with
  | nil =>
    intro s s' h e
    cases e
    exact h
  | cons l ls ih =>
    intro s s' h e
    simp only [lrun] at e
    split at e
    · cases e
    · rename_i s1 h1
      exact ih s1 s' (nochk_step cap s s1 l h h1) e

/-- At most one of the two threads uses the table at any time. -/
theorem C50_exclusive (cap : Nat) (ovl : Bool) (ls : List Lab) (s : LSt) (h : lrun cap ovl lstart ls = some s) :
    ¬ (s.a.inTable ∧ s.w.inTable) := by
  have hi := linv_run cap ovl ls _ _ linv_start h
  rintro ⟨h1, h2⟩
  have e1 := hi.pfdsA.2 h1
  have e2 := hi.pfdsW.2 h2
  rw [e1] at e2
  cases e2

/-- No thread can do anything any more. -/
def Dead (cap : Nat) (ovl : Bool) (s : LSt) : Prop := ∀ l, lstep cap ovl s l = none

/-- Steps the threads do by themselves lead to a state where step `l` can be done, and there are at most `n` of them. -/
def Soon (n cap : Nat) (ovl : Bool) (s : LSt) (l : Lab) : Prop :=
  ∃ ls s', ls.length ≤ n ∧ (∀ x ∈ ls, x.own = true) ∧ lrun cap ovl s ls = some s' ∧ (lstep cap ovl s' l).isSome

/-- Without overload protection an accepted connection always gets into the table, without any client having to send something: whoever waits for
a lock gets it within five steps the two threads can do by themselves.  The exception is a command thread that waits for `cmd_mutex` while the
accepting thread, which has it, waits in `write` because the wake-up socket is full. -/
theorem C50_waiting_partial (cap : Nat) (ls : List Lab) (s : LSt) (h : lrun cap false lstart ls = some s) :
    (s.a = .lockP → Soon 5 cap false s .aLockP) ∧
    (s.a = .took → Soon 5 cap false s .aLockC) ∧
    (s.w = .lockP → Soon 5 cap false s .wLockP) ∧
    (s.w = .top → ¬ (s.a = .write ∧ cap ≤ s.wake) → Soon 5 cap false s .wTop) := by
  have hi := linv_run cap false ls _ _ linv_start h
  have hn := nochk_run cap ls _ _ (by simp [lstart]) h
  obtain ⟨a, w, m, cmd, pfds, wake, cease⟩ := s
  obtain ⟨h1, h2, h3, h4, h5, h6⟩ := hi
  simp only [APc.inTable, WPc.inTable] at h1 h2 h3 h4 h5 h6
  have hc : cmd = none ∨ cmd = some .acceptor := by
    rcases cmd with _ | _ | _
    · exact .inl rfl
    · exact .inr rfl
    · exact absurd rfl h2
  refine ⟨?_, ?_, ?_, ?_⟩
  · intro ha
    simp only at ha
    subst ha
    have hp : pfds = none ∨ pfds = some .worker := by
      rcases pfds with _ | _ | _
      · exact .inl rfl
      · simp at h3
      · exact .inr rfl
    have hcmd : cmd = some .acceptor := h1.2 (by simp)
    subst hcmd
    cases w with
    | top => exact ⟨[], _, by simp, by simp, rfl, by simp at h4; rcases hp with e | e <;> simp_all [lstep]⟩
    | lockP => exact ⟨[], _, by simp, by simp, rfl, by simp at h4; rcases hp with e | e <;> simp_all [lstep]⟩
    | poll =>
      have hw : 0 < wake := h5 rfl (by simp)
      exact ⟨[.wPoll true, .wRead, .wDone, .wUnlock], _, by simp, by decide, by simp [lrun, lstep, hw]; rfl, by simp [lstep]⟩
    | read => exact ⟨[.wRead, .wDone, .wUnlock], _, by simp, by decide, by simp [lrun, lstep]; rfl, by simp [lstep]⟩
    | proc => exact ⟨[.wDone, .wUnlock], _, by simp, by decide, by simp [lrun, lstep]; rfl, by simp [lstep]⟩
    | chk => exact absurd rfl hn
    | unlock => exact ⟨[.wUnlock], _, by simp, by decide, by simp [lrun, lstep]; rfl, by simp [lstep]⟩
    | exit => exact ⟨[], _, by simp, by simp, rfl, by simp at h4; rcases hp with e | e <;> simp_all [lstep]⟩
  · intro ha
    simp only at ha
    subst ha
    have hcmd : cmd = none := by
      rcases hc with e | e
      · exact e
      · have := h1.1 e
        simp at this
    subst hcmd
    exact ⟨[], _, by simp, by simp, rfl, by simp [lstep]⟩
  · intro hw
    simp only at hw
    subst hw
    have hp : pfds = none ∨ pfds = some .acceptor := by
      rcases pfds with _ | _ | _
      · exact .inl rfl
      · exact .inr rfl
      · simp at h4
    rcases hp with rfl | rfl
    · exact ⟨[], _, by simp, by simp, rfl, by simp [lstep]⟩
    · rcases h3.1 rfl with rfl | rfl
      · exact ⟨[.aUnlockC, .aAdd true], _, by simp, by decide, by simp [lrun, lstep]; rfl, by simp [lstep]⟩
      · exact ⟨[.aAdd true], _, by simp, by decide, by simp [lrun, lstep]; rfl, by simp [lstep]⟩
  · intro hw hfull
    simp only at hw
    subst hw
    rcases hc with rfl | rfl
    · exact ⟨[], _, by simp, by simp, rfl, by simp [lstep]⟩
    · rcases h1.1 rfl with rfl | rfl | rfl
      · have hlt : wake < cap := by
          simp only [true_and] at hfull
          omega
        have hp : pfds = none := by
          rcases pfds with _ | _ | _
          · rfl
          · simp at h3
          · simp at h4
        subst hp
        exact ⟨[.aWrite true, .aLockP, .aUnlockC], _, by simp, by decide, by simp [lrun, lstep, hlt]; rfl, by simp [lstep]⟩
      · have hp : pfds = none := by
          rcases pfds with _ | _ | _
          · rfl
          · simp at h3
          · simp at h4
        subst hp
        exact ⟨[.aLockP, .aUnlockC], _, by simp, by decide, by simp [lrun, lstep]; rfl, by simp [lstep]⟩
      · exact ⟨[.aUnlockC], _, by simp, by decide, by simp [lrun, lstep]; rfl, by simp [lstep]⟩

/-- A client connects while the command thread processes a command of another one that makes a new session, with overload protection on: the
accepting thread has `cmd_mutex` and waits for `pfds_mutex`, the command thread has `pfds_mutex` and waits for `cmd_mutex`.  Nothing happens any
more. -/
theorem C50_overload_counterexample (cap : Nat) (hcap : 0 < cap) : ∃ ls s, lrun cap true lstart ls = some s ∧ Dead cap true s := by
  refine ⟨[.wTop, .wLockP, .wPoll false, .aCheck, .aAccept, .aLockC, .aWrite true, .wOvl], ⟨.lockP, .chk, .run, some .acceptor, some .worker, 1,
    false⟩, ?_, ?_⟩
  · simp [lrun, lstep, lstart, hcap]
  · intro l
    cases l <;> simp [lstep]

/-- One connection accepted, and one turn of the command thread. -/
def cycle : List Lab :=
  [.aCheck, .aAccept, .aLockC, .aWrite true, .aLockP, .aUnlockC, .aAdd true, .wTop, .wLockP, .wPoll true, .wRead, .wDone, .wUnlock, .aNote,
   .aNoteW true, .aDone]

theorem lrun_append (cap : Nat) (ovl : Bool) (l1 l2 : List Lab) (s : LSt) :
    lrun cap ovl s (l1 ++ l2) = (lrun cap ovl s l1).bind fun s' => lrun cap ovl s' l2 := by
  induction l1 generalizing s with
  | nil => rfl
  | cons l ls ih =>
    simp only [List.cons_append, lrun]
    cases lstep cap ovl s l with
    | none => rfl
    | some s' => exact ih s'

theorem lrun_cycle (cap n : Nat) (h : n < cap) :
    lrun cap false ⟨.check, .top, .run, none, none, n, false⟩ cycle = some ⟨.check, .top, .run, none, none, n + 1, false⟩ := by
  simp [cycle, lrun, lstep, h]

theorem lrun_cycles (cap k : Nat) (h : k ≤ cap) :
    lrun cap false lstart ((List.replicate k cycle).flatten) = some ⟨.check, .top, .run, none, none, k, false⟩ := by
  induction k with
  | zero => rfl
  | succ k ih =>
    rw [List.replicate_succ', List.flatten_append, lrun_append, ih (by omega)]
    simpa using lrun_cycle cap k (by omega)

/-- Each connection accepted writes two messages, and each turn of the command thread reads one.  However much the wake-up socket holds, there is
an execution in which the command thread has a turn for every connection accepted, and in which at last the accepting thread waits in `write` with
`cmd_mutex` held, and the command thread, which would have to read, waits for `cmd_mutex`.  Nothing happens any more. -/
theorem C50_full_counterexample (cap : Nat) : ∃ s,
    lrun cap false lstart ((List.replicate cap cycle).flatten ++ [.aCheck, .aAccept, .aLockC]) = some s ∧ Dead cap false s := by
  refine ⟨⟨.write, .top, .run, some .acceptor, none, cap, false⟩, ?_, ?_⟩
  · rw [lrun_append, lrun_cycles cap cap (Nat.le_refl _)]
    simp [lrun, lstep]
  · intro l
    cases l <;> simp [lstep]

end Verif.Conns
