import Verif.Rwlock.Lemmas
import Mathlib.Tactic.ByContra

/-!
# C33: the reader/writer lock
-/

namespace Verif.Rwlock

open Verif.Util

/-- Thread `i` has the lock in write mode (upgraded and still returning counts). -/
def Writing (s : State) (i : Nat) : Prop := ∃ t, s.ths[i]? = some t ∧ (t.pc = .wHold ∨ t.pc = .upOk)

/-- Thread `i` has the lock in read mode (returning from a lock or a failed upgrade counts). -/
def Reading (s : State) (i : Nat) : Prop :=
  ∃ t, s.ths[i]? = some t ∧ (t.pc = .rHold ∨ t.pc = .rRel ∨ t.pc = .upFail)

/-- The state of every thread as seen by its caller: inside a call or not. -/
def Busy (t : Thr) : Prop := t.pc ≠ .idle ∧ t.pc ≠ .rHold ∧ t.pc ≠ .wHold

theorem n_pos {s : State} {i : Nat} {t : Thr} {p : Pc} (h : s.ths[i]? = some t) (hp : t.pc = p) : 1 ≤ s.n p := by
  have := tot_ge (ind p) s.ths i t h
  simpa [ind, hp, State.n] using this

theorem n_two {s : State} {i j : Nat} {t u : Thr} {p : Pc} (hij : i ≠ j) (h : s.ths[i]? = some t) (h' : s.ths[j]? = some u)
    (hp : t.pc = p) (hq : u.pc = p) : 2 ≤ s.n p := by
  have := tot_two (ind p) s.ths i j t u hij h h'
  simpa [ind, hp, hq, State.n] using this

theorem n_ex {s : State} {p : Pc} (h : s.n p ≠ 0) : ∃ (i : Nat) (t : Thr), s.ths[i]? = some t ∧ t.pc = p := by
  obtain ⟨j, u, h1, h2⟩ := exists_of_tot_pos (ind p) s.ths h
  refine ⟨j, u, h1, ?_⟩
  by_contra hc
  exact h2 (by simp [ind, hc])

/-- For any number of threads and any interleaving: while one thread has the lock for writing, no other thread has
it in any mode. -/
theorem C33_exclusion (k : Nat) (sched : List (Nat × Act)) (s : State) (h : exec (init k) sched = some s)
    (i j : Nat) (hij : i ≠ j) (hw : Writing s i) : ¬ Writing s j ∧ ¬ Reading s j := by
  have hi := inv_exec sched (inv_init k) h
  have b := bit_le s.wl
  have w := hi.w
  obtain ⟨t, ht, hp⟩ := hw
  constructor
  · rintro ⟨u, hu, hq⟩
    rcases hp with hp | hp <;> rcases hq with hq | hq
    · have := n_two hij ht hu hp hq; omega
    · have h1 := n_pos ht hp; have h2 := n_pos hu hq; omega
    · have h1 := n_pos ht hp; have h2 := n_pos hu hq; omega
    · have := n_two hij ht hu hp hq; omega
  · rintro ⟨u, hu, hq⟩
    have h2 : s.n .rHold + s.n .rRel + s.n .upFail ≠ 0 := by
      rcases hq with hq | hq | hq <;> have := n_pos hu hq <;> omega
    have h1 : s.n .wHold + s.n .upOk ≠ 0 := by
      rcases hp with hp | hp <;> have := n_pos ht hp <;> omega
    omega

/-- Two readers at once, then a writer, then an upgraded reader: exclusion is about reachable situations. -/
example : (exec (init 3) [(0, .lockRd), (0, .cont), (0, .cont), (1, .lockRd), (1, .cont), (2, .lockWr), (2, .cont)]).map
    (fun s => s.ths.map (·.pc)) = some [.rHold, .rHold, .wWait] := by decide

/-- A successful upgrade turns a read hold into a write hold in one step: nobody else had the lock in any mode just
before it, nor has just after, and the upgrading thread is never without it. -/
theorem C33_upgrade_atomic (k : Nat) (sched : List (Nat × Act)) (s s' : State) (i : Nat)
    (h : exec (init k) sched = some s) (hs : step s i .upgrade = some s') :
    Reading s i ∧
    ((Writing s' i ∧ ∀ j, j ≠ i → ¬ Reading s j ∧ ¬ Writing s j ∧ ¬ Reading s' j ∧ ¬ Writing s' j) ∨
     (Reading s' i ∧ (∃ t, s'.ths[i]? = some t ∧ t.res.head? = some false) ∧ ∀ j, j ≠ i → s'.ths[j]? = s.ths[j]?)) := by
  have hi := inv_exec sched (inv_init k) h
  have hi' := inv_step hi hs
  unfold step at hs
  cases ht : s.ths[i]? with
  | none => simp [ht] at hs
  | some t =>
    simp only [ht] at hs
    have hlen : i < s.ths.length := (List.getElem?_eq_some_iff.1 ht).1
    have hp : t.pc = .rHold := by
      cases hp : t.pc <;> simp only [hp] at hs <;> (first | rfl | cases hs)
    simp only [hp] at hs
    by_cases hc : s.cnt ≠ none
    · rw [if_pos hc] at hs; cases hs
    rw [if_neg hc] at hs
    refine ⟨⟨t, ht, .inl hp⟩, ?_⟩
    by_cases hb : s.nwriters > 0 ∨ s.nreaders > 1
    · rw [if_pos hb, Option.some.injEq] at hs
      subst hs
      right
      refine ⟨⟨_, List.getElem?_set_self hlen, .inr (.inr rfl)⟩, ⟨_, List.getElem?_set_self hlen, rfl⟩, ?_⟩
      intro j hj
      exact List.getElem?_set_ne (Ne.symm hj)
    · rw [if_neg hb, Option.some.injEq] at hs
      subst hs
      left
      refine ⟨⟨_, List.getElem?_set_self hlen, .inr rfl⟩, ?_⟩
      have n1 := hi.nr
      have n2 := hi.nw
      have n3 := n_pos ht hp
      have key : ∀ j, j ≠ i → ∀ u, s.ths[j]? = some u →
          u.pc ≠ .rHold ∧ u.pc ≠ .rRel ∧ u.pc ≠ .upFail ∧ u.pc ≠ .wHold ∧ u.pc ≠ .upOk := by
        intro j hj u hu
        refine ⟨?_, ?_, ?_, ?_, ?_⟩ <;> intro hq
        · have := n_two (Ne.symm hj) ht hu hp hq; omega
        all_goals (have := n_pos hu hq; omega)
      intro j hj
      have hsame : (s.ths.set i { t with pc := .upOk, res := true :: t.res })[j]? = s.ths[j]? :=
        List.getElem?_set_ne (Ne.symm hj)
      refine ⟨?_, ?_, ?_, ?_⟩
      · rintro ⟨u, hu, hq⟩
        obtain ⟨a1, a2, a3, a4, a5⟩ := key j hj u hu
        rcases hq with hq | hq | hq <;> contradiction
      · rintro ⟨u, hu, hq⟩
        obtain ⟨a1, a2, a3, a4, a5⟩ := key j hj u hu
        rcases hq with hq | hq <;> contradiction
      · rintro ⟨u, hu, hq⟩
        obtain ⟨a1, a2, a3, a4, a5⟩ := key j hj u (hsame ▸ hu)
        rcases hq with hq | hq | hq <;> contradiction
      · rintro ⟨u, hu, hq⟩
        obtain ⟨a1, a2, a3, a4, a5⟩ := key j hj u (hsame ▸ hu)
        rcases hq with hq | hq <;> contradiction

/-- An upgrade that succeeds, and one that fails because a writer is waiting. -/
example : (exec (init 2) [(0, .lockRd), (0, .cont), (0, .cont), (0, .upgrade), (0, .cont), (1, .lockWr)]).map
      (fun s => s.ths.map (fun t => (t.pc, t.res))) = some [(.wHold, [true]), (.wRel, [])] ∧
    (exec (init 2) [(0, .lockRd), (0, .cont), (0, .cont), (1, .lockWr), (1, .cont), (0, .upgrade), (0, .cont)]).map
      (fun s => s.ths.map (fun t => (t.pc, t.res))) = some [(.rHold, [false]), (.wWait, [])] := by decide

/-- No deadlock inside the lock: whenever a thread is inside a call, either some thread inside a call can move, or
some thread is outside a call and holds the lock (so that its `unlock` is awaited). -/
theorem C33_no_deadlock (k : Nat) (sched : List (Nat × Act)) (s : State) (h : exec (init k) sched = some s)
    (i : Nat) (t : Thr) (ht : s.ths[i]? = some t) (hb : Busy t) :
    (∃ (j : Nat) (u : Thr) (s' : State), s.ths[j]? = some u ∧ Busy u ∧ step s j .cont = some s') ∨
    (∃ (j : Nat) (u : Thr), s.ths[j]? = some u ∧ (u.pc = .rHold ∨ u.pc = .wHold)) := by
  have hi := inv_exec sched (inv_init k) h
  have hc := hi.c
  have w := hi.w
  have nr := hi.nr
  have hrw := hi.rw
  -- a thread at one of these positions can always move
  have free : ∀ (j : Nat) (u : Thr), s.ths[j]? = some u → (u.pc = .rRel ∨ u.pc = .wRel ∨ u.pc = .uwRel ∨ u.pc = .urWl ∨ u.pc = .urRel ∨
      u.pc = .upFail ∨ u.pc = .upOk) → ∃ (j : Nat) (u : Thr) (s' : State), s.ths[j]? = some u ∧ Busy u ∧ step s j .cont = some s' := by
    intro j u hu hp
    rcases hp with hp | hp | hp | hp | hp | hp | hp <;>
      exact ⟨j, u, _, hu, by simp [Busy, hp], by simp only [step, hu, hp]; rfl⟩
  by_cases hfree : s.n .rRel + s.n .wRel + s.n .uwRel + s.n .urWl + s.n .urRel + s.n .upFail + s.n .upOk = 0
  · by_cases hrh : s.n .rHold = 0
    · by_cases hwh : s.n .wHold = 0
      · have hwl : s.wl = none := by
          cases hw : s.wl with
          | none => rfl
          | some x => rw [hw] at w; simp only [bit] at w; omega
        left
        by_cases hrw : s.n .rWait = 0
        · have hcn : s.cnt = none := by
            cases hw : s.cnt with
            | none => rfl
            | some x => rw [hw] at hc; simp only [bit] at hc; omega
          obtain ⟨b1, b2, b3⟩ := hb
          have hp : t.pc = .uwCnt ∨ t.pc = .wWait := by
            cases hp : t.pc <;> (try (exact absurd hp b1)) <;> (try (exact absurd hp b2)) <;> (try (exact absurd hp b3)) <;>
              (first | (exact .inl rfl) | (exact .inr rfl) | (have := n_pos ht hp; omega))
          rcases hp with hp | hp
          · exact ⟨i, t, _, ht, by simp [Busy, hp], by simp only [step, ht, hp, hcn]; rfl⟩
          · exact ⟨i, t, _, ht, by simp [Busy, hp], by simp only [step, ht, hp, hwl]; rfl⟩
        · obtain ⟨j, u, hu, hp⟩ := n_ex hrw
          exact ⟨j, u, _, hu, by simp [Busy, hp], by simp only [step, hu, hp, hwl]; rfl⟩
      · right
        obtain ⟨j, u, hu, hp⟩ := n_ex hwh
        exact ⟨j, u, hu, .inr hp⟩
    · right
      obtain ⟨j, u, hu, hp⟩ := n_ex hrh
      exact ⟨j, u, hu, .inl hp⟩
  · left
    have : ∃ p, (p = .rRel ∨ p = .wRel ∨ p = .uwRel ∨ p = .urWl ∨ p = .urRel ∨ p = .upFail ∨ p = Pc.upOk) ∧ s.n p ≠ 0 := by
      by_contra hcon
      apply hfree
      have z : ∀ p, (p = .rRel ∨ p = .wRel ∨ p = .uwRel ∨ p = .urWl ∨ p = .urRel ∨ p = .upFail ∨ p = Pc.upOk) → s.n p = 0 := by
        intro p hp
        by_contra hz
        exact hcon ⟨p, hp, hz⟩
      rw [z .rRel (by simp), z .wRel (by simp), z .uwRel (by simp), z .urWl (by simp), z .urRel (by simp),
        z .upFail (by simp), z .upOk (by simp)]
    obtain ⟨p, hp, hn⟩ := this
    obtain ⟨j, u, hu, hq⟩ := n_ex hn
    exact free j u hu (by rw [hq]; exact hp)

/-- A holder can always give the lock back without waiting for anything but the short counter section: with
`cnt_lock` free its `unlock` is enabled. -/
theorem unlock_enabled (s : State) (i : Nat) (t : Thr) (ht : s.ths[i]? = some t)
    (hp : (t.pc = .rHold ∧ s.cnt = none) ∨ t.pc = .wHold) : ∃ s', step s i .unlock = some s' := by
  rcases hp with ⟨hp, hc⟩ | hp
  · exact ⟨_, by simp only [step, ht, hp, hc]; rfl⟩
  · exact ⟨_, by simp only [step, ht, hp]; rfl⟩

example : ∃ s, exec (init 2) [(0, .lockWr), (0, .cont), (0, .cont), (1, .lockRd)] = some s ∧
    (∃ t, s.ths[1]? = some t ∧ Busy t) ∧ s.ths.map (·.pc) = [.wHold, .rWait] ∧ (step s 1 .cont).isNone ∧
    (step s 0 .unlock).isSome := by
  refine ⟨_, rfl, ⟨_, rfl, ?_⟩, ?_⟩
  · unfold Busy; decide
  · decide

/-- The exclusion rests on one thread unlocking a mutex another one locked, which POSIX leaves undefined for the
default mutex type: the reader that came first locks `write_lock`, the one that leaves last unlocks it. -/
theorem C33_foreign_unlock_counterexample :
    ¬ ∀ (k : Nat) (sched : List (Nat × Act)) (s : State), exec (init k) sched = some s → s.foreign = false := by
  intro h
  have := h 2 [(0, .lockRd), (0, .cont), (0, .cont), (1, .lockRd), (1, .cont), (0, .unlock), (0, .cont), (1, .unlock),
    (1, .cont)] _ rfl
  exact absurd this (by decide)

end Verif.Rwlock
