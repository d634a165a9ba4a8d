import Verif.Wref.Lemmas

/-!
# C05: weak links
-/

namespace Verif.Wref

/-- **C05, full statement**: for any number of threads and any interleaving, freed target
memory is never touched, an owned reference means the target is alive, and after the
invalidation returned no `getref` succeeds. -/
def C05Statement : Prop :=
  ∀ (h k : Nat) (sched : List (Nat × Act)) (s : State), exec (init h k) sched = some s →
    s.ub = false ∧ (0 < refs s → s.dead = false ∧ s.freed = false) ∧
    ∀ (sched2 : List (Nat × Act)) (s2 : State), s.invDone = true → exec s sched2 = some s2 →
      successes s2 = successes s

/-- Schedule: the owner drops the target, the link is invalidated and the target freed; then
two readers overlap.  The first one's transient increment makes the second one believe the
link is still set, and it dereferences the freed target. -/
def badSched : List (Nat × Act) :=
  [(0, .decref), (0, .cont), (0, .cont), (1, .getref), (2, .getref), (2, .cont)]

/-- The full statement is false: two overlapping readers touch the freed target. -/
theorem C05_overlapping_readers_counterexample : ¬ C05Statement := by
  intro h
  have := (h 0 2 badSched ((exec (init 0 2) badSched).get (by decide)) (by decide)).1
  exact absurd this (by decide)

/-- Even before the link is invalidated, two overlapping readers can make one of them
succeed on a target whose destruction has begun. -/
theorem C05_dying_target_returned_counterexample :
    (exec (init 0 2) [(0, .decref), (1, .getref), (2, .getref), (1, .cont), (2, .cont),
      (2, .cont)]).map (fun s => (s.dead, s.ub, s.ths.map (·.res), refs s)) =
    some (true, false, [[], [], [true]], 1) := by
  decide

/-- **C05 (partial).**  Missing from the full statement: calls of `getref` on one link must
not overlap each other (they may overlap everything else).  Then, for any number of threads
and owners and any interleaving: freed memory is never touched, and as long as anybody owns
a reference - including those returned by `getref` - the target is not being destroyed. -/
theorem C05_weak_link_safe_partial (h k : Nat) (sched : List (Nat × Act))
    (hs : SerialRun (init h k) sched) {s : State} (hx : exec (init h k) sched = some s) :
    s.ub = false ∧ (0 < refs s → s.dead = false ∧ s.freed = false) := by
  have hi := inv_exec sched _ (inv_init h k) hs hx
  refine ⟨hi.ub, ?_⟩
  intro hr
  have e : refs s = Util.tot fH s.ths := rfl
  have hd : s.dead = false := by
    cases hd : s.dead with
    | false => rfl
    | true => have := (hi.deadI hd).1; omega
  refine ⟨hd, ?_⟩
  cases hf : s.freed with
  | false => rfl
  | true =>
    have := hi.invDead (hi.freedInv hf)
    rw [hd] at this; cases this

/-- **C05 (partial).**  Under the same condition, once the invalidation has returned no
further `getref` - later or in flight - succeeds. -/
theorem C05_nothing_after_invalidation_partial (h k : Nat) (sched sched2 : List (Nat × Act))
    (hs : SerialRun (init h k) sched) {s s2 : State} (hx : exec (init h k) sched = some s)
    (hs2 : SerialRun s sched2) (hv : s.invDone = true) (hx2 : exec s sched2 = some s2) :
    successes s2 = successes s :=
  after_exec sched2 s (inv_exec sched _ (inv_init h k) hs hx) hs2 hv hx2

/-- Non-vacuity: a reader obtains the target while the owner releases it, keeps it alive,
releases it; a reader overlapping the invalidation and a later one get nothing. -/
example :
    let sched : List (Nat × Act) :=
      [(1, .getref), (1, .cont), (0, .decref), (1, .cont), (2, .getref), (1, .decref), (2, .cont),
       (1, .cont), (1, .spurious), (2, .cont), (2, .cont), (1, .cont), (1, .cont), (2, .getref),
       (2, .cont)]
    SerialRun (init 0 2) sched ∧ (exec (init 0 2) sched).map
      (fun s => (s.invDone, s.freed, s.ub, s.ths.map (·.res), refs s)) =
        some (true, true, false, [[], [true], [false, false]], 0) := by
  decide

end Verif.Wref
