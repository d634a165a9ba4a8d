import Verif.Refcnt.Lemmas

/-!
# C03, C04: reference counting
-/

namespace Verif.Refcnt

variable {D : Type}

/-- **C03** For any number of threads and any interleaving of acquire, release, attach and
hand-over steps by threads that own a reference: no destructor runs while any reference is
owned; the destructors run so far are a prefix of the attached ones in reverse order of
attachment; when no reference is left and no thread is inside a call, exactly all attached
destructors have run, once each, in reverse order; freed memory is never accessed. -/
theorem C03_destroyed_once_at_last_release (k : Nat) (ds : List D) (hds : ds.length ≤ maxDtors)
    (sched : List (Nat × Act D)) (hs : NoTry sched) {s : State D}
    (hx : exec (init k ds) sched = some s) :
    s.ub = false ∧ (0 < refs s → s.log = []) ∧ s.log <+: s.att.reverse ∧
      (refs s = 0 → Quiet s → s.log = s.att.reverse) := by
  have h := inv_exec sched (inv_init k ds hds) (allowed_of_noTry sched hs) hx
  exact ⟨h.ub, h.alive_log, h.log_prefix, h.final⟩

/-- **C03** Exactly one thread ever becomes the destroyer: in every reachable state at most
one thread is executing destructors, and then no thread owns a reference. -/
theorem C03_single_destroyer (k : Nat) (ds : List D) (hds : ds.length ≤ maxDtors)
    (sched : List (Nat × Act D)) (hs : NoTry sched) {s : State D}
    (hx : exec (init k ds) sched = some s) :
    (s.ths.map (fun t => if Pc.isFin t.pc then 1 else 0)).sum ≤ 1 ∧
      (0 < (s.ths.map (fun t => if Pc.isFin t.pc then 1 else 0)).sum → refs s = 0) := by
  have h := inv_exec sched (inv_init k ds hds) (allowed_of_noTry sched hs) hx
  exact h.single

/-- **C03** Once the last reference is gone, the thread that released it can run the
destructors to completion on its own, whatever the others do or do not do. -/
theorem C03_destroyer_completes (k : Nat) (ds : List D) (hds : ds.length ≤ maxDtors)
    (sched : List (Nat × Act D)) (hs : NoTry sched) {s : State D}
    (hx : exec (init k ds) sched = some s) (h0 : refs s = 0) :
    ∃ j m s', exec s (List.replicate m (j, .cont)) = some s' ∧ s'.log = s'.att.reverse := by
  have h := inv_exec sched (inv_init k ds hds) (allowed_of_noTry sched hs) hx
  refine h.finish (noTry_exec sched _ hs ?_ hx) h0
  intro t ht
  simp only [init, List.mem_cons, List.mem_replicate] at ht
  rcases ht with rfl | ⟨_, rfl⟩ <;> rfl

/-- Non-vacuity of C03: three threads, an attach, hand-overs, a race of two releases. -/
example :
    let sched : List (Nat × Act Nat) :=
      [(0, .incref), (0, .cont), (0, .cont), (0, .give 1), (0, .attach 7), (1, .incref), (0, .cont),
       (1, .cont), (1, .give 2), (0, .decref), (1, .decref), (2, .decref), (1, .cont), (0, .cont),
       (2, .cont), (2, .cont), (2, .cont), (2, .cont), (2, .cont), (2, .cont)]
    NoTry sched ∧ (exec (init 2 [1, 2]) sched).map
      (fun s => (s.log, s.ub, s.freed, refs s)) = some ([7, 2, 1], false, true, 0) := by
  constructor
  · intro e he; revert he; revert e; decide
  · decide

/-- **C04, full statement.**  "Whatever the interleaving, the destructors never start while a
thread owns a reference."  False: see the counterexamples below. -/
def C04Statement : Prop :=
  ∀ (k : Nat) (ds : List Nat), ds.length ≤ maxDtors → ∀ (sched : List (Nat × Act Nat)) (s : State Nat),
    exec (init k ds) sched = some s → s.ub = false → 0 < refs s → s.log = []

/-- The statement is false already for an object that was never shared: the single owner
releases it, the destructors start, and a concurrent conditional acquire reports success. -/
theorem C04_unshared_resurrected_counterexample : ¬ C04Statement := by
  intro h
  have := h 1 [1, 2] (by decide)
    [(0, .decref), (0, .cont), (0, .cont), (1, .tryincref), (1, .cont), (1, .cont)]
    ((exec (init 1 [1, 2]) [(0, .decref), (0, .cont), (0, .cont), (1, .tryincref), (1, .cont),
      (1, .cont)]).get (by decide)) (by decide) (by decide) (by decide)
  exact absurd this (by decide)

/-- It is also false for a properly shared object: after the last release two overlapping
conditional acquires can hide the negative count from each other, and the second succeeds. -/
theorem C04_two_tries_counterexample :
    (exec (init 2 [1, 2])
      [(0, .incref), (0, .cont), (0, .cont), (0, .decref), (0, .cont), (0, .decref), (0, .cont),
       (0, .cont), (0, .cont), (1, .tryincref), (2, .tryincref), (1, .cont), (2, .cont)]).map
      (fun s => (s.log, s.ub, (s.ths.map (·.res)), refs s)) =
    some ([2], false, [[], [], [true]], 1) := by
  decide

/-- And the first acquire of an unshared object is not atomic: a conditional acquire that
overlaps it can be lost, so that the object is destroyed under a holder. -/
theorem C04_lost_update_counterexample :
    (exec (init 1 [1, 2])
      [(0, .incref), (0, .cont), (1, .tryincref), (1, .cont), (0, .cont), (0, .decref), (0, .cont),
       (0, .decref), (0, .cont), (0, .cont), (0, .cont)]).map
      (fun s => (s.log, s.ub, (s.ths.map (·.res)), refs s)) =
    some ([2], false, [[], [true]], 1) := by
  decide

/-- **C04 (partial).**  Missing from the full statement: conditional acquires must start
after the object's first acquire completed, must not overlap each other, and must not be in
flight when the memory is released (this is what `Allowed` says; the last is the duty of
the caller, see C05).  Under these conditions, for any number of threads and any
interleaving, the destructors do not run while a reference - however obtained - is owned,
and everything stated in C03 still holds. -/
theorem C04_try_safe_partial (k : Nat) (ds : List D) (hds : ds.length ≤ maxDtors)
    (sched : List (Nat × Act D)) (hs : AllowedRun (init k ds) sched) {s : State D}
    (hx : exec (init k ds) sched = some s) :
    s.ub = false ∧ (0 < refs s → s.log = []) ∧ s.log <+: s.att.reverse ∧
      (refs s = 0 → Quiet s → s.log = s.att.reverse) := by
  have h := inv_exec sched (inv_init k ds hds) hs hx
  exact ⟨h.ub, h.alive_log, h.log_prefix, h.final⟩

/-- **C04 (partial).**  Under the same conditions a conditional acquire that is about to
report success finds the object referenced by somebody else. -/
theorem C04_success_means_alive_partial (k : Nat) (ds : List D) (hds : ds.length ≤ maxDtors)
    (sched : List (Nat × Act D)) (hs : AllowedRun (init k ds) sched) {s s' : State D}
    (hx : exec (init k ds) sched = some s) (i : Nat) (t t' : Thr D) (ht : s.ths[i]? = some t)
    (hst : step s i .cont = some s') (ht' : s'.ths[i]? = some t')
    (hres : t'.res = true :: t.res) : 0 < refs s ∧ s.dead = false ∧ s.log = [] := by
  have h := inv_exec sched (inv_init k ds hds) hs hx
  exact h.success ht hst ht' hres

/-- Non-vacuity of C04: an allowed run in which one conditional acquire succeeds and, after
the last release, another one fails. -/
example :
    let sched : List (Nat × Act Nat) :=
      [(0, .incref), (0, .cont), (0, .cont), (1, .tryincref), (0, .decref), (1, .cont), (0, .cont),
       (1, .decref), (0, .decref), (0, .cont), (1, .cont), (2, .tryincref), (2, .cont), (1, .cont),
       (2, .cont), (1, .cont), (1, .cont)]
    AllowedRun (init 2 [1, 2]) sched ∧ (exec (init 2 [1, 2]) sched).map
      (fun s => (s.log, s.ub, s.ths.map (·.res), refs s)) =
        some ([2, 1], false, [[], [true], [false]], 0) := by
  decide

end Verif.Refcnt
