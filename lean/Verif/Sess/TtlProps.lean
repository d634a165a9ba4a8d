import Verif.Sess.Props

/-!
# C26: expiry

`pipeTtl` of a session is its remaining time-to-live in ticks.  All histories from start-up, all settings.
-/

namespace Verif.Sess

/-! ### Lemmas -/

theorem run_inv' {c : Conf} {es : List Ev} {w w' : World} {l : List Rec} {os : List Out} (h : Inv c w l)
    (hr : run c w es = .ok (w', os)) : Inv c w' (os.foldl recs l) := by
  obtain ⟨w2, os2, e, h2, -⟩ := run_inv es h
  rw [hr] at e
  simp only [Except.ok.injEq, Prod.mk.injEq] at e
  obtain ⟨rfl, rfl⟩ := e
  exact h2

theorem step_inv' {c : Conf} {e : Ev} {w w' : World} {l : List Rec} {o : Out} (h : Inv c w l)
    (hr : step c w e = .ok (w', o)) : Inv c w' (recs l o) := by
  obtain ⟨w2, o2, e2, h2⟩ := step_inv h e
  rw [hr] at e2
  simp only [Except.ok.injEq, Prod.mk.injEq] at e2
  obtain ⟨rfl, rfl⟩ := e2
  exact h2

theorem run_cons {c : Conf} {w w'' : World} {e : Ev} {es : List Ev} {os : List Out} (h : run c w (e :: es) = .ok (w'', os)) :
    ∃ w' o os', step c w e = .ok (w', o) ∧ run c w' es = .ok (w'', os') ∧ os = o :: os' := by
  simp only [run] at h
  cases hs : step c w e with
  | error f => rw [hs] at h; cases h
  | ok x =>
    obtain ⟨w', o⟩ := x
    rw [hs] at h
    simp only [] at h
    cases hr : run c w' es with
    | error f => rw [hr] at h; cases h
    | ok y =>
      obtain ⟨w2, os'⟩ := y
      rw [hr] at h
      simp only [Except.ok.injEq, Prod.mk.injEq] at h
      obtain ⟨rfl, rfl⟩ := h
      exact ⟨w', o, os', rfl, hr, rfl⟩

theorem run_append {c : Conf} : ∀ {w w'' : World} {es es' : List Ev} {os : List Out},
    run c w (es ++ es') = .ok (w'', os) →
    ∃ w' o1 o2, run c w es = .ok (w', o1) ∧ run c w' es' = .ok (w'', o2) ∧ os = o1 ++ o2
  | w, w'', [], es', os, h => ⟨w, [], os, rfl, h, rfl⟩
  | w, w'', e :: es, es', os, h => by
    obtain ⟨w1, o, os', h1, h2, rfl⟩ := run_cons h
    obtain ⟨w2, o1, o2, h3, h4, rfl⟩ := run_append h2
    exact ⟨w2, o :: o1, o2, by simp only [run, h1, h3], h4, rfl⟩

/-- Removed sessions do not come back. -/
theorem dead_step {c : Conf} {w w' : World} {l : List Rec} {e : Ev} {o : Out} {r : Rec} (h : Inv c w l) (hr : r ∉ l)
    (hlt : r.p < w.next) (hs : step c w e = .ok (w', o)) : r ∉ recs l o ∧ r.p < w'.next := by
  have hnext : w.next ≤ w'.next ∧ ∀ p cid ft, o = .created p cid ft → p = w.next := by
    cases e with
    | ul update cid ft tt weak li mem =>
      simp only [step, findStream_eq h] at hs
      cases hf : firstLeg l cid ft tt with
      | some x =>
        obtain ⟨p, k⟩ := x
        rw [hf] at hs
        simp only [] at hs
        split at hs
        · simp only [Except.ok.injEq, Prod.mk.injEq] at hs
          obtain ⟨rfl, rfl⟩ := hs
          exact ⟨Nat.le_refl _, by intros; simp_all⟩
        · simp only [Except.ok.injEq, Prod.mk.injEq] at hs
          obtain ⟨rfl, rfl⟩ := hs
          exact ⟨Nat.le_refl _, by intros; simp_all⟩
      | none =>
        rw [hf] at hs
        simp only [] at hs
        split at hs
        · split at hs
          · simp only [Except.ok.injEq, Prod.mk.injEq] at hs
            obtain ⟨rfl, rfl⟩ := hs
            exact ⟨Nat.le_refl _, by intros; simp_all⟩
          · split at hs
            · cases hs
            · simp only [Except.ok.injEq, Prod.mk.injEq] at hs
              obtain ⟨rfl, rfl⟩ := hs
              exact ⟨Nat.le_refl _, by intros; simp_all⟩
            · simp only [Except.ok.injEq, Prod.mk.injEq] at hs
              obtain ⟨rfl, rfl⟩ := hs
              exact ⟨by simp, by intros; simp_all⟩
        · simp only [Except.ok.injEq, Prod.mk.injEq] at hs
          obtain ⟨rfl, rfl⟩ := hs
          exact ⟨Nat.le_refl _, by intros; simp_all⟩
    | look cid ft tt =>
      simp only [step] at hs
      split at hs
      · cases hs
      all_goals
        simp only [Except.ok.injEq, Prod.mk.injEq] at hs
        obtain ⟨rfl, rfl⟩ := hs
        exact ⟨Nat.le_refl _, by intros; simp_all⟩
    | delete cid ft tt weak =>
      obtain ⟨w1, e1, -, e3, -⟩ := handleDelete_eq h cid ft tt weak
      simp only [step, e1, Except.ok.injEq, Prod.mk.injEq] at hs
      obtain ⟨rfl, rfl⟩ := hs
      exact ⟨Nat.le_of_eq e3.symm, by intros; simp_all⟩
    | deleteAll =>
      simp only [step] at hs
      split at hs
      · cases hs
      · simp only [Except.ok.injEq, Prod.mk.injEq] at hs
        obtain ⟨rfl, rfl⟩ := hs
        exact ⟨Nat.le_refl _, by intros; simp_all⟩
    | packet p d =>
      simp only [step, Except.ok.injEq, Prod.mk.injEq] at hs
      obtain ⟨rfl, rfl⟩ := hs
      exact ⟨Nat.le_refl _, by intros; simp_all⟩
    | setTtl p d v =>
      simp only [step, Except.ok.injEq, Prod.mk.injEq] at hs
      obtain ⟨rfl, rfl⟩ := hs
      exact ⟨Nat.le_refl _, by intros; simp_all⟩
    | tick =>
      obtain ⟨w1, gone, e1, -, -, e3, -⟩ := tick_eq h
      simp only [step, e1, Except.ok.injEq, Prod.mk.injEq] at hs
      obtain ⟨rfl, rfl⟩ := hs
      exact ⟨Nat.le_of_eq e3.symm, by intros; simp_all⟩
  refine ⟨?_, by omega⟩
  cases o with
  | created p cid ft =>
    simp only [recs, List.mem_append, List.mem_singleton]
    rintro (h1 | h1)
    · exact hr h1
    · have := hnext.2 p cid ft rfl
      rw [h1] at hlt
      simp only [] at hlt
      omega
  | deleted ok gone => simp only [recs]; exact fun h1 => hr (List.mem_filter.1 h1).1
  | expired gone => simp only [recs]; exact fun h1 => hr (List.mem_filter.1 h1).1
  | purged => simp [recs]
  | found p k => exact hr
  | notFound => exact hr
  | failed => exact hr
  | unit => exact hr

theorem dead_run {c : Conf} {r : Rec} : ∀ {es : List Ev} {w w' : World} {l : List Rec} {os : List Out}, Inv c w l →
    r ∉ l → r.p < w.next → run c w es = .ok (w', os) → r ∉ os.foldl recs l
  | [], w, w', l, os, h, hr, hlt, hs => by
    simp only [run, Except.ok.injEq, Prod.mk.injEq] at hs
    obtain ⟨rfl, rfl⟩ := hs
    exact hr
  | e :: es, w, w', l, os, h, hr, hlt, hs => by
    obtain ⟨w1, o, os', h1, h2, rfl⟩ := run_cons hs
    obtain ⟨h3, h4⟩ := dead_step h hr hlt h1
    rw [List.foldl_cons]
    exact dead_run (step_inv' h h1) h3 h4 h2

theorem firstLeg_mem {l : List Rec} {cid ft : Bytes} {tt : Option Bytes} {p k : Nat}
    (h : firstLeg l cid ft tt = some (p, k)) : ∃ r ∈ l, r.p = p ∧ r.cid = cid := by
  unfold firstLeg at h
  obtain ⟨r, hr, he⟩ := List.exists_of_findSome?_eq_some h
  obtain ⟨h1, h2⟩ := List.mem_filter.1 hr
  refine ⟨r, h1, ?_, by simpa using h2⟩
  cases hl : leg ft tt r.ft with
  | none => rw [hl] at he; cases he
  | some k' => rw [hl] at he; simp at he; exact he.1

theorem rec_eq {c : Conf} {w : World} {l : List Rec} (h : Inv c w l) {r r' : Rec} (hr : r ∈ l) (hr' : r' ∈ l)
    (hp : r.p = r'.p) : r = r' := List.inj_on_of_nodup_map h.nodup hr hr' hp

/-- Effect of an unrelated event on a session. -/
theorem quiet_step {c : Conf} {w w' : World} {l : List Rec} {e : Ev} {o : Out} {r : Rec} (h : Inv c w l) (hr : r ∈ l)
    (hq : Quiet r e) (hs : step c w e = .ok (w', o)) :
    (isTick e = true ∧ pipeTtl (w.heap r.p) = 0 ∧ r ∉ recs l o ∧ r.p < w'.next) ∨
    (isTick e = true ∧ pipeTtl (w.heap r.p) ≠ 0 ∧ r ∈ recs l o ∧ w'.heap r.p = pipeDecr (w.heap r.p)) ∨
    (isTick e = false ∧ r ∈ recs l o ∧ w'.heap r.p = w.heap r.p) := by
  cases e with
  | ul update cid ft tt weak li mem =>
    refine .inr (.inr ⟨rfl, ?_⟩)
    have hne : ∀ p k, firstLeg l cid ft tt = some (p, k) → p ≠ r.p := by
      intro p k hf hp
      obtain ⟨r', h1, h2, h3⟩ := firstLeg_mem hf
      have := rec_eq h hr h1 (by rw [h2, hp])
      subst this
      exact hq h3.symm
    simp only [step, findStream_eq h] at hs
    cases hf : firstLeg l cid ft tt with
    | some x =>
      obtain ⟨p, k⟩ := x
      rw [hf] at hs
      simp only [] at hs
      split at hs
      · simp only [Except.ok.injEq, Prod.mk.injEq] at hs
        obtain ⟨rfl, rfl⟩ := hs
        exact ⟨hr, rfl⟩
      · simp only [Except.ok.injEq, Prod.mk.injEq] at hs
        obtain ⟨rfl, rfl⟩ := hs
        exact ⟨hr, setS_other (fun h1 => hne p k hf h1.symm)⟩
    | none =>
      rw [hf] at hs
      simp only [] at hs
      have hlt := h.lt r hr
      split at hs
      · split at hs
        · simp only [Except.ok.injEq, Prod.mk.injEq] at hs
          obtain ⟨rfl, rfl⟩ := hs
          exact ⟨hr, rfl⟩
        · split at hs
          · cases hs
          · simp only [Except.ok.injEq, Prod.mk.injEq] at hs
            obtain ⟨rfl, rfl⟩ := hs
            exact ⟨hr, rfl⟩
          · simp only [Except.ok.injEq, Prod.mk.injEq] at hs
            obtain ⟨rfl, rfl⟩ := hs
            exact ⟨by simp [recs, hr], setS_other (by omega)⟩
      · simp only [Except.ok.injEq, Prod.mk.injEq] at hs
        obtain ⟨rfl, rfl⟩ := hs
        exact ⟨hr, rfl⟩
  | look cid ft tt =>
    refine .inr (.inr ⟨rfl, ?_⟩)
    simp only [step] at hs
    split at hs
    · cases hs
    all_goals
      simp only [Except.ok.injEq, Prod.mk.injEq] at hs
      obtain ⟨rfl, rfl⟩ := hs
      exact ⟨hr, rfl⟩
  | delete cid ft tt weak =>
    refine .inr (.inr ⟨rfl, ?_⟩)
    obtain ⟨w1, e1, e2, -, -⟩ := handleDelete_eq h cid ft tt weak
    simp only [step, e1, Except.ok.injEq, Prod.mk.injEq] at hs
    obtain ⟨rfl, rfl⟩ := hs
    have hnd : ((l.filter (fun r => decide (r.cid = cid))).map (·.p)).Nodup :=
      h.nodup.sublist (List.filter_sublist.map _)
    obtain ⟨dn, rs, g1, g2, g3, -⟩ := full_spec ft tt weak _ w.heap hnd
    have hout : r.p ∉ dn := by
      intro hin
      have : r.p ∈ (l.filter (fun r => decide (r.cid = cid))).map (·.p) := by rw [g1]; simp [hin]
      obtain ⟨r', h1, h2⟩ := List.mem_map.1 this
      obtain ⟨h3, h4⟩ := List.mem_filter.1 h1
      have := rec_eq h hr h3 h2.symm
      subst this
      exact hq (by simpa using (of_decide_eq_true h4).symm)
    refine ⟨?_, ?_⟩
    · simp only [recs, List.mem_filter]
      refine ⟨hr, ?_⟩
      rw [g3]
      simp only [Bool.not_eq_true', List.contains_eq_mem, decide_eq_false_iff_not, List.mem_filter, not_and]
      intro h1
      exact absurd h1 hout
    · rw [e2, g2]
      unfold clearAll
      rw [if_neg hout]
  | deleteAll => exact absurd hq (by simp [Quiet])
  | packet p d =>
    refine .inr (.inr ⟨rfl, ?_⟩)
    simp only [step, Except.ok.injEq, Prod.mk.injEq] at hs
    obtain ⟨rfl, rfl⟩ := hs
    exact ⟨hr, setS_other (fun h1 => hq h1.symm)⟩
  | setTtl p d v =>
    refine .inr (.inr ⟨rfl, ?_⟩)
    simp only [step, Except.ok.injEq, Prod.mk.injEq] at hs
    obtain ⟨rfl, rfl⟩ := hs
    exact ⟨hr, setS_other (fun h1 => hq h1.symm)⟩
  | tick =>
    obtain ⟨w1, gone, e1, e2, e3, e4, -⟩ := tick_eq h
    simp only [step, e1, Except.ok.injEq, Prod.mk.injEq] at hs
    obtain ⟨rfl, rfl⟩ := hs
    have hin : r.p ∈ l.map (·.p) := List.mem_map_of_mem hr
    by_cases h0 : pipeTtl (w.heap r.p) = 0
    · refine .inl ⟨rfl, h0, ?_, by rw [e4]; exact h.lt r hr⟩
      simp only [recs, List.mem_filter, not_and]
      intro _
      have := (e2 r.p).2 ⟨hin, h0⟩
      simp [this]
    · refine .inr (.inl ⟨rfl, h0, ?_, ?_⟩)
      · simp only [recs, List.mem_filter]
        refine ⟨hr, ?_⟩
        have : r.p ∉ gone := fun h1 => h0 ((e2 r.p).1 h1).2
        simp [this]
      · rw [e3]
        unfold tickHeap
        rw [if_pos ⟨hin, h0⟩]

theorem pipeTtl_nonneg (s : Sess) : 0 ≤ pipeTtl s := by
  unfold pipeTtl ttlRemaining
  simp only []
  split <;> split <;> omega

theorem pipeTtl_decr {s : Sess} (h : pipeTtl s ≠ 0) : pipeTtl (pipeDecr s) = pipeTtl s - 1 := by
  have h0 := pipeTtl_nonneg s
  cases hs : s.shared with
  | true =>
    simp only [pipeTtl, ttlRemaining, pipeDecr, ttlDecr, cell, hs, upd, if_true] at h h0 ⊢
    split at h <;> simp_all <;> split <;> omega
  | false =>
    simp only [pipeTtl, ttlRemaining, pipeDecr, ttlDecr, cell, hs, upd, Bool.false_eq_true, if_false, if_true] at h h0 ⊢
    generalize s.ttl false = a at *
    generalize s.ttl true = b at *
    simp only [reduceCtorEq, if_false] at *
    by_cases h1 : a < 0 <;> by_cases h2 : b < 0 <;> simp_all <;> (repeat' split) <;> (repeat' split at h0) <;> (repeat' split at h) <;> omega

/-! ### C26 -/

/-- A session left alone survives as many ticks as its time-to-live says and is removed by the next one. -/
theorem C26_expiry (c : Conf) (es : List Ev) (w : World) (os : List Out) (hrun : run c world0 es = .ok (w, os))
    (r : Rec) (hr : r ∈ live os) (es' : List Ev) (hq : ∀ e ∈ es', Quiet r e) :
    ∃ w' os', run c w es' = .ok (w', os') ∧
      (r ∈ live (os ++ os') ↔ ((es'.countP isTick : Nat) : Int) ≤ pipeTtl (w.heap r.p)) := by
  have h : Inv c w (live os) := run_inv' (Inv.init c) hrun
  have key : ∀ (es' : List Ev) (w : World) (l : List Rec), Inv c w l → r ∈ l → (∀ e ∈ es', Quiet r e) →
      ∀ w' os', run c w es' = .ok (w', os') →
      (r ∈ os'.foldl recs l ↔ ((es'.countP isTick : Nat) : Int) ≤ pipeTtl (w.heap r.p)) := by
    intro es'
    induction es' with
    | nil =>
      intro w l h hr _ w' os' hs
      simp only [run, Except.ok.injEq, Prod.mk.injEq] at hs
      obtain ⟨rfl, rfl⟩ := hs
      have := pipeTtl_nonneg (w.heap r.p)
      simp [hr, this]
    | cons e es' ih =>
      intro w l h hr hq w' os' hs
      obtain ⟨w1, o, os1, h1, h2, rfl⟩ := run_cons hs
      have hinv := step_inv' h h1
      have hq' : ∀ e ∈ es', Quiet r e := fun x hx => hq x (by simp [hx])
      rw [List.foldl_cons, List.countP_cons]
      rcases quiet_step h hr (hq e (by simp)) h1 with ⟨a1, a2, a3, a4⟩ | ⟨a1, a2, a3, a4⟩ | ⟨a1, a2, a3⟩
      · have := dead_run hinv a3 a4 h2
        rw [a1, a2]
        simp only [this, if_true, false_iff]
        push_cast
        omega
      · rw [ih w1 _ hinv a3 hq' w' os1 h2, a4, pipeTtl_decr a2, a1]
        simp only [if_true]
        push_cast
        omega
      · rw [ih w1 _ hinv a2 hq' w' os1 h2, a3, a1]
        simp
  obtain ⟨w', os', e, -, -⟩ := run_inv es' h
  refine ⟨w', os', e, ?_⟩
  rw [live, List.foldl_append]
  exact key es' w _ h hr hq w' os' e

/-- A packet restores the timer of its direction to that direction's limit (and of both, if they share one timer)
and touches nothing else. -/
theorem C26_packet (c : Conf) (w : World) (p : Nat) (d : Bool) :
    ∃ w', step c w (.packet p d) = .ok (w', .unit) ∧ (∀ q, q ≠ p → w'.heap q = w.heap q) ∧
      w'.ht = w.ht ∧ w'.wrt = w.wrt ∧
      (∀ d', (w.heap p).shared = true ∨ d' = d → ttlRemaining (w'.heap p) d' = max 0 ((w.heap p).maxTtl (cell (w.heap p) d))) ∧
      (∀ d', (w.heap p).shared = false → d' ≠ d → ttlRemaining (w'.heap p) d' = ttlRemaining (w.heap p) d') ∧
      w'.heap p = { w.heap p with ttl := (w'.heap p).ttl } := by
  refine ⟨_, rfl, fun q hq => setS_other hq, rfl, rfl, ?_, ?_, ?_⟩
  · intro d' hd'
    simp only [setS_same, ttlRemaining, ttlReset]
    have : cell { w.heap p with ttl := upd (w.heap p).ttl (cell (w.heap p) d) ((w.heap p).maxTtl (cell (w.heap p) d)) } d'
        = cell (w.heap p) d := by
      unfold cell
      rcases hd' with h | rfl <;> simp_all
    rw [this]
    simp only [upd, if_true]
    split <;> omega
  · intro d' hs hd
    simp only [setS_same, ttlRemaining, ttlReset, cell, hs, upd]
    simp [hd]
  · simp only [setS_same, ttlReset]

/-- With one timer for both directions a tick takes one off, not two. -/
theorem C26_shared_once (s : Sess) (hs : s.shared = true) (h : pipeTtl s ≠ 0) (d : Bool) :
    ttlRemaining (pipeDecr s) d = ttlRemaining s d - 1 := by
  simp only [pipeTtl, ttlRemaining, pipeDecr, ttlDecr, cell, hs, upd, if_true] at h ⊢
  split at h <;> simp_all <;> split <;> omega

/-- What happens between two ticks to an active session: anything unrelated, and packets of the session. -/
def Calm (r : Rec) (e : Ev) : Prop := (Quiet r e ∧ isTick e = false) ∨ ∃ d, e = .packet r.p d

/-- Enough packets between two ticks: one for each direction, or just one if the directions share a timer. -/
def Active (r : Rec) (shared : Bool) (es : List Ev) : Prop :=
  (∀ e ∈ es, Calm r e) ∧ (if shared then ∃ d, Ev.packet r.p d ∈ es else ∀ d, Ev.packet r.p d ∈ es)

theorem calm_run {c : Conf} {r : Rec} : ∀ {es : List Ev} {w w' : World} {l : List Rec} {os : List Out}, Inv c w l → r ∈ l →
    (∀ e ∈ es, Calm r e) → run c w es = .ok (w', os) →
    r ∈ os.foldl recs l ∧ (w'.heap r.p).maxTtl = (w.heap r.p).maxTtl ∧ (w'.heap r.p).shared = (w.heap r.p).shared ∧
      ∀ i, ((w'.heap r.p).ttl i = (w.heap r.p).ttl i ∨ (w'.heap r.p).ttl i = (w.heap r.p).maxTtl i) ∧
        ((∃ d, Ev.packet r.p d ∈ es ∧ cell (w.heap r.p) d = i) → (w'.heap r.p).ttl i = (w.heap r.p).maxTtl i)
  | [], w, w', l, os, h, hr, _, hs => by
    simp only [run, Except.ok.injEq, Prod.mk.injEq] at hs
    obtain ⟨rfl, rfl⟩ := hs
    exact ⟨hr, rfl, rfl, fun i => ⟨.inl rfl, by simp⟩⟩
  | e :: es, w, w', l, os, h, hr, hc, hs => by
    obtain ⟨w1, o, os1, h1, h2, rfl⟩ := run_cons hs
    have hinv := step_inv' h h1
    have hc' : ∀ e ∈ es, Calm r e := fun x hx => hc x (by simp [hx])
    by_cases hp : ∃ d, e = .packet r.p d
    · obtain ⟨d, rfl⟩ := hp
      simp only [step, Except.ok.injEq, Prod.mk.injEq] at h1
      obtain ⟨rfl, rfl⟩ := h1
      obtain ⟨a1, a2, a3, a4⟩ := calm_run hinv hr hc' h2
      simp only [setS_same] at a2 a3 a4
      refine ⟨a1, a2, a3, fun i => ?_⟩
      have hcell : ∀ d', cell (ttlReset (w.heap r.p) d) d' = cell (w.heap r.p) d' := fun _ => rfl
      have e1 : (ttlReset (w.heap r.p) d).maxTtl = (w.heap r.p).maxTtl := rfl
      have e2 : ∀ i, (ttlReset (w.heap r.p) d).ttl i =
          if i = cell (w.heap r.p) d then (w.heap r.p).maxTtl i else (w.heap r.p).ttl i := by
        intro i
        simp only [ttlReset, upd]
        split
        · next h => rw [h]
        · rfl
      obtain ⟨b1, b2⟩ := a4 i
      rw [e1, e2] at b1
      simp only [hcell] at b2
      rw [e1] at b2
      constructor
      · split at b1
        · right; rcases b1 with b1 | b1 <;> exact b1
        · exact b1
      · rintro ⟨d', hd', rfl⟩
        rcases List.mem_cons.1 hd' with hd' | hd'
        · injection hd' with _ hd'
          subst hd'
          rw [if_pos rfl] at b1
          rcases b1 with b1 | b1 <;> exact b1
        · exact b2 ⟨d', hd', rfl⟩
    · have hq := hc e (by simp)
      rcases hq with ⟨hq, ht⟩ | hq
      · rcases quiet_step h hr hq h1 with ⟨b, _⟩ | ⟨b, _⟩ | ⟨_, b2, b3⟩
        · rw [b] at ht; cases ht
        · rw [b] at ht; cases ht
        · obtain ⟨a1, a2, a3, a4⟩ := calm_run hinv b2 hc' h2
          rw [b3] at a2 a3 a4
          refine ⟨a1, a2, a3, fun i => ⟨(a4 i).1, ?_⟩⟩
          rintro ⟨d, hd, rfl⟩
          refine (a4 _).2 ⟨d, ?_, rfl⟩
          rcases List.mem_cons.1 hd with hd | hd
          · exact absurd ⟨d, hd.symm⟩ hp
          · exact hd
      · exact absurd hq hp

theorem pipeDecr_fields (s : Sess) : (pipeDecr s).maxTtl = s.maxTtl ∧ (pipeDecr s).shared = s.shared := by
  unfold pipeDecr
  simp only []
  split <;> exact ⟨rfl, rfl⟩

/-- A session with a positive limit that receives a packet on every timed direction between any two ticks is never
removed, however long the history. -/
theorem C26_active (c : Conf) (es : List Ev) (w : World) (os : List Out) (hrun : run c world0 es = .ok (w, os))
    (r : Rec) (hr : r ∈ live os) (hmax : ∀ d, 1 ≤ (w.heap r.p).maxTtl (cell (w.heap r.p) d))
    (segs : List (List Ev)) (hseg : ∀ s ∈ segs, Active r (w.heap r.p).shared s) :
    ∃ w' os', run c w (segs.flatMap (fun s => s ++ [.tick])) = .ok (w', os') ∧ r ∈ live (os ++ os') := by
  have h : Inv c w (live os) := run_inv' (Inv.init c) hrun
  obtain ⟨w', os', e, -, -⟩ := run_inv (segs.flatMap (fun s => s ++ [.tick])) h
  refine ⟨w', os', e, ?_⟩
  rw [live, List.foldl_append]
  change r ∈ os'.foldl recs (live os)
  generalize live os = l at h hr
  clear hrun
  induction segs generalizing w l os' with
  | nil =>
    simp only [List.flatMap_nil, run, Except.ok.injEq, Prod.mk.injEq] at e
    obtain ⟨rfl, rfl⟩ := e
    exact hr
  | cons s segs ih =>
    rw [List.flatMap_cons, List.append_assoc] at e
    obtain ⟨w1, o1, o2, e1, e2, rfl⟩ := run_append e
    obtain ⟨w2, o, o3, e3, e4, rfl⟩ := run_cons (es := segs.flatMap (fun s => s ++ [.tick])) e2
    have hact := hseg s (by simp)
    obtain ⟨a1, a2, a3, a4⟩ := calm_run h hr hact.1 e1
    have hinv1 := run_inv' h e1
    have hfull : ∀ d, (w1.heap r.p).ttl (cell (w.heap r.p) d) = (w.heap r.p).maxTtl (cell (w.heap r.p) d) := by
      intro d
      refine (a4 _).2 ?_
      have h2 := hact.2
      cases hs : (w.heap r.p).shared with
      | true =>
        rw [hs] at h2
        obtain ⟨d', hd'⟩ := h2
        exact ⟨d', hd', by unfold cell; rw [hs]; rfl⟩
      | false =>
        rw [hs] at h2
        exact ⟨d, h2 d, rfl⟩
    have hcell : ∀ d, cell (w1.heap r.p) d = cell (w.heap r.p) d := fun d => by unfold cell; rw [a3]
    have hpos : pipeTtl (w1.heap r.p) ≠ 0 := by
      unfold pipeTtl ttlRemaining
      simp only [hcell, hfull]
      have m0 := hmax false
      have m1 := hmax true
      split <;> split <;> omega
    rcases quiet_step hinv1 a1 (e := .tick) trivial e3 with ⟨_, b, _⟩ | ⟨_, _, b2, b3⟩ | ⟨b, _⟩
    · exact absurd b hpos
    · rw [List.foldl_append, List.foldl_cons]
      have hsh : (w2.heap r.p).shared = (w.heap r.p).shared := by rw [b3, (pipeDecr_fields _).2, a3]
      refine ih w2 ?_ ?_ o3 e4 _ (step_inv' hinv1 e3) b2
      · intro d
        have hmx : (w2.heap r.p).maxTtl = (w.heap r.p).maxTtl := by rw [b3, (pipeDecr_fields _).1, a2]
        have hcl : cell (w2.heap r.p) d = cell (w.heap r.p) d := by unfold cell; rw [hsh]
        rw [hmx, hcl]
        exact hmax d
      · intro x hx
        rw [hsh]
        exact hseg x (by simp [hx])
    · cases b

/-- A session that nobody joins and that gets no packet lives for exactly the configured number of set-up ticks. -/
theorem C26_new_session (c : Conf) (es : List Ev) (w : World) (os : List Out) (hrun : run c world0 es = .ok (w, os))
    (cid ft : Bytes) (tt : Option Bytes) (weak : Bool) (li : Listen) (mem : Bool) (w1 : World) (p : Nat)
    (hnew : step c w (.ul true cid ft tt weak li mem) = .ok (w1, .created p cid ft))
    (es' : List Ev) (hq : ∀ e ∈ es', Quiet ⟨p, cid, ft⟩ e) :
    ∃ w' os', run c w1 es' = .ok (w', os') ∧
      ((⟨p, cid, ft⟩ : Rec) ∈ live (os ++ .created p cid ft :: os') ↔
        ((es'.countP isTick : Nat) : Int) ≤ max 0 c.setupTtl) := by
  have hrun1 : run c world0 (es ++ [.ul true cid ft tt weak li mem]) = .ok (w1, os ++ [.created p cid ft]) := by
    have key : ∀ (es : List Ev) (w0 : World) (os : List Out), run c w0 es = .ok (w, os) →
        run c w0 (es ++ [.ul true cid ft tt weak li mem]) = .ok (w1, os ++ [.created p cid ft]) := by
      intro es
      induction es with
      | nil =>
        intro w0 os h
        simp only [run, Except.ok.injEq, Prod.mk.injEq] at h
        obtain ⟨rfl, rfl⟩ := h
        simp only [List.nil_append, run, hnew]
      | cons e es ih =>
        intro w0 os h
        obtain ⟨w', o, os', h1, h2, rfl⟩ := run_cons h
        simp only [List.cons_append, run, h1, ih w' os' h2]
    exact key es world0 os hrun
  have hm : (⟨p, cid, ft⟩ : Rec) ∈ live (os ++ [.created p cid ft]) := by
    rw [live, List.foldl_append]
    simp [recs]
  obtain ⟨w', os', e1, e2⟩ := C26_expiry c _ w1 _ hrun1 ⟨p, cid, ft⟩ hm es' hq
  refine ⟨w', os', e1, ?_⟩
  have hp : w1.heap p = newSess c ft weak := by
    have h : Inv c w (live os) := run_inv' (Inv.init c) hrun
    simp only [step, findStream_eq h] at hnew
    cases hf : firstLeg (live os) cid ft tt with
    | some x =>
      obtain ⟨q, k⟩ := x
      rw [hf] at hnew
      simp only [] at hnew
      split at hnew <;> simp at hnew
    | none =>
      rw [hf] at hnew
      simp only [if_true] at hnew
      split at hnew
      · simp at hnew
      · split at hnew
        · cases hnew
        · simp at hnew
        · simp only [Except.ok.injEq, Prod.mk.injEq, Out.created.injEq] at hnew
          obtain ⟨rfl, rfl, _, _⟩ := hnew
          exact setS_same _ _ _
  have ht : pipeTtl (newSess c ft weak) = max 0 c.setupTtl := by
    simp only [pipeTtl, ttlRemaining, newSess]
    omega
  simp only [] at e2
  rw [hp, ht, List.append_assoc] at e2
  exact e2

/-- After the last packet, a session with one timer for both directions lives for exactly its limit. -/
theorem C26_after_packet (c : Conf) (es : List Ev) (w : World) (os : List Out) (hrun : run c world0 es = .ok (w, os))
    (r : Rec) (hr : r ∈ live os) (hs : (w.heap r.p).shared = true) (d : Bool) (es' : List Ev)
    (hq : ∀ e ∈ es', Quiet r e) :
    ∃ w' os', run c w (.packet r.p d :: es') = .ok (w', os') ∧
      (r ∈ live (os ++ os') ↔ ((es'.countP isTick : Nat) : Int) ≤ max 0 ((w.heap r.p).maxTtl false)) := by
  have hrun1 : run c world0 (es ++ [.packet r.p d]) =
      .ok ({ w with heap := setS w.heap r.p (ttlReset (w.heap r.p) d) }, os ++ [.unit]) := by
    have key : ∀ (es : List Ev) (w0 : World) (os : List Out), run c w0 es = .ok (w, os) →
        run c w0 (es ++ [.packet r.p d]) =
          .ok ({ w with heap := setS w.heap r.p (ttlReset (w.heap r.p) d) }, os ++ [.unit]) := by
      intro es
      induction es with
      | nil =>
        intro w0 os h
        simp only [run, Except.ok.injEq, Prod.mk.injEq] at h
        obtain ⟨rfl, rfl⟩ := h
        simp only [List.nil_append, run, step]
      | cons e es ih =>
        intro w0 os h
        obtain ⟨w', o, os', h1, h2, rfl⟩ := run_cons h
        simp only [List.cons_append, run, h1, ih w' os' h2]
    exact key es world0 os hrun
  have hm : r ∈ live (os ++ [.unit]) := by
    rw [live, List.foldl_append]
    exact hr
  obtain ⟨w', os', e1, e2⟩ := C26_expiry c _ _ _ hrun1 r hm es' hq
  refine ⟨w', .unit :: os', by simp only [run, step, e1], ?_⟩
  rw [show os ++ Out.unit :: os' = (os ++ [.unit]) ++ os' by simp, e2]
  simp only [setS_same]
  have ht : pipeTtl (ttlReset (w.heap r.p) d) = max 0 ((w.heap r.p).maxTtl false) := by
    simp only [pipeTtl, ttlRemaining, ttlReset, cell, hs, upd, if_true]
    split <;> split <;> omega
  rw [ht]

/-- After the last packets, a session with a timer for each direction lives for exactly the lesser of what is left
on each: a packet of one direction does not keep the other alive. -/
theorem C26_separate (s : Sess) (hs : s.shared = false) (d : Bool) :
    pipeTtl (ttlReset s d) = max 0 (min (s.maxTtl d) (s.ttl (!d))) := by
  cases d <;>
  · simp only [pipeTtl, ttlRemaining, ttlReset, cell, hs, upd, Bool.false_eq_true, if_false, if_true, Bool.not_false,
      Bool.not_true, reduceCtorEq]
    split <;> split <;> (try split) <;> omega

/-- An UPDATE or LOOKUP that uses an existing session restores both timers to their limits.  The first one that
opens the second leg also replaces the set-up limits by those of the streams. -/
theorem C26_update (s s' : Sess) (d update weak : Bool) (li : Listen) (h : ulExisting s d update weak li = some s')
    (d' : Bool) :
    s'.ttl (cell s d') = s'.maxTtl (cell s d') ∧
    s'.maxTtl (cell s d') = (if li = .fresh ∧ s.complete = false then
      (if s.shared then s.streamTtl true else s.streamTtl d') else s.maxTtl (cell s d')) := by
  cases li with
  | failed => cases h
  | keep =>
    simp only [ulExisting, reduceCtorEq, if_false, Option.some.injEq] at h
    subst h
    cases weak <;> cases update <;> cases hs : s.shared <;> cases d' <;> simp [ttlReset, cell, hs, upd]
  | fresh =>
    simp only [ulExisting, if_true, Option.some.injEq] at h
    subst h
    cases weak <;> cases update <;> cases hs : s.shared <;> cases d' <;> cases hc : s.complete <;>
      simp [ttlReset, ttlResetWith, cell, hs, upd, hc]

theorem ulExisting_holds (s s' : Sess) (d update weak : Bool) (li : Listen) (h : ulExisting s d update weak li = some s') :
    (s'.strong = true ↔ s.strong = true ∨ (weak = false ∧ update = true)) ∧
    (∀ d', s'.weak d' = true ↔ s.weak d' = true ∨ (weak = true ∧ d' = d)) ∧ s'.fromTag = s.fromTag ∧
    s'.shared = s.shared := by
  cases li with
  | failed => cases h
  | keep =>
    simp only [ulExisting, reduceCtorEq, if_false, Option.some.injEq] at h
    subst h
    cases weak <;> cases update <;> simp [ttlReset, upd]
    all_goals exact ⟨or_comm, or_comm⟩
  | fresh =>
    simp only [ulExisting, if_true, Option.some.injEq] at h
    subst h
    cases weak <;> cases update <;> cases hc : s.complete <;> simp [ttlReset, ttlResetWith, upd]
    all_goals exact ⟨or_comm, or_comm⟩

/-- An UPDATE or LOOKUP that uses an existing session takes the hold it asks for and releases none.  The weak hold
is the one of the requesting side: an UPDATE from the caller's tag (leg 0) takes that of stream 0, the answering
LOOKUP takes that of stream 1. -/
theorem C23_hold_taken (c : Conf) (es : List Ev) (w : World) (os : List Out) (hrun : run c world0 es = .ok (w, os))
    (update : Bool) (cid ft : Bytes) (tt : Option Bytes) (weak : Bool) (li : Listen) (mem : Bool) (w' : World) (p k : Nat)
    (hs : step c w (.ul update cid ft tt weak li mem) = .ok (w', .found p k)) :
    ((w'.heap p).strong = true ↔ (w.heap p).strong = true ∨ (weak = false ∧ update = true)) ∧
    ((w'.heap p).weak false = true ↔ (w.heap p).weak false = true ∨ (weak = true ∧ (update = true ↔ k ≠ 1))) ∧
    ((w'.heap p).weak true = true ↔ (w.heap p).weak true = true ∨ (weak = true ∧ (update = true ↔ k = 1))) ∧
    (w'.heap p).fromTag = (w.heap p).fromTag := by
  have h : Inv c w (live os) := run_inv' (Inv.init c) hrun
  simp only [step, findStream_eq h] at hs
  cases hf : firstLeg (live os) cid ft tt with
  | none =>
    rw [hf] at hs
    simp only [] at hs
    (repeat' split at hs) <;> simp at hs
  | some x =>
    obtain ⟨q, k'⟩ := x
    rw [hf] at hs
    simp only [] at hs
    cases hu : ulExisting (w.heap q) (if update = true then decide (k' = 1) else !decide (k' = 1)) update weak li with
    | none => rw [hu] at hs; simp at hs
    | some s' =>
      rw [hu] at hs
      simp only [Except.ok.injEq, Prod.mk.injEq, Out.found.injEq] at hs
      obtain ⟨rfl, rfl, rfl⟩ := hs
      simp only [setS_same]
      obtain ⟨h1, h2, h3, -⟩ := ulExisting_holds _ _ _ _ _ _ hu
      refine ⟨h1, ?_, ?_, h3⟩
      · rw [h2]
        cases update <;> by_cases hk : k' = 1 <;> simp [hk]
      · rw [h2]
        cases update <;> by_cases hk : k' = 1 <;> simp [hk]

def ttlCfg : Conf := ⟨fun _ => 0, true, 2, 2⟩

/-- Non-trivial: a session with a time-to-live of two ticks is there after two and gone at the third. -/
example : (match run ttlCfg world0 [.ul true [99] [97] none false .fresh true, .tick, .tick, .tick] with
      | .ok (_, os) => some os
      | .error _ => none) =
    some [.created 0 [99] [97], .expired [], .expired [], .expired [0]] := by decide +kernel

/-- A packet in between keeps it. -/
example : (match run ttlCfg world0 [.ul true [99] [97] none false .fresh true, .tick, .tick, .packet 0 true, .tick] with
      | .ok (_, os) => some os
      | .error _ => none) =
    some [.created 0 [99] [97], .expired [], .expired [], .unit, .expired []] := by decide +kernel

end Verif.Sess
