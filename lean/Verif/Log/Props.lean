import Verif.Log.Steps

/-! # Messages for syslog: what is in the log -/

namespace Verif.Log

theorem drops_le (p : Seen) (e : Ev) : p.drops ≤ (p.next e).drops := by
  cases e <;> simp only [Seen.next] <;> try exact Nat.le_refl _
  split
  · exact Nat.le_succ _
  · exact Nat.le_refl _

theorem drops_fold (es : List Ev) : ∀ p : Seen, p.drops ≤ (es.foldl Seen.next p).drops := by
  induction es with
  | nil => intro p; exact Nat.le_refl _
  | cons e es ih => intro p; exact Nat.le_trans (drops_le p e) (ih _)

theorem run_keeps (es : List Ev) : ∀ {s : St} {p : Seen} {x : Except Fault St}, Inv s p → .init ∉ es → (∀ e ∈ es, e.sane) →
    (es.foldl Seen.next p).drops < 2 ^ 31 → run s es = some x → ∃ s', x = .ok s' ∧ Inv s' (es.foldl Seen.next p) := by
  induction es with
  | nil =>
    intro s p x h _ _ _ hr
    simp only [run, Option.some.injEq] at hr
    exact ⟨s, hr.symm, h⟩
  | cons e es ih =>
    intro s p x h hi hs hd hr
    unfold run at hr
    cases hst : step s e with
    | none => rw [hst] at hr; cases hr
    | some y =>
      rw [hst] at hr
      obtain ⟨s', rfl, h'⟩ := keeps h (fun he => hi (by rw [he]; exact List.mem_cons_self)) (hs e List.mem_cons_self)
        (Nat.lt_of_le_of_lt (drops_fold es _) hd) hst
      exact ih h' (fun hm => hi (List.mem_cons_of_mem _ hm)) (fun e he => hs e (List.mem_cons_of_mem _ he)) hd hr

theorem inv_run {es : List Ev} {x : Except Fault St} (hi : .init ∉ es) (hs : ∀ e ∈ es, e.sane)
    (hd : (seen es).drops < 2 ^ 31) (hr : run init es = some x) : ∃ s', x = .ok s' ∧ Inv s' (seen es) :=
  run_keeps es inv_init hi hs hd hr

/-- **C74.** However the threads that log, the thread of the queue and the end of the process follow one another, none of
them does anything that is not allowed: the queue set up once, no more than 2^31 - 1 messages dropped, and no format that
`vsnprintf` cannot deal with. -/
theorem C74_no_fault_partial (es : List Ev) (hi : .init ∉ es) (hs : ∀ e ∈ es, e.sane) (hd : (seen es).drops < 2 ^ 31)
    (f : Fault) : run init es ≠ some (.error f) := by
  intro hr
  obtain ⟨s, h, _⟩ := inv_run hi hs hd hr
  cases h

/-- **C74.** The text of a message is its three parts one after the other, cut at 2047 bytes, and `len` is its length. -/
theorem C74_text_partial (r : Raw) (u : List Nat) (h : r.user = some u) :
    format r = .ok ((r.pre ++ u ++ r.post.getD []).take 2047, ((r.pre ++ u ++ r.post.getD []).take 2047).length) := by
  have := format_eq r (by rw [h]; nofun)
  simpa only [whole, h, Option.getD_some] using this

/-- **C74.** What has been passed to syslog is what the threads have handed in, in the order of their handing it in, each
message once and as it was given, as far as the thread of the queue has come. -/
theorem C74_log_partial (es : List Ev) (s : St) (hi : .init ∉ es) (hs : ∀ e ∈ es, e.sane) (hd : (seen es).drops < 2 ^ 31)
    (hr : run init es = some (.ok s)) :
    s.out = ((seen es).put.take (seen es).did).filterMap id ∧ (seen es).did ≤ (seen es).put.length := by
  obtain ⟨s', h, hinv⟩ := inv_run hi hs hd hr
  cases h
  exact ⟨hinv.out, hinv.did⟩

/-- A call of `vsyslog_async`. -/
def Ev.isGet : Ev → Bool
  | .get _ _ => true
  | _ => false

/-- An item returned to the pool. -/
def Ev.isRel : Ev → Bool
  | .rel => true
  | _ => false

/-- An item taken by the handler at the end. -/
def Ev.isXget : Ev → Bool
  | .xget => true
  | _ => false

theorem seen_snoc (es : List Ev) (e : Ev) : seen (es ++ [e]) = (seen es).next e := by
  simp [seen, List.foldl_append]

theorem run_append (es fs : List Ev) : ∀ {s : St} {x : Except Fault St}, run s (es ++ fs) = some x →
    (∃ s', run s es = some (.ok s') ∧ run s' fs = some x) ∨ ∃ f, run s es = some (.error f) ∧ x = .error f := by
  induction es with
  | nil => intro s x h; exact .inl ⟨s, rfl, h⟩
  | cons e es ih =>
    intro s x h
    rw [List.cons_append] at h
    unfold run at h
    cases hst : step s e with
    | none => rw [hst] at h; cases h
    | some y =>
      rw [hst] at h
      cases y with
      | error f =>
        simp only [Option.some.injEq] at h
        exact .inr ⟨f, by simp only [run, hst], h.symm⟩
      | ok s' =>
        have : run s (e :: es) = run s' es := by simp only [run, hst]
        rw [this]
        exact ih h

/-- **C74.** A message is dropped only when the 64 places are all taken: the messages accepted and the item of the end, less
those that have been passed on and returned, are 64 then, and never more.  And the counter has the number of those
dropped. -/
theorem C74_dropped_partial (es : List Ev) (s : St) (hi : .init ∉ es) (hs : ∀ e ∈ es, e.sane)
    (hd : (seen es).drops < 2 ^ 31) (hr : run init es = some (.ok s)) :
    s.dropped = (seen es).drops ∧
    (es.countP Ev.isGet - (seen es).drops) + es.countP Ev.isXget ≤ 64 + es.countP Ev.isRel ∧
    (∀ t r, s.pr t = .idle → (∃ s', step s (.get t r) = some (.ok s') ∧ s'.pr t = .idle) →
      (es.countP Ev.isGet - (seen es).drops) + es.countP Ev.isXget = 64 + es.countP Ev.isRel) := by
  have key : ∀ es : List Ev, .init ∉ es → (∀ e ∈ es, e.sane) → (seen es).drops < 2 ^ 31 →
      (∃ s, run init es = some (.ok s)) → (seen es).drops ≤ es.countP Ev.isGet ∧
      (seen es).avail + (es.countP Ev.isGet - (seen es).drops) + es.countP Ev.isXget = 64 + es.countP Ev.isRel := by
    intro es
    induction es using List.reverseRecOn with
    | nil => intro _ _ _ _; exact ⟨Nat.le_refl _, rfl⟩
    | append_singleton es e ih =>
      rintro hi hs hd ⟨s, hr⟩
      have hd0 : (seen es).drops < 2 ^ 31 := by
        rw [seen_snoc] at hd
        exact Nat.lt_of_le_of_lt (drops_le _ e) hd
      have hi0 : .init ∉ es := fun h => hi (List.mem_append_left _ h)
      have hs0 : ∀ e ∈ es, e.sane := fun e he => hs e (List.mem_append_left _ he)
      rcases run_append es [e] hr with ⟨s0, h0, h1⟩ | ⟨f, _, h1⟩
      · obtain ⟨_, e0, inv⟩ := inv_run hi0 hs0 hd0 h0
        cases e0
        obtain ⟨k1, k2⟩ := ih hi0 hs0 hd0 ⟨s0, h0⟩
        obtain ⟨F, Q, ow, hp, ha, hq⟩ := inv.places
        rw [seen_snoc]
        simp only [List.countP_append, List.countP_singleton]
        cases e with
        | get t r =>
          simp only [Seen.next, Ev.isGet, Ev.isXget, Ev.isRel, if_true, Bool.false_eq_true, if_false]
          by_cases h : (seen es).avail = 0
          · rw [if_pos h]
            simp only
            omega
          · rw [if_neg h]
            simp only
            omega
        | rel =>
          simp only [Seen.next, Ev.isGet, Ev.isXget, Ev.isRel, if_true, Bool.false_eq_true, if_false]
          omega
        | xget =>
          simp only [Seen.next, Ev.isGet, Ev.isXget, Ev.isRel, if_true, Bool.false_eq_true, if_false]
          have : (seen es).avail ≠ 0 := by
            intro hz
            have hF : F = [] := List.length_eq_zero_iff.mp (by rw [ha, hz])
            have hc := hp.cF
            rw [hF] at hc
            have hc : s0.free = none := hc
            have : stepXget s0 = none := by
              unfold stepXget
              rw [hc]
              split
              · rename_i heq; cases heq
              · rfl
            simp only [run, step, this] at h1
            cases h1
          omega
        | fill t => simpa [Seen.next, Ev.isGet, Ev.isXget, Ev.isRel] using ⟨k1, k2⟩
        | put t => simpa [Seen.next, Ev.isGet, Ev.isXget, Ev.isRel] using ⟨k1, k2⟩
        | take => simpa [Seen.next, Ev.isGet, Ev.isXget, Ev.isRel] using ⟨k1, k2⟩
        | work => simpa [Seen.next, Ev.isGet, Ev.isXget, Ev.isRel] using ⟨k1, k2⟩
        | xfill => simpa [Seen.next, Ev.isGet, Ev.isXget, Ev.isRel] using ⟨k1, k2⟩
        | xput => simpa [Seen.next, Ev.isGet, Ev.isXget, Ev.isRel] using ⟨k1, k2⟩
        | xjoin => simpa [Seen.next, Ev.isGet, Ev.isXget, Ev.isRel] using ⟨k1, k2⟩
        | init => simpa [Seen.next, Ev.isGet, Ev.isXget, Ev.isRel] using ⟨k1, k2⟩
      · cases h1
  obtain ⟨_, e0, inv⟩ := inv_run hi hs hd hr
  cases e0
  have hk := key es hi hs hd ⟨s, hr⟩
  refine ⟨inv.drops, by omega, ?_⟩
  rintro t r hidle ⟨s', hst, hid'⟩
  obtain ⟨F, Q, ow, hp, ha, hq⟩ := inv.places
  cases hf : s.free with
  | none =>
    have hc := hp.cF
    rw [hf] at hc
    have := chain_none hc
    have : (seen es).avail = 0 := by rw [← ha, this]; rfl
    omega
  | some i =>
    simp only [step, stepGet, hidle, hf, Option.some.injEq, Except.ok.injEq] at hst
    rw [← hst] at hid'
    simp only [upd_same] at hid'
    cases hid'

theorem put_fold (es : List Ev) : ∀ p : Seen, ∃ R, (es.foldl Seen.next p).put = p.put ++ R := by
  induction es with
  | nil => intro p; exact ⟨[], by simp⟩
  | cons e es ih =>
    intro p
    obtain ⟨R, hR⟩ := ih (p.next e)
    have : ∃ R', (p.next e).put = p.put ++ R' := by
      cases e with
      | get t r =>
        simp only [Seen.next]
        split <;> exact ⟨[], by simp⟩
      | put t => exact ⟨_, rfl⟩
      | xput => exact ⟨_, rfl⟩
      | _ => exact ⟨[], by simp [Seen.next]⟩
    obtain ⟨R', h'⟩ := this
    exact ⟨R' ++ R, by rw [List.foldl_cons, hR, h', List.append_assoc]⟩

theorem first_none {P P' R R' : List (Option Msg)} (h : P ++ none :: R = P' ++ none :: R') (h1 : none ∉ P)
    (h2 : none ∉ P') : P = P' := by
  induction P generalizing P' with
  | nil =>
    cases P' with
    | nil => rfl
    | cons a P' =>
      injection h with h _
      exact absurd (by rw [h]; exact List.mem_cons_self) h2
  | cons a P ih =>
    cases P' with
    | nil =>
      injection h with h _
      exact absurd (by rw [← h]; exact List.mem_cons_self) h1
    | cons b P' =>
      injection h with h h'
      rw [h, ih h' (fun hm => h1 (List.mem_cons_of_mem _ hm)) (fun hm => h2 (List.mem_cons_of_mem _ hm))]

theorem joined_after {es : List Ev} : ∀ {s s' : St}, run s es = some (.ok s') → (.xjoin ∈ es ∨ s.joined = true) → s'.joined = true := by
  induction es with
  | nil =>
    intro s s' h hj
    simp only [run, Option.some.injEq, Except.ok.injEq] at h
    rw [← h]
    rcases hj with hj | hj
    · cases hj
    · exact hj
  | cons e es ih =>
    intro s s' h hj
    unfold run at h
    cases hst : step s e with
    | none => rw [hst] at h; cases h
    | some y =>
      rw [hst] at h
      cases y with
      | error f => cases h
      | ok s1 =>
        refine ih h ?_
        have keep : s.joined = true → s1.joined = true := by
          intro hjs
          cases e <;> simp only [step, stepGet, stepFill, stepPut, stepTake, stepWork, stepRel, stepXget, stepXfill, stepXput,
            stepXjoin, putItem] at hst <;> (repeat' split at hst) <;>
            first
              | (simp only [Option.some.injEq, Except.ok.injEq] at hst; rw [← hst]; exact hjs)
              | (simp only [Option.some.injEq, Except.ok.injEq] at hst; rw [← hst])
              | cases hst
        rcases hj with hj | hj
        · rcases List.mem_cons.mp hj with he | he
          · right
            subst he
            simp only [step, stepXjoin] at hst
            (repeat' split at hst) <;>
            first
              | (simp only [Option.some.injEq, Except.ok.injEq] at hst; rw [← hst])
              | cases hst
          · exact .inl he
        · exact .inr (keep hj)

/-- **C74.** When the process has waited for the thread of the queue, everything that had been handed in before the end was
asked for has been passed to syslog, and nothing that was handed in later. -/
theorem C74_exit_partial (es fs : List Ev) (s : St) (hi : .init ∉ es ++ .xput :: fs) (hs : ∀ e ∈ es ++ .xput :: fs, e.sane)
    (hd : (seen (es ++ .xput :: fs)).drops < 2 ^ 31) (hr : run init (es ++ .xput :: fs) = some (.ok s)) (hj : .xjoin ∈ fs) :
    s.out = (seen es).put.filterMap id := by
  obtain ⟨_, e0, inv⟩ := inv_run hi hs hd hr
  cases e0
  have hjd : s.joined = true := joined_after hr (.inl (List.mem_append_right _ (List.mem_cons_of_mem _ hj)))
  obtain ⟨P, R, h1, h2, h3⟩ := inv.ends.after (inv.ends.ex hjd).2
  obtain ⟨R', hR'⟩ : ∃ R', (seen (es ++ .xput :: fs)).put = (seen es).put ++ none :: R' := by
    obtain ⟨R', h⟩ := put_fold fs ((seen es).next .xput)
    refine ⟨R', ?_⟩
    have : seen (es ++ .xput :: fs) = fs.foldl Seen.next ((seen es).next .xput) := by
      simp [seen, List.foldl_append]
    rw [this, h]
    simp [Seen.next]
  have hno : none ∉ (seen es).put := by
    have hi0 : Ev.init ∉ es := fun h => hi (List.mem_append_left _ h)
    have hs0 : ∀ e ∈ es, e.sane := fun e he => hs e (List.mem_append_left _ he)
    have hd0 : (seen es).drops < 2 ^ 31 := by
      refine Nat.lt_of_le_of_lt ?_ hd
      have := drops_fold (.xput :: fs) (seen es)
      simpa [seen, List.foldl_append] using this
    rcases run_append es (.xput :: fs) hr with ⟨s0, h0, h1⟩ | ⟨f, _, h1⟩
    · obtain ⟨_, e0, inv0⟩ := inv_run hi0 hs0 hd0 h0
      cases e0
      have hx : ∃ i, s0.ex = .filled i := by
        unfold run at h1
        cases hx : s0.ex with
        | filled i => exact ⟨i, rfl⟩
        | no => simp only [step, stepXput, hx] at h1; cases h1
        | got i => simp only [step, stepXput, hx] at h1; cases h1
        | join => simp only [step, stepXput, hx] at h1; cases h1
      obtain ⟨i, hx⟩ := hx
      refine inv0.ends.before ?_ (by rw [hx]; nofun)
      cases hjj : s0.joined with
      | false => rfl
      | true => exact absurd (inv0.ends.ex hjj).1 (by rw [hx]; nofun)
    · cases h1
  have hP : P = (seen es).put := first_none (h1.symm.trans hR') h3 hno
  rw [inv.out, h1, h2]
  rw [List.take_append, List.take_of_length_le (by omega)]
  simp [hP]

/-- **C74.** If the thread of the queue can do nothing, then either it has ended, or everything that has been handed in has
been passed to syslog. -/
theorem C74_idle_partial (es : List Ev) (s : St) (hi : .init ∉ es) (hs : ∀ e ∈ es, e.sane) (hd : (seen es).drops < 2 ^ 31)
    (hr : run init es = some (.ok s)) (hn : ∀ e, e.isWk = true → step s e = none) :
    s.wk = .ended ∨ s.out = (seen es).put.filterMap id := by
  obtain ⟨_, e0, inv⟩ := inv_run hi hs hd hr
  cases e0
  obtain ⟨F, Q, ow, hp, ha, hq⟩ := inv.places
  cases hw : s.wk with
  | ended => exact .inl rfl
  | has i =>
    have := hn .work rfl
    simp only [step, stepWork, hw] at this
    split at this <;> cases this
  | did i =>
    have := hn .rel rfl
    simp only [step, stepRel, hw] at this
    cases this
  | idle =>
    right
    have := hn .take rfl
    simp only [step, stepTake, hw] at this
    cases hQ : s.queue with
    | some i => rw [hQ] at this; cases this
    | none =>
      have hc := hp.cQ
      rw [hQ] at hc
      have hc := chain_none hc
      rw [hc] at hq
      simp only [inHand, hw, List.map_nil, List.append_nil] at hq
      have hl : (seen es).put.length ≤ (seen es).did := List.drop_eq_nil_iff.mp hq.symm
      rw [inv.out, List.take_of_length_le hl]

/-- How much the thread of the queue may yet do with what it holds. -/
def Wk.rest : Wk → Nat
  | .has _ => 2
  | .did _ => 1
  | _ => 0

/-- **C74.** The thread of the queue does no more than three steps for each thing handed in. -/
theorem C74_bound_partial (es : List Ev) (s : St) (hi : .init ∉ es) (hs : ∀ e ∈ es, e.sane) (hd : (seen es).drops < 2 ^ 31)
    (hr : run init es = some (.ok s)) : es.countP Ev.isWk ≤ 3 * es.countP Ev.isPut := by
  have key : ∀ es : List Ev, ∀ s, .init ∉ es → (∀ e ∈ es, e.sane) → (seen es).drops < 2 ^ 31 →
      run init es = some (.ok s) →
      es.countP Ev.isWk + s.wk.rest + 3 * ((seen es).put.length - (seen es).did - (inHand s).length)
        ≤ 3 * es.countP Ev.isPut := by
    intro es
    induction es using List.reverseRecOn with
    | nil =>
      intro s _ _ _ hr
      simp only [run, Option.some.injEq, Except.ok.injEq] at hr
      rw [← hr]
      simp [init, Wk.rest, seen, Seen.start, inHand]
    | append_singleton es e ih =>
      intro s hi hs hd hr
      have hd0 : (seen es).drops < 2 ^ 31 := by
        rw [seen_snoc] at hd
        exact Nat.lt_of_le_of_lt (drops_le _ e) hd
      have hi0 : .init ∉ es := fun h => hi (List.mem_append_left _ h)
      have hs0 : ∀ e ∈ es, e.sane := fun e he => hs e (List.mem_append_left _ he)
      rcases run_append es [e] hr with ⟨s0, h0, h1⟩ | ⟨f, _, h1⟩
      · have k := ih s0 hi0 hs0 hd0 h0
        obtain ⟨_, e0, inv0⟩ := inv_run hi0 hs0 hd0 h0
        cases e0
        obtain ⟨F, Q, ow, hp, ha, hq⟩ := inv0.places
        have hql := congrArg List.length hq
        simp only [List.length_append, List.length_map, List.length_drop] at hql
        have hdid := inv0.did
        rw [seen_snoc]
        simp only [List.countP_append, List.countP_singleton]
        have hst : step s0 e = some (.ok s) := by
          unfold run at h1
          cases hst : step s0 e with
          | none => rw [hst] at h1; cases h1
          | some y =>
            rw [hst] at h1
            cases y with
            | error f => cases h1
            | ok s1 => simp only [run] at h1; exact h1
        cases e with
        | get t r =>
          have hwk : s.wk = s0.wk ∧ s.cell = s0.cell := by
            simp only [step, stepGet] at hst
            (repeat' split at hst) <;>
            first
              | (simp only [Option.some.injEq, Except.ok.injEq] at hst; rw [← hst]; exact ⟨rfl, rfl⟩)
              | cases hst
          have hh : inHand s = inHand s0 := inHand_same hwk.1 (fun i _ => by rw [hwk.2])
          simp only [Ev.isWk, Ev.isPut, Bool.false_eq_true, if_false, hwk.1, hh]
          have : ((seen es).next (.get t r)).put = (seen es).put ∧ ((seen es).next (.get t r)).did = (seen es).did := by
            simp only [Seen.next]
            split <;> exact ⟨rfl, rfl⟩
          rw [this.1, this.2]
          omega
        | fill t =>
          have hwk : s.wk = s0.wk ∧ (inHand s).length = (inHand s0).length := by
            simp only [step, stepFill] at hst
            (repeat' split at hst) <;>
            first
              | (simp only [Option.some.injEq, Except.ok.injEq] at hst; rw [← hst]; exact ⟨rfl, by unfold inHand; cases s0.wk <;> rfl⟩)
              | cases hst
          simp only [Ev.isWk, Ev.isPut, Bool.false_eq_true, if_false, hwk.1, hwk.2, Seen.next]
          omega
        | put t =>
          have hwk : s.wk = s0.wk ∧ (inHand s).length = (inHand s0).length := by
            simp only [step, stepPut, putItem] at hst
            (repeat' split at hst) <;>
            first
              | (simp only [Option.some.injEq, Except.ok.injEq] at hst; rw [← hst]; exact ⟨rfl, by unfold inHand; cases s0.wk <;> rfl⟩)
              | cases hst
          simp only [Ev.isWk, Ev.isPut, Bool.false_eq_true, if_false, if_true, hwk.1, hwk.2, Seen.next, List.length_append,
            List.length_singleton]
          omega
        | xput =>
          have hwk : s.wk = s0.wk ∧ (inHand s).length = (inHand s0).length := by
            simp only [step, stepXput, putItem] at hst
            (repeat' split at hst) <;>
            first
              | (simp only [Option.some.injEq, Except.ok.injEq] at hst; rw [← hst]; exact ⟨rfl, by unfold inHand; cases s0.wk <;> rfl⟩)
              | cases hst
          simp only [Ev.isWk, Ev.isPut, Bool.false_eq_true, if_false, if_true, hwk.1, hwk.2, Seen.next, List.length_append,
            List.length_singleton]
          omega
        | take =>
          have hwk : s0.wk = .idle ∧ (∃ i, s.wk = .has i) ∧ s0.queue ≠ none := by
            simp only [step, stepTake] at hst
            cases h1 : s0.wk with
            | idle =>
              rw [h1] at hst
              cases h2 : s0.queue with
              | none => rw [h2] at hst; cases hst
              | some i =>
                rw [h2] at hst
                simp only [Option.some.injEq, Except.ok.injEq] at hst
                rw [← hst]
                exact ⟨rfl, ⟨i, rfl⟩, nofun⟩
            | has i => rw [h1] at hst; cases hst
            | did i => rw [h1] at hst; cases hst
            | ended => rw [h1] at hst; cases hst
          obtain ⟨w1, ⟨i, w2⟩, w3⟩ := hwk
          have hQ : Q ≠ [] := by
            intro h
            have hc := hp.cQ
            rw [h] at hc
            exact w3 hc
          have hQl := List.length_pos_iff.mpr hQ
          simp only [inHand, w1, List.length_nil] at hql k
          simp only [Ev.isWk, Ev.isPut, Bool.false_eq_true, if_false, if_true, inHand, w1, w2, Wk.rest, Seen.next,
            List.length_singleton] at k ⊢
          omega
        | work =>
          have hwk : (∃ i, s0.wk = .has i) ∧ s.wk.rest ≤ 1 ∧ inHand s = [] := by
            simp only [step, stepWork] at hst
            cases h1 : s0.wk with
            | has i =>
              simp only [h1] at hst
              cases h2 : (s0.cell i).ty with
              | write =>
                simp only [h2, Option.some.injEq, Except.ok.injEq] at hst
                rw [← hst]
                exact ⟨⟨i, rfl⟩, Nat.le_refl 1, rfl⟩
              | exit =>
                simp only [h2, Option.some.injEq, Except.ok.injEq] at hst
                rw [← hst]
                exact ⟨⟨i, rfl⟩, Nat.zero_le 1, rfl⟩
            | idle => rw [h1] at hst; cases hst
            | did i => rw [h1] at hst; cases hst
            | ended => rw [h1] at hst; cases hst
          obtain ⟨⟨i, w1⟩, w2, w3⟩ := hwk
          simp only [inHand, w1, List.length_singleton, Wk.rest] at hql k
          simp only [Ev.isWk, Ev.isPut, Bool.false_eq_true, if_false, if_true, w3, Seen.next, List.length_nil]
          omega
        | rel =>
          have hwk : (∃ i, s0.wk = .did i) ∧ s.wk = .idle := by
            simp only [step, stepRel] at hst
            (repeat' split at hst) <;>
            first
              | (rename_i i h1; simp only [Option.some.injEq, Except.ok.injEq] at hst; rw [← hst]; exact ⟨⟨i, h1⟩, rfl⟩)
              | cases hst
          obtain ⟨⟨i, w1⟩, w2⟩ := hwk
          simp only [inHand, w1, List.length_nil, Wk.rest] at hql k
          simp only [Ev.isWk, Ev.isPut, Bool.false_eq_true, if_false, if_true, inHand, w2, Seen.next, List.length_nil, Wk.rest]
          omega
        | xget =>
          have hwk : s.wk = s0.wk ∧ (inHand s).length = (inHand s0).length := by
            simp only [step, stepXget] at hst
            (repeat' split at hst) <;>
            first
              | (simp only [Option.some.injEq, Except.ok.injEq] at hst; rw [← hst]; exact ⟨rfl, by unfold inHand; cases s0.wk <;> rfl⟩)
              | cases hst
          simp only [Ev.isWk, Ev.isPut, Bool.false_eq_true, if_false, hwk.1, hwk.2, Seen.next]
          omega
        | xfill =>
          have hwk : s.wk = s0.wk ∧ (inHand s).length = (inHand s0).length := by
            simp only [step, stepXfill] at hst
            (repeat' split at hst) <;>
            first
              | (simp only [Option.some.injEq, Except.ok.injEq] at hst; rw [← hst]; exact ⟨rfl, by unfold inHand; cases s0.wk <;> rfl⟩)
              | cases hst
          simp only [Ev.isWk, Ev.isPut, Bool.false_eq_true, if_false, hwk.1, hwk.2, Seen.next]
          omega
        | xjoin =>
          have hwk : s.wk = s0.wk ∧ (inHand s).length = (inHand s0).length := by
            simp only [step, stepXjoin] at hst
            (repeat' split at hst) <;>
            first
              | (rename_i h3; simp only [Option.some.injEq, Except.ok.injEq] at hst; rw [← hst]; exact ⟨h3.symm ▸ rfl, by unfold inHand; simp only [h3]⟩)
              | cases hst
          simp only [Ev.isWk, Ev.isPut, Bool.false_eq_true, if_false, hwk.1, hwk.2, Seen.next]
          omega
        | init => exact absurd (List.mem_append_right _ (List.mem_singleton.mpr rfl)) hi
      · cases h1
  have := key es s hi hs hd hr
  omega

/-- **C74.** When the end of the process waits for an item, one of the threads that hold the items can go on: it writes or
hands in its message, or it is the thread of the queue. -/
theorem C74_wait_partial (es : List Ev) (s : St) (hi : .init ∉ es) (hs : ∀ e ∈ es, e.sane) (hd : (seen es).drops < 2 ^ 31)
    (hr : run init es = some (.ok s)) (hx : s.ex = .no) (hj : s.joined = false) (hn : step s .xget = none) :
    ∃ e, step s e ≠ none ∧ (e.isWk = true ∨ ∃ t, e = .fill t ∨ e = .put t) := by
  obtain ⟨_, e0, inv⟩ := inv_run hi hs hd hr
  cases e0
  obtain ⟨F, Q, ow, hp, ha, hq⟩ := inv.places
  have htodo := inv.ends.todo
  rw [hj] at htodo
  simp only [Bool.false_eq_true, if_false] at htodo
  have hend : s.wk ≠ .ended := by
    intro hw
    obtain ⟨P, R, h1, h2, h3⟩ := inv.ends.after hw
    exact inv.ends.before hj (by rw [hx]; nofun) (by rw [h1]; simp)
  have hfree : s.free = none := by
    cases hf : s.free with
    | none => rfl
    | some i =>
      simp only [step, stepXget, hx, htodo, hf] at hn
      cases hn
  have hF : F = [] := by
    have hc := hp.cF
    rw [hfree] at hc
    exact chain_none hc
  cases hw : s.wk with
  | ended => exact absurd hw hend
  | has i =>
    refine ⟨.work, ?_, .inl rfl⟩
    simp only [step, stepWork, hw]
    cases (s.cell i).ty <;> nofun
  | did i =>
    refine ⟨.rel, ?_, .inl rfl⟩
    simp only [step, stepRel, hw]
    nofun
  | idle =>
    cases hQ : s.queue with
    | some i =>
      refine ⟨.take, ?_, .inl rfl⟩
      simp only [step, stepTake, hw, hQ]
      nofun
    | none =>
      have hQ' : Q = [] := by
        have hc := hp.cQ
        rw [hQ] at hc
        exact chain_none hc
      have dead : ∃ t i, (s.pr t).item = some i := by
        cases h0 : ow 0 with
        | free => exact absurd ((hp.mF 0).mpr ⟨by decide, h0⟩) (by rw [hF]; nofun)
        | queue => exact absurd ((hp.mQ 0).mpr ⟨by decide, h0⟩) (by rw [hQ']; nofun)
        | thr t => exact ⟨t, 0, (hp.mT t 0).mpr ⟨by decide, h0⟩⟩
        | wk => exact absurd ((hp.mW 0).mpr ⟨by decide, h0⟩) (by rw [hw]; nofun)
        | ex => exact absurd ((hp.mX 0).mpr ⟨by decide, h0⟩) (by rw [hx]; nofun)
        | dead => exact absurd (hp.mD 0 (by decide) h0) hend
      obtain ⟨t, i, ht⟩ := dead
      cases hpt : s.pr t with
      | idle => rw [hpt] at ht; cases ht
      | got j r =>
        refine ⟨.fill t, ?_, .inr ⟨t, .inl rfl⟩⟩
        simp only [step, stepFill, hpt]
        cases format r <;> nofun
      | filled j =>
        refine ⟨.put t, ?_, .inr ⟨t, .inr rfl⟩⟩
        simp only [step, stepPut, hpt]
        nofun

end Verif.Log
