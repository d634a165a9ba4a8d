import Verif.Ended.Inv

/-!
# C82: every action keeps the invariant
-/

namespace Verif.Ended

theorem at_cases (k : Strm) : (k = ⟨false, false⟩ ∧ k.at = 1) ∨ (k = ⟨false, true⟩ ∧ k.at = 2) ∨ (k = ⟨true, false⟩ ∧ k.at = 3) ∨
    (k = ⟨true, true⟩ ∧ k.at = 4) := by
  obtain ⟨a, b⟩ := k
  cases a <;> cases b <;> simp [Strm.at]

/-- The record after an action that copies no counters of `k`. -/
theorem noted_cnt (x : Sess) (now : Int) (pc : Nat) (k : Strm) :
    (noted x now pc).cnt k = if k.at = pc then x.cnt k else x.acct.cnt k := by
  rcases at_cases k with ⟨rfl, h⟩ | ⟨rfl, h⟩ | ⟨rfl, h⟩ | ⟨rfl, h⟩ <;> rw [h] <;>
    match pc with
    | 0 => rfl
    | 1 => rfl
    | 2 => rfl
    | 3 => rfl
    | 4 => rfl
    | n + 5 => (simp only [noted]; rw [if_neg (by omega)])

theorem noted_rest (x : Sess) (now : Int) (pc : Nat) : (noted x now pc).seuid = x.acct.seuid ∧ (noted x now pc).init = x.acct.init ∧
    (noted x now pc).destroy = (if pc = 0 then now else x.acct.destroy) ∧
    (noted x now pc).complete = if pc = 0 then x.complete else x.acct.complete := by
  match pc with
  | 0 => exact ⟨rfl, rfl, rfl, rfl⟩
  | 1 => exact ⟨rfl, rfl, rfl, rfl⟩
  | 2 => exact ⟨rfl, rfl, rfl, rfl⟩
  | 3 => exact ⟨rfl, rfl, rfl, rfl⟩
  | 4 => exact ⟨rfl, rfl, rfl, rfl⟩
  | n + 5 => exact ⟨rfl, rfl, by simp [noted], by simp [noted]⟩

theorem inv_create {h : List Act} {s s' : St} (hi : Inv h s) (id : Nat) (now : Int) (hst : step s (.create id now) = some s') :
    Inv (h ++ [.create id now]) s' := by
  simp only [step] at hst
  split at hst
  · cases hst
  next hid =>
  have hs' := Option.some.inj hst
  have e1 : s'.ids = id :: s.ids := by rw [← hs']
  have e2 : s'.sess = (put s id (some (fresh id now))).sess := by rw [← hs']
  have e3 : s'.recs = s.recs := by rw [← hs']; rfl
  have tc : ∀ f, total s' f = f (some (fresh id now)) + total s f := fun f => total_create s id _ f hid s' e1 e2
  obtain ⟨g1, g2, g3, g4⟩ := hi.given id hid
  have tt : ∀ {p w v}, Tally s p w v → Tally s' p w v := by
    intro p w v hv
    unfold Tally at *
    rw [e3, tc, hv]
    simp [tally, fresh]
  refine ⟨?_, ?_, ?_, ?_, by rw [e3]; exact hi.distinct, ?_, ?_, ?_, ?_, ?_, ?_, ?_, ?_, ?_⟩
  · rw [e1]; exact List.nodup_cons.2 ⟨hid, hi.nodup⟩
  · intro j hj
    rw [e1] at hj
    simp only [List.mem_cons, not_or] at hj
    obtain ⟨b1, b2, b3, b4⟩ := hi.given j hj.2
    refine ⟨by rw [e2]; simp [put, hj.1, b1], fun k => by rw [arrivals_snoc, b2]; rfl, by simp [b3], fun t => by simp [b4 t]⟩
  · intro j y hy
    rw [e2] at hy
    by_cases hne : j = id
    · subst hne
      simp [put] at hy
      subst hy
      refine ⟨rfl, ⟨rfl, rfl⟩, by simp [fresh], ?_, ?_, ?_, ?_⟩
      · simp [fresh, g3]
      · intro k; rw [arrivals_snoc, g2]; rfl
      · intro _ t; simp [g4 t]
      · intro p hp; cases hp
    · simp [put, hne] at hy
      exact (hi.sess j y hy).other _ (fun _ => rfl) (by simp) (by simp)
  · intro r hr
    rw [e3] at hr
    obtain ⟨h1, h2, h3⟩ := hi.recs r hr
    have hne : r.seuid ≠ id := fun e => hid (e ▸ h2)
    exact ⟨h1.mono _ (by simp), by rw [e1]; simp [h2], by rw [e2]; simp [put, hne, h3]⟩
  · rw [e1, ← hs']; simp [hi.created]
  · rw [tc, e1, e3]
    have := hi.standing
    simp only [List.length_cons, Option.isSome_some, if_true] at *
    omega
  · have : s'.completed = s.completed := by rw [← hs']; rfl
    rw [this, tc, e3]
    have := hi.completed
    simp only [isWhole, fresh] at *
    simp
    omega
  all_goals
    refine tt ?_
    rw [← hs']
  · exact hi.nortp
  · exact hi.owrtp
  · exact hi.nortcp
  · exact hi.owrtcp
  · exact hi.destroyed
  · exact hi.duration

theorem inv_complete {h : List Act} {s s' : St} (hi : Inv h s) (id : Nat) (hst : step s (.complete id) = some s') :
    Inv (h ++ [.complete id]) s' := by
  simp only [step] at hst
  split at hst
  · cases hst
  next x hx =>
  split at hst
  · cases hst
  next hpc =>
  rw [← Option.some.inj hst]
  have sx := hi.sess id x hx
  refine hi.change (.complete id) id x { x with complete := true } hx (fun _ _ _ => rfl) (fun j hj e => hj (Act.complete.inj e).symm)
    (by simp) (by simp) ?_ rfl rfl _ s.timeout ?_
  · refine ⟨sx.seuid, sx.acct, by simp [sx.init], by simp, ?_, ?_, ?_⟩
    · intro k; rw [arrivals_snoc]; simp only [arrivals, List.filterMap_cons_none, List.filterMap_nil, List.append_nil]; exact sx.cnt k
    · intro hp t; simp [sx.stands hp t]
    · intro p hp
      simp only at hp
      rw [hp] at hpc
      simp at hpc
  · cases hc : x.complete <;> simp <;> omega

theorem inv_timeout {h : List Act} {s s' : St} (hi : Inv h s) (id : Nat) (hst : step s (.timeout id) = some s') :
    Inv (h ++ [.timeout id]) s' := by
  simp only [step] at hst
  split at hst
  · cases hst
  next x hx =>
  split at hst
  · cases hst
  next hpc =>
  rw [← Option.some.inj hst]
  have sx := hi.sess id x hx
  have := hi.change (.timeout id) id x x hx (fun _ _ _ => rfl) (by simp) (by simp) (by simp)
    (sx.other _ (fun _ => rfl) (by simp) (by simp)) rfl rfl s.completed (s.timeout + 1) (by omega)
  have e : ({ put s id (some x) with completed := s.completed, timeout := s.timeout + 1 } : St) = { s with timeout := s.timeout + 1 } := by
    simp only [put, St.mk.injEq, and_true, true_and]
    funext j
    by_cases hj : j = id
    · subst hj; simp [hx]
    · simp [hj]
  rw [e] at this
  exact this

theorem inv_packet {h : List Act} {s s' : St} (hi : Inv h s) (id : Nat) (k : Strm) (t : Ts) (hst : step s (.packet id k t) = some s') :
    Inv (h ++ [.packet id k t]) s' := by
  simp only [step] at hst
  split at hst
  · cases hst
  next x hx =>
  rw [← Option.some.inj hst]
  have sx := hi.sess id x hx
  have ha : ∀ j l, j ≠ id → arrivals [.packet id k t] j l = [] := by
    intro j l hj
    simp [arrivals, Ne.symm hj]
  refine hi.change (.packet id k t) id x { x with cnt := fun j => if j = k then reg (x.cnt k) t else x.cnt j } hx ha (by simp)
    (by simp) (by simp) ?_ rfl rfl s.completed s.timeout (by simp)
  refine ⟨sx.seuid, sx.acct, by simp [sx.init], by simp [sx.complete], ?_, ?_, ?_⟩
  · intro l
    rw [arrivals_snoc]
    by_cases hl : l = k
    · subst hl
      simp only [if_true, arrivals, List.filterMap_cons, List.filterMap_nil, and_self]
      rw [counted_snoc, sx.cnt l]; rfl
    · have : arrivals [.packet id k t] id l = [] := by simp [arrivals, Ne.symm hl]
      rw [this, List.append_nil]
      simp only [hl, if_false]
      exact sx.cnt l
  · intro hp u; simp [sx.stands hp u]
  · intro p hp
    obtain ⟨h1, h2, h3, h4, h5⟩ := sx.ends p hp
    exact ⟨h1, h2, h3.mono _, h4, fun k hk => (h5 k hk).mono _⟩

theorem inv_destroy {h : List Act} {s s' : St} (hi : Inv h s) (id : Nat) (now : Int) (hst : step s (.destroy id now) = some s') :
    Inv (h ++ [.destroy id now]) s' := by
  simp only [step] at hst
  split at hst
  · cases hst
  next x hx =>
  rw [← Option.some.inj hst]
  have sx := hi.sess id x hx
  have hid : id ∈ s.ids := by
    by_contra hni
    rw [(hi.given id hni).1] at hx; cases hx
  generalize hpp : x.pc.getD 0 = pc
  have hpc : pc ≤ 9 ∧ (1 ≤ pc → x.pc = some pc) ∧ (pc = 0 → x.pc = none) := by
    cases hp : x.pc with
    | none => rw [hp] at hpp; simp at hpp; subst hpp; simp
    | some p =>
      rw [hp] at hpp; simp at hpp; subst hpp
      obtain ⟨h1, h2, _⟩ := sx.ends p hp
      exact ⟨h2, fun _ => rfl, fun e => by omega⟩
  obtain ⟨hle, hsome, hnone⟩ := hpc
  have hcomp : x.acct.complete = x.complete ∨ pc < 5 := by
    by_cases h5 : pc < 5
    · exact .inr h5
    · exact .inl (sx.ends pc (hsome (by omega))).2.2.2.1
  obtain ⟨f1, f2, f3, f4, f5, f6, f7⟩ := told_fields s x pc
  obtain ⟨m1, m2, m3, m4⟩ := told_media s x pc hcomp
  have ts : ∀ (p : Nat) (w : Rec → Int) (v d : Int), 5 ≤ p ∧ p ≤ 8 → Tally s p w v → (d = if pc = p then w x.acct else 0) →
      Tally (destroyNext s id x now) p w (v + d) := by
    intro p w v d hp hv hd
    exact tally_step s id x now p w v d hx hi.nodup hid hp (by rw [hpp]; exact hle) hv (by rw [hpp]; exact hd)
  have e1 : (destroyNext s id x now).ids = s.ids := by simp only [destroyNext, put, hpp, f1]
  have e2 : ∀ j, (destroyNext s id x now).sess j = if j = id then
      (if pc = 9 then none else some { x with pc := some (pc + 1), acct := noted x now pc }) else s.sess j := by
    intro j; simp only [destroyNext, put, hpp, f2]
  have e3 : (destroyNext s id x now).recs = if pc = 9 then s.recs ++ [x.acct] else s.recs := by simp only [destroyNext, put, hpp, f3]
  have began : Began (h ++ [.destroy id now]) id (if pc = 0 then now else x.acct.destroy) := by
    by_cases h0 : pc = 0
    · rw [if_pos h0]
      exact ⟨h, [], rfl, sx.stands (hnone h0)⟩
    · rw [if_neg h0]
      exact (sx.ends pc (hsome (by omega))).2.2.1.mono _
  obtain ⟨r1, r2, r3, r4⟩ := noted_rest x now pc
  have snap : ∀ k, k.at ≤ pc → Snap (h ++ [.destroy id now]) (noted x now pc) k := by
    intro k hk
    have hk1 : 1 ≤ k.at := by rcases at_cases k with ⟨_, h⟩ | ⟨_, h⟩ | ⟨_, h⟩ | ⟨_, h⟩ <;> omega
    by_cases he : k.at = pc
    · refine ⟨h ++ [.destroy id now], [], by simp, ?_, ?_⟩
      · rw [r1, sx.acct.1, r3]; exact began
      · rw [noted_cnt, if_pos he, r1, sx.acct.1, sx.cnt k, arrivals_snoc]; simp [arrivals]
    · obtain ⟨h1, h2, e, b, c⟩ := (sx.ends pc (hsome (by omega))).2.2.2.2 k (by omega)
      refine ⟨h1, h2 ++ [.destroy id now], by rw [e]; simp, ?_, ?_⟩
      · rw [r1, r3, if_neg (by omega)]; exact b
      · rw [noted_cnt, if_neg he, r1]; exact c
  refine ⟨by rw [e1]; exact hi.nodup, ?_, ?_, ?_, ?_, ?_, ?_, ?_, ?_, ?_, ?_, ?_, ?_, ?_⟩
  · intro j hj
    rw [e1] at hj
    have hne : j ≠ id := fun e => hj (e ▸ hid)
    obtain ⟨g1, g2, g3, g4⟩ := hi.given j hj
    refine ⟨by rw [e2, if_neg hne]; exact g1, fun k => by rw [arrivals_snoc, g2]; rfl, by simp [g3], fun t => ?_⟩
    simp only [List.mem_append, List.mem_singleton, not_or]
    exact ⟨g4 t, fun e => hne (Act.destroy.inj e).1⟩
  · intro j y hy
    rw [e2] at hy
    by_cases hne : j = id
    · subst hne
      rw [if_pos rfl] at hy
      split at hy
      · cases hy
      · next h9 =>
        have hy' := Option.some.inj hy
        subst hy'
        refine ⟨sx.seuid, ⟨by rw [r1]; exact sx.acct.1, by rw [r2]; exact sx.acct.2⟩, by simp [sx.init], by simp [sx.complete], ?_, ?_, ?_⟩
        · intro k
          rw [arrivals_snoc]
          simp only [arrivals, List.filterMap_cons_none, List.filterMap_nil, List.append_nil]
          exact sx.cnt k
        · intro hp; cases hp
        · intro p hp
          have hp' := Option.some.inj hp
          subst hp'
          refine ⟨by omega, by omega, by rw [r3]; exact began, ?_, fun k hk => snap k (by omega)⟩
          rw [r4]
          split
          · rfl
          · exact (sx.ends pc (hsome (by omega))).2.2.2.1
    · rw [if_neg hne] at hy
      exact (hi.sess j y hy).other _ (fun _ => rfl) (by simp) (fun t e => hne (Act.destroy.inj e).1.symm)
  · intro r hr
    rw [e3] at hr
    have old : ∀ r ∈ s.recs, RInv (h ++ [.destroy id now]) r ∧ r.seuid ∈ (destroyNext s id x now).ids ∧
        (destroyNext s id x now).sess r.seuid = none := by
      intro r hr
      obtain ⟨h1, h2, h3⟩ := hi.recs r hr
      have hne : r.seuid ≠ id := fun e => by rw [e, hx] at h3; cases h3
      exact ⟨h1.mono _ (by simp), by rw [e1]; exact h2, by rw [e2, if_neg hne]; exact h3⟩
    split at hr
    · next h9 =>
      rcases List.mem_append.1 hr with hr | hr
      · exact old r hr
      · simp at hr
        subst hr
        obtain ⟨_, _, b3, b4, b5⟩ := sx.ends pc (hsome (by omega))
        refine ⟨⟨?_, ?_, ?_⟩, by rw [e1, sx.acct.1]; exact hid, by rw [e2, sx.acct.1, if_pos rfl, if_pos h9]⟩
        · rw [sx.acct.1, sx.acct.2]; simp [sx.init]
        · rw [sx.acct.1, b4, sx.complete]; simp
        · intro k
          obtain ⟨h1, h2, e, b, c⟩ := b5 k (by rcases at_cases k with ⟨_, h⟩ | ⟨_, h⟩ | ⟨_, h⟩ | ⟨_, h⟩ <;> omega)
          exact ⟨h1, h2 ++ [.destroy id now], by rw [e]; simp, ⟨now, by rw [sx.acct.1]; simp⟩, b, c⟩
    · exact old r hr
  · rw [e3]
    split
    · rw [List.map_append, List.nodup_append]
      refine ⟨hi.distinct, by simp, ?_⟩
      intro a ha b hb
      simp at ha hb
      obtain ⟨r, hr, rfl⟩ := ha
      subst hb
      intro e
      have := (hi.recs r hr).2.2
      rw [e, sx.acct.1, hx] at this
      cases this
    · exact hi.distinct
  · have : (destroyNext s id x now).created = s.created := by simp only [destroyNext, put, hpp, f4]
    rw [this, e1]; exact hi.created
  · have ht := total_put (told s x pc) id (if pc = 9 then none else some { x with pc := some (pc + 1), acct := noted x now pc })
      (fun o => if o.isSome then 1 else 0) (by rw [f1]; exact hi.nodup) (by rw [f1]; exact hid)
    have e : total (destroyNext s id x now) (fun o => if o.isSome then 1 else 0) =
        total (put (told s x pc) id (if pc = 9 then none else some { x with pc := some (pc + 1), acct := noted x now pc })) (fun o => if o.isSome then 1 else 0) := by
      simp only [destroyNext, hpp]
    have e' : total (told s x pc) (fun o => if o.isSome then 1 else 0) = total s (fun o => if o.isSome then 1 else 0) := by
      unfold total; rw [f1, f2]
    rw [e, ht, e1, e3, e', f2, hx]
    have := hi.standing
    split <;> simp <;> omega
  · have ht := total_put (told s x pc) id (if pc = 9 then none else some { x with pc := some (pc + 1), acct := noted x now pc })
      isWhole (by rw [f1]; exact hi.nodup) (by rw [f1]; exact hid)
    have e : total (destroyNext s id x now) isWhole =
        total (put (told s x pc) id (if pc = 9 then none else some { x with pc := some (pc + 1), acct := noted x now pc })) isWhole := by
      simp only [destroyNext, hpp]
    have e' : total (told s x pc) isWhole = total s isWhole := by
      unfold total; rw [f1, f2]
    have ec : (destroyNext s id x now).completed = s.completed := by simp only [destroyNext, put, hpp, f5]
    rw [e, ht, ec, e3, e', f2, hx]
    have := hi.completed
    split
    · next h9 =>
      rw [sum_snoc]
      have hc : x.acct.complete = x.complete := (sx.ends pc (hsome (by omega))).2.2.2.1
      simp only [isWhole, whole, hc]
      omega
    · simp only [isWhole]
      omega
  · have : ((destroyNext s id x now).nortp : Int) = (told s x pc).nortp := by simp only [destroyNext, put, hpp]
    rw [this, m1]; exact ts 5 _ _ _ (by omega) hi.nortp rfl
  · have : ((destroyNext s id x now).owrtp : Int) = (told s x pc).owrtp := by simp only [destroyNext, put, hpp]
    rw [this, m2]; exact ts 5 _ _ _ (by omega) hi.owrtp rfl
  · have : ((destroyNext s id x now).nortcp : Int) = (told s x pc).nortcp := by simp only [destroyNext, put, hpp]
    rw [this, m3]; exact ts 6 _ _ _ (by omega) hi.nortcp rfl
  · have : ((destroyNext s id x now).owrtcp : Int) = (told s x pc).owrtcp := by simp only [destroyNext, put, hpp]
    rw [this, m4]; exact ts 6 _ _ _ (by omega) hi.owrtcp rfl
  · have : ((destroyNext s id x now).destroyed : Int) = s.destroyed + (if pc = 7 then 1 else 0 : Int) := by
      simp only [destroyNext, put, hpp, f6]; split <;> simp
    rw [this]; exact ts 7 _ _ _ (by omega) hi.destroyed rfl
  · have : (destroyNext s id x now).duration = s.duration + (if pc = 8 then x.acct.destroy - x.acct.init else 0) := by
      simp only [destroyNext, put, hpp, f7]
    rw [this]; exact ts 8 _ _ _ (by omega) hi.duration rfl

theorem run_inv {h : List Act} {s : St} (hr : Run h s) : Inv h s := by
  induction hr with
  | nil => exact inv0
  | @snoc h s a s' _ hst ih =>
    cases a with
    | create id now => exact inv_create ih id now hst
    | complete id => exact inv_complete ih id hst
    | timeout id => exact inv_timeout ih id hst
    | packet id k t => exact inv_packet ih id k t hst
    | destroy id now => exact inv_destroy ih id now hst

end Verif.Ended
