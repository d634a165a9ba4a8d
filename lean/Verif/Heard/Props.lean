import Verif.Heard.Run

/-! # C84: those who listen in, and what is heard -/

namespace Verif.Heard

open Verif.Pproc

theorem held_iff {past : List Ev} {F W : List (Option Nat)} (h : Shape past F W) : Held past ↔ F ≠ [] := by
  constructor
  · rintro (e | ⟨k, e⟩) hF
    · have := h.play.2 e; simp [hF] at this
    · have := (h.gag k).2 e; simp [hF] at this
  · intro hF
    cases F with
    | nil => exact absurd rfl hF
    | cons x F =>
      cases x with
      | none => exact .inl (h.play.1 (by simp))
      | some k => exact .inr ⟨k, (h.gag k).1 (by simp)⟩

theorem stops_iff {past : List Ev} {s : St} (h : Inv past s) (p pt : Nat) (r : Bool) :
    Stops (s.ctx p pt r) ↔ Hidden past pt ∨ (Digit past pt ∧ r = false) := by
  have hc : (s.ctx p pt r).cat = catching past := h.cat
  have hr : (s.ctx p pt r).room = r := rfl
  have hp : (s.ctx p pt r).pt = pt := rfl
  unfold Stops isDtmf dtmfEnq Hidden Digit
  rw [hc, hr, hp]
  cases hv : catching past with
  | none => simp
  | some v =>
    obtain ⟨a, b⟩ := v
    by_cases ha : a = pt
    · subst ha
      cases r <;> cases b <;> simp [drop, tee]
    · simp [ha]

theorem digit_iff {past : List Ev} {s : St} (h : Inv past s) (p pt : Nat) (r : Bool) :
    isDtmf (s.ctx p pt r) = true ↔ Digit past pt := by
  have hc : (s.ctx p pt r).cat = catching past := h.cat
  have hp : (s.ctx p pt r).pt = pt := rfl
  unfold isDtmf Digit
  rw [hc, hp]
  cases hv : catching past with
  | none => simp
  | some v => obtain ⟨a, b⟩ := v; simp

theorem digit_some {past : List Ev} {pt : Nat} (h : Digit past pt) : (catching past).isSome = true := by
  obtain ⟨b, h⟩ := h; rw [h]; rfl

theorem rout_mem (c : Ctx) (x : Out) : x ∈ rout c ↔ x = .recorded c.pkt ∧ c.recd = true ∧ c.player = false := by
  unfold rout
  cases c.recd <;> cases c.player <;> simp

theorem wout_packet (c : Ctx) (W : List (Option Nat)) : ∀ x ∈ wout c W, x.packet = c.pkt := by
  induction W with
  | nil => cases h : c.addr <;> simp [wout, h, Out.packet]
  | cons y W ih =>
    cases y with
    | some j =>
      intro x hx
      rcases List.mem_cons.1 hx with e | e
      · subst e; rfl
      · exact ih x e
    | none =>
      intro x hx
      simp only [wout] at hx
      split at hx
      · rcases List.mem_append.1 hx with e | e
        · split at e
          · simp only [List.mem_singleton] at e; subst e; rfl
          · simp at e
        · split at e
          · simp at e
          · exact ih x e
      · exact ih x hx

/-- What a packet that reaches the witnesses leaves behind. -/
theorem tail_facts {past : List Ev} {s : St} (h : Inv past s) {F W : List (Option Nat)} (hs : Shape past F W) (p pt : Nat)
    (r : Bool) : let o := rout (s.ctx p pt r) ++ wout (s.ctx p pt r) W
    o.Nodup ∧ (∀ x ∈ o, x.packet = p) ∧
    (.recorded p ∈ o ↔ recording past = true ∧ playing past = false) ∧
    (.relayed p ∈ o ↔ reachable past = true ∧ ¬ Hidden past pt ∧ (Digit past pt → r = true)) ∧
    (.caught p ∈ o ↔ Digit past pt ∧ r = true) ∧
    (∀ k, .copied k p ∈ o ↔ copiedTo k past = true ∧ (Hidden past pt ∨ (Digit past pt ∧ r = false) → before k past = true)) := by
  have hst := stops_iff h p pt r
  have hdi := digit_iff h p pt r
  have hcat : ∀ {x}, x = Stops (s.ctx p pt r) → (none ∈ W ∧ x ↔ x) := by
    intro x hx; subst hx
    refine ⟨fun q => q.2, fun q => ⟨hs.cat.2 (digit_some (hdi.1 q.1)), q⟩⟩
  have hcat := hcat rfl
  refine ⟨?_, ?_, ?_, ?_, ?_, ?_⟩
  · rw [List.nodup_append]
    refine ⟨by unfold rout; split <;> simp, wout_nodup _ _ hs.wn, ?_⟩
    intro a ha b hb e
    subst e
    rw [rout_mem] at ha
    rw [ha.1] at hb
    exact wout_recorded _ _ _ hb
  · intro x hx
    rcases List.mem_append.1 hx with e | e
    · rw [rout_mem] at e; rw [e.1]; rfl
    · exact wout_packet _ _ x e
  · rw [List.mem_append, rout_mem]
    have := wout_recorded (s.ctx p pt r) W p
    constructor
    · rintro (e | e)
      · exact ⟨h.recd ▸ e.2.1, h.player ▸ e.2.2⟩
      · exact absurd e this
    · intro e
      refine .inl ⟨rfl, ?_, ?_⟩
      · show s.recd = true
        rw [h.recd]; exact e.1
      · show s.player = false
        rw [h.player]; exact e.2
  · rw [List.mem_append, rout_mem]
    have := wout_relayed (s.ctx p pt r) W
    rw [hcat, hst] at this
    have ha : (s.ctx p pt r).addr = reachable past := h.addr
    rw [ha] at this
    show (_ ∨ Out.relayed (s.ctx p pt r).pkt ∈ _) ↔ _
    rw [this]
    simp only [reduceCtorEq, false_and, false_or, not_or, not_and, Bool.not_eq_false]
  · rw [List.mem_append, rout_mem]
    have := wout_caught (s.ctx p pt r) W
    show (_ ∨ Out.caught (s.ctx p pt r).pkt ∈ _) ↔ _
    rw [this, hdi]
    simp only [reduceCtorEq, false_and, false_or]
    exact ⟨fun q => q.2, fun q => ⟨hs.cat.2 (digit_some q.1), q⟩⟩
  · intro k
    rw [List.mem_append, rout_mem]
    have := wout_copied (s.ctx p pt r) W k
    rw [hcat, hst, hs.copy, hs.before] at this
    show (_ ∨ Out.copied k (s.ctx p pt r).pkt ∈ _) ↔ _
    rw [this]
    simp only [reduceCtorEq, false_and, false_or]

/-- C84. What becomes of a packet of the party follows from the history: it is recorded, sent on, caught and copied
once each at most, and exactly when the commands say so. Where digits are hidden, or there is no room for the worker, the
packet is not sent on, and copied only where the copy was asked for before the catching. Nothing is faulted. -/
theorem C84_packet_partial (past : List Ev) (h : Proper past) (p pt : Nat) (room : Bool) :
    ∃ s l o, run past = .ok (s, l) ∧ run (.pkt p pt room :: past) = .ok (s, l ++ o) ∧ o.Nodup ∧ (∀ x ∈ o, x.packet = p) ∧
      (.recorded p ∈ o ↔ recording past = true ∧ ¬ Held past) ∧
      (.relayed p ∈ o ↔ ¬ Held past ∧ reachable past = true ∧ ¬ Hidden past pt ∧ (Digit past pt → room = true)) ∧
      (.caught p ∈ o ↔ ¬ Held past ∧ Digit past pt ∧ room = true) ∧
      (∀ k, .copied k p ∈ o ↔ ¬ Held past ∧ copiedTo k past = true ∧
        (Hidden past pt ∨ (Digit past pt ∧ room = false) → before k past = true)) := by
  obtain ⟨s, l, hr, hi⟩ := run_inv past h
  obtain ⟨F, W, ht, hs⟩ := hi.shape
  refine ⟨s, l, pass s 0 p pt room, hr, by simp only [run, hr, step], ?_⟩
  by_cases hF : F = []
  · have hh : ¬ Held past := by rw [held_iff hs]; exact fun q => q hF
    have hpl : playing past = false := by
      cases hq : playing past with
      | false => rfl
      | true => exact absurd (.inl hq) hh
    rw [pass_tail s F W ht 0 (.inr ⟨rfl, hF⟩)]
    obtain ⟨a, b, c, d, e, f⟩ := tail_facts hi hs p pt room
    refine ⟨a, b, ?_, ?_, ?_, ?_⟩
    · rw [c]; simp [hh, hpl]
    · rw [d]; simp [hh]
    · rw [e]; simp [hh]
    · intro k; rw [f k]; simp [hh]
  · have hh : Held past := (held_iff hs).2 hF
    rw [pass_front s F W ht hF]
    simp [hh]

/-- C84. What is played to the peer, and what another session sends here, is recorded only while nothing is played; it
is sent on, caught and copied like a packet of the party. -/
theorem C84_injected_partial (past : List Ev) (h : Proper past) (p pt : Nat) (room : Bool) :
    ∃ s l o, run past = .ok (s, l) ∧ run (.inject p pt room :: past) = .ok (s, l ++ o) ∧ o.Nodup ∧
      (∀ x ∈ o, x.packet = p) ∧
      (.recorded p ∈ o ↔ recording past = true ∧ playing past = false) ∧
      (.relayed p ∈ o ↔ reachable past = true ∧ ¬ Hidden past pt ∧ (Digit past pt → room = true)) ∧
      (.caught p ∈ o ↔ Digit past pt ∧ room = true) ∧
      (∀ k, .copied k p ∈ o ↔ copiedTo k past = true ∧
        (Hidden past pt ∨ (Digit past pt ∧ room = false) → before k past = true)) := by
  obtain ⟨s, l, hr, hi⟩ := run_inv past h
  obtain ⟨F, W, ht, hs⟩ := hi.shape
  refine ⟨s, l, pass s 8 p pt room, hr, by simp only [run, hr, step], ?_⟩
  rw [pass_tail s F W ht 8 (.inl rfl)]
  exact tail_facts hi hs p pt room

theorem relayed_of {p : Nat} : ∀ {o : List Out}, o.Nodup → (∀ x ∈ o, x.packet = p) →
    relayedOf o = if Out.relayed p ∈ o then [p] else []
  | [], _, _ => rfl
  | x :: o, hn, hp => by
    have hn' := List.nodup_cons.1 hn
    have ih := relayed_of hn'.2 fun y hy => hp y (List.mem_cons_of_mem _ hy)
    have hx := hp x List.mem_cons_self
    unfold relayedOf at ih ⊢
    cases x with
    | relayed q =>
      simp only [Out.packet] at hx; subst hx
      simp [ih, hn'.1]
    | recorded q => simp [ih]
    | caught q => simp [ih]
    | copied k q => simp [ih]

theorem recorded_of {p : Nat} : ∀ {o : List Out}, o.Nodup → (∀ x ∈ o, x.packet = p) →
    recordedOf o = if Out.recorded p ∈ o then [p] else []
  | [], _, _ => rfl
  | x :: o, hn, hp => by
    have hn' := List.nodup_cons.1 hn
    have ih := recorded_of hn'.2 fun y hy => hp y (List.mem_cons_of_mem _ hy)
    have hx := hp x List.mem_cons_self
    unfold recordedOf at ih ⊢
    cases x with
    | recorded q =>
      simp only [Out.packet] at hx; subst hx
      simp [ih, hn'.1]
    | relayed q => simp [ih]
    | caught q => simp [ih]
    | copied k q => simp [ih]

/-- Only packets leave anything behind. -/
theorem step_silent {s s' : St} {e : Ev} {o : List Out} (h : step s e = .ok (s', o))
    (h1 : ∀ p pt r, e ≠ .pkt p pt r) (h2 : ∀ p pt r, e ≠ .inject p pt r) : o = [] := by
  cases e with
  | pkt p pt r => exact absurd rfl (h1 p pt r)
  | inject p pt r => exact absurd rfl (h2 p pt r)
  | stop =>
    simp only [step, St.without] at h
    split at h
    · cases h
    · cases h; rfl
  | uncopy k =>
    simp only [step, St.without] at h
    split at h
    · cases h
    · cases h; rfl
  | ungag k =>
    simp only [step, St.without] at h
    split at h
    · cases h
    · cases h; rfl
  | _ => cases h; rfl

theorem run_cons {e : Ev} {past : List Ev} {s' : St} {l' : List Out} (h : run (e :: past) = .ok (s', l')) :
    ∃ s l o, run past = .ok (s, l) ∧ step s e = .ok (s', o) ∧ l' = l ++ o := by
  simp only [run] at h
  split at h
  · cases h
  · next s l hr =>
    split at h
    · cases h
    · next s2 o hs => cases h; exact ⟨s, l, o, hr, hs, rfl⟩

theorem recording_after {a b : List Ev} (h : Ev.record false ∉ a) : recording (a ++ .record true :: b) = true := by
  induction a with
  | nil => rfl
  | cons e a ih =>
    simp only [List.mem_cons, not_or] at h
    cases e with
    | record on =>
      cases on with
      | true => rfl
      | false => exact absurd rfl h.1
    | _ => exact ih h.2

/-- C84. Whatever happens after a recording has begun, and until it ends: the packets of the party that were sent on
are all in it, each as often and in the same order. -/
theorem C84_complete_partial (a b : List Ev) (h : Proper (a ++ .record true :: b)) (h1 : Ev.record false ∉ a)
    (h2 : ∀ p pt r, Ev.inject p pt r ∉ a) :
    ∃ s l s' n, run (.record true :: b) = .ok (s, l) ∧ run (a ++ .record true :: b) = .ok (s', l ++ n) ∧
      (relayedOf n).Sublist (recordedOf n) := by
  induction a with
  | nil =>
    obtain ⟨s, l, hr, -⟩ := run_inv _ h
    exact ⟨s, l, s, [], hr, by simpa using hr, by simp [relayedOf]⟩
  | cons e a ih =>
    have h' : Proper (a ++ .record true :: b) := Proper.tail (e := e) h
    simp only [List.mem_cons, not_or] at h1 h2
    obtain ⟨s, l, s1, n, hr, hr1, hsub⟩ := ih h' h1.2 fun p pt r => (h2 p pt r).2
    by_cases hp : ∃ p pt r, e = .pkt p pt r
    · obtain ⟨p, pt, r, rfl⟩ := hp
      obtain ⟨s2, l2, o, e1, e2, hn, ho, hrec, hrel, -, -⟩ := C84_packet_partial _ h' p pt r
      rw [hr1] at e1; cases e1
      refine ⟨s, l, s1, n ++ o, hr, by rw [List.cons_append, e2, List.append_assoc], ?_⟩
      have h3 : relayedOf (n ++ o) = relayedOf n ++ relayedOf o := by simp [relayedOf]
      have h4 : recordedOf (n ++ o) = recordedOf n ++ recordedOf o := by simp [recordedOf]
      rw [h3, h4]
      refine hsub.append ?_
      rw [relayed_of hn ho, recorded_of hn ho]
      by_cases hq : Out.relayed p ∈ o
      · have : Out.recorded p ∈ o := hrec.2 ⟨recording_after h1.2, (hrel.1 hq).1⟩
        simp [hq, this]
      · simp [hq]
    · obtain ⟨s2, l2, hr2, -⟩ := run_inv (e :: (a ++ .record true :: b)) h
      obtain ⟨s3, l3, o, e1, e2, e3⟩ := run_cons hr2
      rw [hr1] at e1; cases e1
      have ho : o = [] := step_silent e2 (fun p pt r q => hp ⟨p, pt, r, q⟩) (fun p pt r q => (h2 p pt r).1 q.symm)
      refine ⟨s, l, s2, n, hr, ?_, hsub⟩
      rw [List.cons_append, hr2, e3, ho, List.append_nil]

/-! ## Listening in changes nothing for the peer -/

theorem quiet_playing : ∀ past : List Ev, playing (past.filter fun e => !listening e) = playing past
  | [] => rfl
  | e :: past => by
    have ih := quiet_playing past
    cases e with
    | play => rfl
    | stop => rfl
    | _ => exact ih

theorem quiet_reachable : ∀ past : List Ev, reachable (past.filter fun e => !listening e) = reachable past
  | [] => rfl
  | e :: past => by
    have ih := quiet_reachable past
    cases e with
    | addr b => rfl
    | _ => exact ih

theorem quiet_gagged (k : Nat) : ∀ past : List Ev, gaggedBy k (past.filter fun e => !listening e) = gaggedBy k past
  | [] => rfl
  | e :: past => by
    have ih := quiet_gagged k past
    cases e with
    | gag j => show (j == k || _) = (j == k || _); rw [ih]
    | ungag j => show (!(j == k) && _) = (!(j == k) && _); rw [ih]
    | _ => exact ih

theorem quiet_held (past : List Ev) : Held (past.filter fun e => !listening e) ↔ Held past := by
  simp [Held, quiet_playing, quiet_gagged]

theorem quiet_catching : ∀ past : List Ev, catching (past.filter fun e => !listening e) = none
  | [] => rfl
  | e :: past => by
    have ih := quiet_catching past
    cases e <;> exact ih

theorem quiet_proper : ∀ past : List Ev, Proper past → Proper (past.filter fun e => !listening e)
  | [], _ => trivial
  | e :: past, h => by
    have ih := quiet_proper past h.tail
    cases e with
    | play => exact ⟨(quiet_playing past).trans h.1, ih⟩
    | stop => exact ⟨(quiet_playing past).trans h.1, ih⟩
    | gag k => exact ⟨(quiet_gagged k past).trans h.1, ih⟩
    | ungag k => exact ⟨(quiet_gagged k past).trans h.1, ih⟩
    | _ => exact ih

theorem open_hidden : ∀ (past : List Ev), Open past → ∀ pt, ¬ Hidden past pt
  | [], _, pt, h => by simp [Hidden, catching] at h
  | e :: past, ho, pt, h => by
    cases e with
    | dtmf q hide =>
      simp only [Hidden, catching, Option.some.injEq, Prod.mk.injEq] at h
      have := ho.1
      rw [h.2] at this; cases this
    | pkt p q r => exact open_hidden past ho.2 pt h
    | inject p q r => exact open_hidden past ho.2 pt h
    | _ => exact open_hidden past ho pt h

theorem Open.tail {e : Ev} {past : List Ev} (h : Open (e :: past)) : Open past := by
  cases e <;> first | exact h | exact h.2

/-- C84. Recordings, copies and the catching of digits that are not hidden change nothing for the peer: with or without
them the same packets are sent on in the same order, as long as there is memory and room for the worker. -/
theorem C84_unchanged_partial (past : List Ev) (h : Proper past) (ho : Open past) :
    ∃ s l s' l', run past = .ok (s, l) ∧ run (past.filter fun e => !listening e) = .ok (s', l') ∧
      relayedOf l = relayedOf l' := by
  induction past with
  | nil => exact ⟨_, _, _, _, rfl, rfl, rfl⟩
  | cons e past ih =>
    obtain ⟨s, l, s', l', hr, hr', heq⟩ := ih h.tail ho.tail
    have happ : ∀ x y, relayedOf (x ++ y) = relayedOf x ++ relayedOf y := by simp [relayedOf]
    by_cases hp : ∃ p pt r, e = .pkt p pt r
    · obtain ⟨p, pt, r, rfl⟩ := hp
      obtain ⟨s2, l2, o, e1, e2, hn, hk, -, hrel, -, -⟩ := C84_packet_partial _ h.tail p pt r
      obtain ⟨s3, l3, o', e3, e4, hn', hk', -, hrel', -, -⟩ := C84_packet_partial _ (quiet_proper _ h.tail) p pt r
      rw [hr] at e1; cases e1
      rw [hr'] at e3; cases e3
      refine ⟨_, _, _, _, e2, e4, ?_⟩
      have hroom : r = true := ho.1
      have h1 : Out.relayed p ∈ o ↔ Out.relayed p ∈ o' := by
        rw [hrel, hrel', quiet_held, quiet_reachable]
        have a := open_hidden past ho.2 pt
        have b : ¬ Hidden (past.filter fun e => !listening e) pt := by simp [Hidden, quiet_catching]
        simp [a, b, hroom]
      rw [happ, happ, heq, relayed_of hn hk, relayed_of hn' hk']
      simp only [h1]
    · by_cases hq : ∃ p pt r, e = .inject p pt r
      · obtain ⟨p, pt, r, rfl⟩ := hq
        obtain ⟨s2, l2, o, e1, e2, hn, hk, -, hrel, -, -⟩ := C84_injected_partial _ h.tail p pt r
        obtain ⟨s3, l3, o', e3, e4, hn', hk', -, hrel', -, -⟩ := C84_injected_partial _ (quiet_proper _ h.tail) p pt r
        rw [hr] at e1; cases e1
        rw [hr'] at e3; cases e3
        refine ⟨_, _, _, _, e2, e4, ?_⟩
        have hroom : r = true := ho.1
        have h1 : Out.relayed p ∈ o ↔ Out.relayed p ∈ o' := by
          rw [hrel, hrel', quiet_reachable]
          have a := open_hidden past ho.2 pt
          have b : ¬ Hidden (past.filter fun e => !listening e) pt := by simp [Hidden, quiet_catching]
          simp [a, b, hroom]
        rw [happ, happ, heq, relayed_of hn hk, relayed_of hn' hk']
        simp only [h1]
      · have hsil : ∀ {x y : St} {o : List Out}, step x e = .ok (y, o) → o = [] := fun hx =>
          step_silent hx (fun p pt r q => hp ⟨p, pt, r, q⟩) (fun p pt r q => hq ⟨p, pt, r, q⟩)
        obtain ⟨s2, l2, hr2, -⟩ := run_inv _ h
        obtain ⟨s3, l3, o, e1, e2, e3⟩ := run_cons hr2
        rw [hr] at e1; cases e1
        rw [hsil e2, List.append_nil] at e3
        subst e3
        cases hl : listening e with
        | true => exact ⟨_, _, _, _, hr2, by rw [List.filter_cons, hl]; exact hr', heq⟩
        | false =>
          have hf : (e :: past).filter (fun e => !listening e) = e :: past.filter (fun e => !listening e) := by
            rw [List.filter_cons, hl]; rfl
          have hpq := quiet_proper _ h
          rw [hf] at hpq ⊢
          obtain ⟨s4, l4, hr4, -⟩ := run_inv _ hpq
          obtain ⟨s5, l5, o', e4, e5, e6⟩ := run_cons hr4
          rw [hr'] at e4; cases e4
          rw [hsil e5, List.append_nil] at e6
          subst e6
          exact ⟨_, _, _, _, hr2, hr4, heq⟩

end Verif.Heard
