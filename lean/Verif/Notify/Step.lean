import Verif.Notify.Spec

/-!
# One notification
-/

namespace Verif.Notify

theorem kfold_append (k : Kern) (a b : List Ev) : kfold k (a ++ b) = kfold (kfold k a) b := by
  induction a generalizing k with
  | nil => rfl
  | cons e es ih => exact ih _

theorem fresh_append (k : Kern) (a b : List Ev) : AllFresh k (a ++ b) ↔ AllFresh k a ∧ AllFresh (kfold k a) b := by
  induction a generalizing k with
  | nil => simp [AllFresh, kfold]
  | cons e es ih =>
    rw [List.cons_append]
    simp only [AllFresh, kfold, ih, and_assoc]

theorem legal_append (k : Kern) (a b : List Ev) : AllLegal k (a ++ b) ↔ AllLegal k a ∧ AllLegal (kfold k a) b := by
  induction a generalizing k with
  | nil => simp [AllLegal, kfold]
  | cons e es ih =>
    rw [List.cons_append]
    simp only [AllLegal, kfold, ih, and_assoc]

/-- The descriptor of a target is open, and connected to it when the target says so. -/
def Own (i : Nat) (t : Target) (k : Kern) : Prop :=
  match t.fd with
  | none => t.up = false
  | some f => k f ≠ none ∧ (t.up = true → k f = some (some i))

/-- Descriptors of others stay as they are; no descriptor is lost. -/
def Frame (t t' : Target) (k k' : Kern) : Prop :=
  (∀ g, t.fd ≠ some g → k g ≠ none → k' g = k g ∧ t'.fd ≠ some g) ∧
  (∀ g, k' g ≠ none → t'.fd = some g ∨ k g ≠ none ∧ t.fd ≠ some g)

theorem Frame.refl (t : Target) (k : Kern) : Frame t t k k := by
  refine ⟨fun g h _ => ⟨rfl, h⟩, fun g h => ?_⟩
  by_cases hg : t.fd = some g
  · exact .inl hg
  · exact .inr ⟨h, hg⟩

theorem Frame.trans {t t1 t2 : Target} {k k1 k2 : Kern} (a : Frame t t1 k k1) (b : Frame t1 t2 k1 k2) : Frame t t2 k k2 := by
  refine ⟨fun g h hk => ?_, fun g h => ?_⟩
  · obtain ⟨e1, n1⟩ := a.1 g h hk
    obtain ⟨e2, n2⟩ := b.1 g n1 (by rw [e1]; exact hk)
    exact ⟨by rw [e2, e1], n2⟩
  · rcases b.2 g h with h2 | ⟨h2, h3⟩
    · exact .inl h2
    · rcases a.2 g h2 with h4 | h4
      · exact absurd h4 h3
      · exact .inr h4

/-- A part of the work for target `i`. -/
structure Step (i : Nat) (t t' : Target) (log : List Ev) : Prop where
  kind : t'.isFd = t.isFd ∧ t'.bound = t.bound
  mine : ∀ e ∈ log, e.target = i
  kern : ∀ k, Own i t k → AllFresh k log → AllLegal k log ∧ Own i t' (kfold k log) ∧ Frame t t' k (kfold k log)

theorem Step.trans {i : Nat} {t t1 t2 : Target} {a b : List Ev} (h : Step i t t1 a) (g : Step i t1 t2 b) : Step i t t2 (a ++ b) := by
  refine ⟨⟨g.kind.1.trans h.kind.1, g.kind.2.trans h.kind.2⟩, ?_, ?_⟩
  · intro e he
    rcases List.mem_append.1 he with he | he
    · exact h.mine e he
    · exact g.mine e he
  · intro k ho hf
    rw [fresh_append] at hf
    obtain ⟨l1, o1, f1⟩ := h.kern k ho hf.1
    obtain ⟨l2, o2, f2⟩ := g.kern _ o1 hf.2
    rw [legal_append, kfold_append]
    exact ⟨⟨l1, l2⟩, o2, f1.trans f2⟩

theorem Step.send {i : Nat} {t : Target} {f : Nat} (data : List UInt8) (r : Option Nat) (hf : t.fd = some f) (hu : t.up = true) (u : Bool) :
    Step i t { t with up := u } [.send i f data r] := by
  refine ⟨⟨rfl, rfl⟩, ?_, ?_⟩
  · intro e he; rw [List.mem_singleton.1 he]; rfl
  · intro k ho _
    unfold Own at ho
    rw [hf] at ho
    refine ⟨⟨ho.2 hu, trivial⟩, ?_, ?_⟩
    · unfold Own
      change match t.fd with | none => _ | some f => _
      rw [hf]
      exact ⟨ho.1, fun _ => ho.2 hu⟩
    · exact Frame.refl t k

/-- The close of the old descriptor. -/
theorem Step.close {i : Nat} {t : Target} (hu : t.up = false) :
    Step i t { t with fd := none } (closing i t) := by
  unfold closing
  refine ⟨⟨rfl, rfl⟩, ?_, ?_⟩
  · intro e he
    cases hf : t.fd with
    | none => rw [hf] at he; cases he
    | some f => rw [hf] at he; rw [List.mem_singleton.1 he]; rfl
  · intro k ho _
    cases hf : t.fd with
    | none =>
      refine ⟨trivial, hu, ?_⟩
      exact ⟨fun g _ _ => ⟨rfl, by simp⟩, fun g h => .inr ⟨h, by rw [hf]; simp⟩⟩
    | some f =>
      unfold Own at ho
      rw [hf] at ho
      refine ⟨⟨ho.1, trivial⟩, hu, ?_⟩
      refine ⟨fun g h hk => ?_, fun g h => ?_⟩
      · have : g ≠ f := by rintro rfl; exact h hf
        refine ⟨?_, by simp⟩
        change (Kern.upd k f none) g = k g
        unfold Kern.upd
        rw [if_neg this]
      · change (Kern.upd k f none) g ≠ none at h
        unfold Kern.upd at h
        by_cases hg : g = f
        · rw [if_pos hg] at h; exact absurd rfl h
        · rw [if_neg hg] at h
          exact .inr ⟨h, by rw [hf]; simpa using fun h => hg h.symm⟩

theorem Step.nosocket {i : Nat} {t : Target} : Step i t t [.nosocket i] :=
  ⟨⟨rfl, rfl⟩, (fun e he => by rw [List.mem_singleton.1 he]; rfl), fun k ho _ => ⟨⟨trivial, trivial⟩, ho, Frame.refl t k⟩⟩

/-- A new descriptor. -/
theorem Step.socket {i f : Nat} {t : Target} (hn : t.fd = none) (hu : t.up = false) : Step i t { t with fd := some f } [.socket i f] := by
  refine ⟨⟨rfl, rfl⟩, (fun e he => by rw [List.mem_singleton.1 he]; rfl), ?_⟩
  intro k _ hf
  have hk : k f = none := hf.1
  refine ⟨⟨trivial, trivial⟩, ?_, ?_⟩
  · change (Kern.upd k f (some none)) f ≠ none ∧ (t.up = true → _)
    refine ⟨by simp [Kern.upd], fun h => ?_⟩
    rw [hu] at h; cases h
  · refine ⟨fun g _ hg => ?_, fun g hg => ?_⟩
    · have : g ≠ f := by rintro rfl; exact hg hk
      refine ⟨?_, ?_⟩
      · change (Kern.upd k f (some none)) g = k g
        unfold Kern.upd
        rw [if_neg this]
      · intro h
        exact this (Option.some.inj h).symm
    · change (Kern.upd k f (some none)) g ≠ none at hg
      unfold Kern.upd at hg
      by_cases h : g = f
      · exact .inl (by rw [h])
      · rw [if_neg h] at hg
        exact .inr ⟨hg, by rw [hn]; simp⟩

/-- With a fresh descriptor: binding and connecting.  Steps that need the descriptor to be unconnected are put together with `Step.socket`. -/
theorem setup_spec {i f : Nat} {t : Target} (hn : t.fd = none) (hu : t.up = false) (bd : Bool) :
    Step i t { t with fd := none } ([.socket i f, .bind i f false, .close i f]) ∧
    Step i t { t with fd := none } ([.socket i f] ++ (if bd then [Ev.bind i f true] else []) ++ [.connect i f false, .close i f]) ∧
    Step i t { t with fd := some f, up := true } ([.socket i f] ++ (if bd then [Ev.bind i f true] else []) ++ [.connect i f true]) := by
  have hc : ∀ (k : Kern) (g : Nat), k f = none → Kern.upd (Kern.upd k f (some none)) f none g = k g := by
    intro k g h
    unfold Kern.upd
    by_cases hg : g = f
    · rw [if_pos hg, hg, h]
    · rw [if_neg hg, if_neg hg]
  have frame0 : ∀ (k : Kern), k f = none → Frame t { t with fd := none } k (Kern.upd (Kern.upd k f (some none)) f none) := by
    intro k hk
    refine ⟨fun g _ _ => ⟨hc k g hk, by simp⟩, fun g hg => .inr ⟨by rwa [hc k g hk] at hg, by rw [hn]; simp⟩⟩
  refine ⟨⟨⟨rfl, rfl⟩, ?_, ?_⟩, ⟨⟨rfl, rfl⟩, ?_, ?_⟩, ⟨⟨rfl, rfl⟩, ?_, ?_⟩⟩
  · intro e he; simp at he; rcases he with rfl | rfl | rfl <;> rfl
  · intro k _ hf
    refine ⟨⟨trivial, ?_, ?_, trivial⟩, hu, frame0 k hf.1⟩
    · change Kern.upd k f (some none) f = some none; simp [Kern.upd]
    · change Kern.upd k f (some none) f ≠ none; simp [Kern.upd]
  · intro e he; cases bd <;> simp at he <;> (rcases he with rfl | rfl | rfl | rfl) <;> rfl
  · intro k _ hf
    cases bd
    · refine ⟨⟨trivial, ?_, ?_, trivial⟩, hu, frame0 k hf.1⟩
      · change Kern.upd k f (some none) f = some none; simp [Kern.upd]
      · change Kern.upd k f (some none) f ≠ none; simp [Kern.upd]
    · refine ⟨⟨trivial, ?_, ?_, ?_, trivial⟩, hu, frame0 k hf.1⟩
      · change Kern.upd k f (some none) f = some none; simp [Kern.upd]
      · change Kern.upd k f (some none) f = some none; simp [Kern.upd]
      · change Kern.upd k f (some none) f ≠ none; simp [Kern.upd]
  · intro e he; cases bd <;> simp at he <;> (rcases he with rfl | rfl | rfl) <;> rfl
  · intro k _ hf
    have hk : k f = none := hf.1
    have frame1 : Frame t { t with fd := some f, up := true } k (Kern.upd (Kern.upd k f (some none)) f (some (some i))) := by
      refine ⟨fun g _ hg => ?_, fun g hg => ?_⟩
      · have hne : g ≠ f := by rintro rfl; exact hg hk
        refine ⟨by unfold Kern.upd; rw [if_neg hne, if_neg hne], fun h => hne (Option.some.inj h).symm⟩
      · by_cases h : g = f
        · exact .inl (by rw [h])
        · unfold Kern.upd at hg
          rw [if_neg h, if_neg h] at hg
          exact .inr ⟨hg, by rw [hn]; simp⟩
    have own1 : Own i { t with fd := some f, up := true } (Kern.upd (Kern.upd k f (some none)) f (some (some i))) := by
      change Kern.upd _ f _ f ≠ none ∧ (_ → Kern.upd _ f _ f = _)
      simp [Kern.upd]
    cases bd
    · refine ⟨⟨trivial, ?_, trivial⟩, own1, frame1⟩
      change Kern.upd k f (some none) f = some none; simp [Kern.upd]
    · refine ⟨⟨trivial, ?_, ?_, trivial⟩, own1, frame1⟩
      · change Kern.upd k f (some none) f = some none; simp [Kern.upd]
      · change Kern.upd k f (some none) f = some none; simp [Kern.upd]

/-- `reconnect_handler` for a target that is a socket and not connected. -/
theorem reconnect_spec (i : Nat) (t : Target) (env : List Ans) (hu : t.up = false) (hk : t.isFd = false) :
    ∃ t' env' log, reconnect i t env = .ok (t', env', log) ∧ Step i t t' log ∧ (t'.up = true → t'.fd ≠ none) ∧
      log.countP Ev.isConnect ≤ 1 ∧ log.countP Ev.isSend = 0 ∧ (t'.up = false → ∃ e ∈ log, e.refused = true) ∧ log ≠ [] := by
  unfold reconnect
  rw [if_neg (by simp [hu]), if_neg (by simp [hk])]
  have hcl := Step.close (i := i) hu
  have hc0 : (closing i t).countP Ev.isConnect = 0 := by
    unfold closing; cases t.fd <;> rfl
  have hs0 : (closing i t).countP Ev.isSend = 0 := by
    unfold closing; cases t.fd <;> rfl
  simp only
  generalize closing i t = closed at hcl hc0 hs0 ⊢
  have bad : ∀ (env1 : List Ans), ∃ t' env' log, (Except.ok ({ t with fd := none }, env1, closed ++ [Ev.nosocket i]) :
      Except Fault (Target × List Ans × List Ev)) = .ok (t', env', log) ∧ Step i t t' log ∧ (t'.up = true → t'.fd ≠ none) ∧
      log.countP Ev.isConnect ≤ 1 ∧ log.countP Ev.isSend = 0 ∧ (t'.up = false → ∃ e ∈ log, e.refused = true) ∧ log ≠ [] := by
    intro env1
    refine ⟨_, _, _, rfl, hcl.trans Step.nosocket, ?_, ?_, ?_, ?_, by simp⟩
    · intro h; change t.up = true at h; rw [hu] at h; cases h
    · rw [List.countP_append, hc0]; simp [Ev.isConnect]
    · rw [List.countP_append, hs0]; simp [Ev.isSend]
    · intro _; exact ⟨.nosocket i, by simp, rfl⟩
  split
  · rename_i f env1 _
    have hset := setup_spec (i := i) (f := f) (t := { t with fd := none }) rfl hu t.bound
    split
    · rename_i env2 _
      split
      · rename_i env3 _
        refine ⟨_, _, _, rfl, ?_, fun _ => by simp, ?_, ?_, ?_, by simp⟩
        · have := hcl.trans hset.2.2
          simpa [List.append_assoc] using this
        · cases t.bound <;> simp [List.countP_append, hc0, Ev.isConnect]
        · cases t.bound <;> simp [List.countP_append, hs0, Ev.isSend]
        · intro h; cases h
      · rename_i env3 _
        refine ⟨_, _, _, rfl, ?_, ?_, ?_, ?_, ?_, by simp⟩
        · have := hcl.trans hset.2.1
          simpa [List.append_assoc] using this
        · intro h; change t.up = true at h; rw [hu] at h; cases h
        · cases t.bound <;> simp [List.countP_append, List.countP_cons, hc0, Ev.isConnect]
        · cases t.bound <;> simp [List.countP_append, hs0, Ev.isSend]
        · intro _; exact ⟨.connect i f false, by simp, rfl⟩
    · rename_i env2 _
      refine ⟨_, _, _, rfl, ?_, ?_, ?_, ?_, ?_, by simp⟩
      · have := hcl.trans hset.1
        simpa [List.append_assoc] using this
      · intro h; change t.up = true at h; rw [hu] at h; cases h
      · simp [List.countP_append, hc0, Ev.isConnect]
      · simp [List.countP_append, hs0, Ev.isSend]
      · intro _; exact ⟨.bind i f false, by simp, rfl⟩
  · exact bad _

/-- What a notification does. -/
structure Done (i : Nat) (data : List UInt8) (tries : Nat) (t t' : Target) (log : List Ev) : Prop where
  step : Step i t t' log
  ok : t'.up = true → t'.fd ≠ none
  fd : t.isFd = true → t' = t
  sends : log.countP Ev.isSend ≤ tries
  connects : log.countP Ev.isConnect ≤ tries
  text : ∀ e ∈ log, ∀ j f d n, e = .send j f d n → d = data
  some' : log ≠ []
  last : (∃ pre f n, log = pre ++ [.send i f data (some n)] ∧ n ≤ data.length ∧ pre.countP Ev.isSent = 0) ∨
    log.countP Ev.isSent = 0 ∧ (log.countP Ev.isSend = tries ∨ ∃ e ∈ log, e.refused = true)

theorem sent_le_send (log : List Ev) (h : log.countP Ev.isSend = 0) : log.countP Ev.isSent = 0 := by
  rw [List.countP_eq_zero] at h ⊢
  intro e he hs
  apply h e he
  cases e with
  | send _ _ _ r => rfl
  | _ => cases hs

theorem no_text (log : List Ev) (data : List UInt8) (h : log.countP Ev.isSend = 0) :
    ∀ e ∈ log, ∀ j f d n, e = .send j f d n → d = data := by
  rw [List.countP_eq_zero] at h
  rintro e he j f d n rfl
  exact absurd rfl (h _ he)

theorem sendLoop_le (data : List UInt8) : ∀ (env : List Ans) (n : Nat) (e1 : List Ans), sendLoop data env = (some n, e1) → n ≤ data.length
  | [], _, _, h => by cases h
  | .intr :: as, n, e1, h => sendLoop_le data as n e1 (by simpa [sendLoop] using h)
  | .ok :: as, n, e1, h => by
    simp only [sendLoop, Prod.mk.injEq, Option.some.injEq] at h
    omega
  | .short m :: as, n, e1, h => by
    simp only [sendLoop, Prod.mk.injEq, Option.some.injEq] at h
    omega
  | .fd _ :: as, n, e1, h => by simp [sendLoop] at h
  | .fail :: as, n, e1, h => by simp [sendLoop] at h

/-- What `again` has to do. -/
def Good (i : Nat) (data : List UInt8) (tries : Nat) (k : Target → List Ans → Except Fault (Target × List Ans × List Ev)) : Prop :=
  ∀ t env, t.up = false → (∀ e, k t env = .error e → t.isFd = true) ∧ (t.isFd = true → k t env = .error .abort) ∧
    ∀ t' env' log, k t env = .ok (t', env', log) → Done i data tries t t' log

/-- The first failed send in front of further attempts. -/
theorem Done.failed {i : Nat} {data : List UInt8} {tries : Nat} {t t' : Target} {f : Nat} {log : List Ev} (hu : t.up = true)
    (hf : t.fd = some f) (hk : t.isFd = false) (h : Done i data tries { t with up := false } t' log) :
    Done i data (tries + 1) t t' (.send i f data none :: log) := by
  refine ⟨(Step.send data none hf hu false).trans h.step, h.ok, ?_, ?_, ?_, ?_, by simp, ?_⟩
  · intro h; rw [hk] at h; cases h
  · rw [List.countP_cons]; have := h.sends; simp only [Ev.isSend, if_true]; omega
  · rw [List.countP_cons]; have := h.connects; simp only [Ev.isConnect, Bool.false_eq_true, if_false]; omega
  · rintro e he j g d n rfl
    rcases List.mem_cons.1 he with he | he
    · cases he; rfl
    · exact h.text _ he j g d n rfl
  · rcases h.last with ⟨pre, g, n, e1, e2, e3⟩ | ⟨h1, h2⟩
    · refine .inl ⟨.send i f data none :: pre, g, n, by rw [e1]; rfl, e2, ?_⟩
      rw [List.countP_cons, e3]; rfl
    · refine .inr ⟨by rw [List.countP_cons, h1]; rfl, ?_⟩
      rcases h2 with h2 | ⟨e, he, hr⟩
      · left; rw [List.countP_cons, h2]; simp [Ev.isSend]
      · exact .inr ⟨e, List.mem_cons_of_mem _ he, hr⟩

theorem transmit_spec (i : Nat) (data : List UInt8) (tries : Nat)
    (again : Option (Target → List Ans → Except Fault (Target × List Ans × List Ev)))
    (hg : match again with | none => tries = 0 | some k => Good i data tries k) (t : Target) (env : List Ans) (hu : t.up = true)
    (hfd : t.fd ≠ none) :
    (∀ e, transmit i data t env again = .error e → t.isFd = true) ∧
    (∀ t' env' log, transmit i data t env again = .ok (t', env', log) → (t.isFd = true → again ≠ none) →
      Done i data (tries + 1) t t' log ∧ log.countP Ev.isConnect ≤ tries) := by
  unfold transmit
  cases hf : t.fd with
  | none => exact absurd hf hfd
  | some f =>
    simp only
    cases hs : sendLoop data env with
    | mk r env1 =>
      cases r with
      | some n =>
        simp only
        refine ⟨(fun e h => by cases h), ?_⟩
        intro t' env' log h _
        simp only [Except.ok.injEq, Prod.mk.injEq] at h
        obtain ⟨rfl, rfl, rfl⟩ := h
        have hst := Step.send (i := i) data (some n) hf hu true
        have e : { t with up := true } = t := by rw [← hu]
        rw [e] at hst
        refine ⟨⟨hst, fun _ => hfd, fun _ => rfl, by simp [Ev.isSend], by simp [Ev.isConnect], ?_, by simp, ?_⟩, by simp [Ev.isConnect]⟩
        · rintro e he j g d m rfl
          cases List.mem_singleton.1 he; rfl
        · exact .inl ⟨[], f, n, rfl, sendLoop_le data env n env1 hs, rfl⟩
      | none =>
        simp only
        cases again with
        | none =>
          change tries = 0 at hg
          subst hg
          rw [← hf]
          refine ⟨(fun e h => by cases h), ?_⟩
          intro t' env' log h hk
          simp only [Except.ok.injEq, Prod.mk.injEq] at h
          obtain ⟨rfl, rfl, rfl⟩ := h
          refine ⟨⟨Step.send data none hf hu false, (fun h => by cases h), ?_, by simp [Ev.isSend], by simp [Ev.isConnect], ?_, by simp, ?_⟩,
            by simp [Ev.isConnect]⟩
          · intro h; exact absurd rfl (hk h)
          · rintro e he j g d m rfl
            cases List.mem_singleton.1 he; rfl
          · exact .inr ⟨rfl, .inl rfl⟩
        | some k =>
          change Good i data tries k at hg
          rw [← hf]
          obtain ⟨g1, g2, g3⟩ := hg { t with up := false } env1 rfl
          cases hk : k { t with up := false } env1 with
          | error e =>
            simp only [hk]
            exact ⟨fun _ _ => g1 e hk, (fun _ _ _ h => by cases h)⟩
          | ok x =>
            obtain ⟨t2, env2, log2⟩ := x
            simp only [hk]
            refine ⟨(fun e h => by cases h), ?_⟩
            intro t' env' log h _
            simp only [Except.ok.injEq, Prod.mk.injEq] at h
            obtain ⟨rfl, rfl, rfl⟩ := h
            have hnf : t.isFd = false := by
              cases hb : t.isFd with
              | false => rfl
              | true => rw [g2 hb] at hk; cases hk
            refine ⟨(g3 _ _ _ hk).failed hu hf hnf, ?_⟩
            rw [List.countP_cons]
            have := (g3 _ _ _ hk).connects
            simp only [Ev.isConnect, Bool.false_eq_true, if_false]
            omega

/-- A connection set up in front of the sending. -/
theorem Done.connected {i : Nat} {data : List UInt8} {tries : Nat} {t t1 t2 : Target} {log1 log2 : List Ev} (hk : t.isFd = false)
    (h1 : Step i t t1 log1) (hc : log1.countP Ev.isConnect ≤ 1) (hs : log1.countP Ev.isSend = 0) (h2 : Done i data (tries + 1) t1 t2 log2)
    (hn : log2.countP Ev.isConnect ≤ tries) : Done i data (tries + 1) t t2 (log1 ++ log2) := by
  refine ⟨h1.trans h2.step, h2.ok, ?_, ?_, ?_, ?_, ?_, ?_⟩
  · intro h; rw [hk] at h; cases h
  · rw [List.countP_append, hs, Nat.zero_add]; exact h2.sends
  · rw [List.countP_append]; omega
  · intro e he
    rcases List.mem_append.1 he with he | he
    · exact no_text log1 data hs e he
    · exact h2.text e he
  · intro h; exact h2.some' (List.append_eq_nil_iff.1 h).2
  · rcases h2.last with ⟨pre, g, n, e1, e2, e3⟩ | ⟨a, b⟩
    · refine .inl ⟨log1 ++ pre, g, n, by rw [e1, List.append_assoc], e2, ?_⟩
      rw [List.countP_append, e3, sent_le_send log1 hs]
    · refine .inr ⟨by rw [List.countP_append, a, sent_le_send log1 hs], ?_⟩
      rcases b with b | ⟨e, he, hr⟩
      · left; rw [List.countP_append, hs, b, Nat.zero_add]
      · exact .inr ⟨e, List.mem_append_right _ he, hr⟩

theorem attempt_spec (i : Nat) (data : List UInt8) (tries : Nat)
    (again : Option (Target → List Ans → Except Fault (Target × List Ans × List Ev)))
    (hg : match again with | none => tries = 0 | some k => Good i data tries k) (t : Target) (env : List Ans) (hu : t.up = true → t.fd ≠ none) :
    (∀ e, attempt i data again t env = .error e → t.isFd = true) ∧
    (t.isFd = true → t.up = false → attempt i data again t env = .error .abort) ∧
    (∀ t' env' log, attempt i data again t env = .ok (t', env', log) → (t.isFd = true → t.up = true → again ≠ none) →
      Done i data (tries + 1) t t' log) := by
  unfold attempt
  by_cases h : t.up = true
  · rw [if_pos h]
    obtain ⟨h1, h2⟩ := transmit_spec i data tries again hg t env h (hu h)
    exact ⟨h1, (fun _ hn => by rw [h] at hn; cases hn), fun t' env' log e hk => (h2 t' env' log e (fun hf => hk hf h)).1⟩
  · rw [if_neg h]
    have hu' : t.up = false := by simpa using h
    cases hf : t.isFd with
    | true =>
      have he : reconnect i t env = .error .abort := by
        unfold reconnect; rw [if_neg h, if_pos hf]
      rw [he]
      exact ⟨fun _ _ => rfl, fun _ _ => rfl, (fun _ _ _ h => by cases h)⟩
    | false =>
      obtain ⟨t1, env1, log1, e1, s1, o1, c1, n1, r1, ne1⟩ := reconnect_spec i t env hu' hf
      rw [e1]
      simp only
      have hf1 : t1.isFd = false := by rw [s1.kind.1, hf]
      by_cases h1 : t1.up = true
      · rw [if_pos h1]
        obtain ⟨g1, g2⟩ := transmit_spec i data tries again hg t1 env1 h1 (o1 h1)
        cases ht : transmit i data t1 env1 again with
        | error e => have := g1 e ht; rw [hf1] at this; cases this
        | ok x =>
          obtain ⟨t2, env2, log2⟩ := x
          simp only
          refine ⟨(fun e h => by cases h), (fun h => by cases h), ?_⟩
          intro t' env' log h _
          simp only [Except.ok.injEq, Prod.mk.injEq] at h
          obtain ⟨rfl, rfl, rfl⟩ := h
          obtain ⟨d, dc⟩ := g2 _ _ _ ht (fun h => by rw [hf1] at h; cases h)
          exact Done.connected hf s1 c1 n1 d dc
      · rw [if_neg h1]
        refine ⟨(fun e h => by cases h), (fun h => by cases h), ?_⟩
        intro t' env' log h _
        simp only [Except.ok.injEq, Prod.mk.injEq] at h
        obtain ⟨rfl, rfl, rfl⟩ := h
        refine ⟨s1, o1, (fun h => by rw [hf] at h; cases h), by omega, by omega, no_text log1 data n1, ne1, .inr ⟨sent_le_send log1 n1, .inr ?_⟩⟩
        exact r1 (by simpa using h1)

theorem notify_spec (i : Nat) (data : List UInt8) : ∀ (retries : Nat) (t : Target) (env : List Ans), (t.up = true → t.fd ≠ none) →
    (∀ e, notify i data retries t env = .error e → t.isFd = true) ∧
    (t.isFd = true → t.up = false → notify i data retries t env = .error .abort) ∧
    (∀ t' env' log, notify i data retries t env = .ok (t', env', log) → (t.isFd = true → t.up = true → retries ≠ 0) →
      Done i data (retries + 1) t t' log) := by
  intro retries
  induction retries with
  | zero =>
    intro t env hu
    unfold notify
    obtain ⟨a, b, c⟩ := attempt_spec i data 0 none rfl t env hu
    exact ⟨a, b, fun t' env' log e hk => c t' env' log e (fun hf h => absurd rfl (hk hf h))⟩
  | succ r ih =>
    intro t env hu
    have good : Good i data (r + 1) (notify i data r) := by
      intro t env hn
      obtain ⟨a, b, c⟩ := ih t env (fun h => by rw [hn] at h; cases h)
      exact ⟨a, fun hf => b hf hn, fun t' env' log e => c t' env' log e (fun _ h => by rw [hn] at h; cases h)⟩
    unfold notify
    obtain ⟨a, b, c⟩ := attempt_spec i data (r + 1) (some (notify i data r)) good t env hu
    exact ⟨a, b, fun t' env' log e _ => c t' env' log e (fun _ _ => by simp)⟩

end Verif.Notify
