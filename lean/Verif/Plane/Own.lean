import Verif.Plane.Steps

/-! # References to packets, and faults -/

namespace Verif.Plane

open Verif.Pproc (Act)
open Verif.Latch (Addr)

def fin (es : List Eff) : Nat := es.countP Eff.final

theorem fin_append (a b : List Eff) : fin (a ++ b) = fin a + fin b := by simp [fin]

/-- The reference is still there, or was given up once. -/
def Own (r : Enq) : Prop := (r.own = true ∧ fin r.effs = 0) ∨ (r.own = false ∧ fin r.effs = 1)

theorem enq_own {nested : Sid → Ctx → Nat → Except Fault (Act × List Eff)} {v : View} {c : Ctx} {k : Key} {kd : Kind}
    {r : Enq} (hn : ∀ m c s y, nested m c s = .ok y → fin y.2 = 1) (h : enq nested v c k kd = .ok r) : Own r := by
  cases kd <;> simp only [enq] at h
  case dmx i o =>
    obtain ⟨z, hz, rfl⟩ := wrap_ok h
    exact Or.inr ⟨rfl, hn _ _ _ _ hz⟩
  case mx i o =>
    obtain ⟨z, hz, rfl⟩ := wrap_ok h
    exact Or.inr ⟨rfl, hn _ _ _ _ hz⟩
  all_goals (repeat' split at h) <;> cases h <;> simp [Own, fin, Eff.final]

theorem loop_own {nested : Sid → Ctx → Nat → Except Fault (Act × List Eff)} {v : View} {c : Ctx} {s : Nat}
    {l : List Proc} {a : Act} {t : Enq} (hn : ∀ m c s y, nested m c s = .ok y → fin y.2 = 1)
    (h : loop nested v c s l a = .ok t) : Own t := by
  induction l generalizing a t with
  | nil => cases h; exact Or.inl ⟨rfl, rfl⟩
  | cons p ps ih =>
    simp only [loop] at h
    split at h
    · exact ih h
    · split at h
      · exact ih h
      · split at h
        · cases h
        next r hr =>
          have ho := enq_own hn hr
          split at h
          · cases h; exact ho
          · split at h
            · cases h
            next hown =>
              split at h
              · cases h
              next t2 ht2 =>
                cases h
                have h2 := ih ht2
                rcases ho with ⟨_, h0⟩ | ⟨hf, _⟩
                · rcases h2 with ⟨h3, h4⟩ | ⟨h3, h4⟩
                  · exact Or.inl ⟨h3, by rw [fin_append, h0, h4]⟩
                  · exact Or.inr ⟨h3, by rw [fin_append, h0, h4]⟩
                · exact absurd hf hown

/-- Whoever hands a packet to a chain has it given up exactly once. -/
theorem handleat_fin {v : View} : ∀ (fuel : Nat) (m : Sid) (c : Ctx) (startat : Nat) (r : Act × List Eff),
    handleat v fuel m c startat = .ok r → fin r.2 = 1 := by
  intro fuel
  induction fuel with
  | zero => intro m c s r h; cases h
  | succ fuel ih =>
    intro m c s r h
    simp only [handleat] at h
    cases hl : loop (handleat v fuel) v c s (v.mgr m) Act.nop with
    | error e => rw [hl] at h; cases h
    | ok t =>
      rw [hl] at h
      have ho := loop_own ih hl
      simp only [finish] at h
      split at h
      · split at h
        next hown =>
          cases h
          rcases ho with ⟨_, h0⟩ | ⟨hf, _⟩
          · rw [fin_append, h0]; rfl
          · rw [hown] at hf; cases hf
        · cases h
      next ht =>
        cases h
        rcases ho with ⟨h1, h0⟩ | ⟨_, h1⟩
        · -- taken, yet still owned: does not happen
          exfalso
          have : t.act.take = true ∧ t.act.drop = false := by simpa using ht
          exact loop_take_own hl this.1 this.2 h1 (by simp [Act.nop])
        · exact h1
where
  loop_take_own {nested : Sid → Ctx → Nat → Except Fault (Act × List Eff)} {v : View} {c : Ctx} {s : Nat}
      {l : List Proc} {a : Act} {t : Enq} (h : loop nested v c s l a = .ok t) (h1 : t.act.take = true)
      (h2 : t.act.drop = false) (h3 : t.own = true) (ha : a.take = false) : False := by
    induction l generalizing a t with
    | nil => cases h; rw [ha] at h1; cases h1
    | cons p ps ih =>
      simp only [loop] at h
      split at h
      · exact ih h h1 h2 h3 ha
      · split at h
        · exact ih h h1 h2 h3 ha
        · split at h
          · cases h
          next r hr =>
            split at h
            next hg =>
              cases h
              simp only [Act.or, ha, Bool.false_or, Bool.or_eq_false_iff] at h1 h2
              revert hr h1 h2 h3
              obtain ⟨ra, ro, re⟩ := r
              cases hk : p.kind <;> simp only [enq] <;> intro hr
              case dmx i o => obtain ⟨z, _, hz⟩ := wrap_ok hr; cases hz; simp
              case mx i o => obtain ⟨z, _, hz⟩ := wrap_ok hr; cases hz; simp
              all_goals (repeat' split at hr) <;> cases hr <;> simp [aTake, aDrop, Act.nop, aTee]
            next hg =>
              split at h
              · cases h
              · split at h
                · cases h
                next t2 ht2 =>
                  cases h
                  refine ih ht2 h1 h2 h3 ?_
                  simp only [Bool.or_eq_true, not_or, Bool.not_eq_true] at hg
                  exact hg.1

/-! ### Faults -/

/-- A loop whose processors all answer, and keep the packet unless they say otherwise, answers. -/
theorem loop_total {nested : Sid → Ctx → Nat → Except Fault (Act × List Eff)} {v : View} {c : Ctx} {s : Nat}
    {l : List Proc} (hl : ∀ p ∈ l, s ≤ p.order → likes v c p.kind = true → ∃ r, enq nested v c p.key p.kind = .ok r ∧
      (r.own = false → r.act.take = true ∧ r.act.drop = false) ∧ (r.own = true → r.act.take = false))
    (a : Act) (ha : a.take = false) (hd : a.drop = false) :
    ∃ t, loop nested v c s l a = .ok t ∧ (t.own = false → t.act.take = true ∧ t.act.drop = false) ∧
      (t.own = true → t.act.take = false) := by
  induction l generalizing a with
  | nil => exact ⟨_, rfl, by simp, fun _ => ha⟩
  | cons p ps ih =>
    have ih' := ih (fun q hq => hl q (List.mem_cons_of_mem _ hq))
    simp only [loop]
    split
    · exact ih' a ha hd
    next hs =>
      split
      · exact ih' a ha hd
      next hlk =>
        obtain ⟨r, hr, ho, ho2⟩ := hl p (List.mem_cons_self ..) (by omega) (by simpa using hlk)
        rw [hr]
        simp only
        split
        · refine ⟨_, rfl, ?_, ?_⟩ <;> simp only [Act.or, ha, hd, Bool.false_or]
          · exact ho
          · exact ho2
        next hg =>
          have hg' : (a.or r.act).take = false ∧ (a.or r.act).drop = false := by
            simpa only [Bool.or_eq_true, not_or, Bool.not_eq_true] using hg
          split
          next hown =>
            have := ho hown
            have h1 := hg'.1
            simp only [Act.or, ha, Bool.false_or] at h1
            rw [this.1] at h1; cases h1
          · obtain ⟨t, h1, h2, h3⟩ := ih' (a.or r.act) hg'.1 hg'.2
            rw [h1]
            exact ⟨_, rfl, h2, h3⟩

theorem finish_total {c : Ctx} {t : Enq} (h : t.own = false → t.act.take = true ∧ t.act.drop = false) :
    ∃ r, finish c (.ok t) = .ok r ∧ r.1 = t.act := by
  simp only [finish]
  split
  next hc =>
    split
    · exact ⟨_, rfl, rfl⟩
    next ho =>
      obtain ⟨h1, h2⟩ := h (by simpa using ho)
      simp [h1, h2] at hc
  · exact ⟨_, rfl, rfl⟩

/-- Without nesting no processor fails. -/
theorem enq_total {nested : Sid → Ctx → Nat → Except Fault (Act × List Eff)} {v : View} {c : Ctx} (k : Key) {kd : Kind}
    (h1 : ∀ i o, kd ≠ .dmx i o) (h2 : ∀ i o, kd ≠ .mx i o) : ∃ r, enq nested v c k kd = .ok r ∧
      (r.own = false → r.act.take = true ∧ r.act.drop = false) ∧ (r.own = true → r.act.take = false) := by
  cases kd <;> simp only [enq]
  case dmx i o => exact absurd rfl (h1 i o)
  case mx i o => exact absurd rfl (h2 i o)
  all_goals (repeat' split) <;> exact ⟨_, rfl, by simp [aTake, aDrop, aTee, Act.nop]⟩

/-- Packets other than RTCP never make a chain fail, and RTCP does so only with ICE. -/
theorem handleat_total {st : St} (h : InvM st) (ir dr : Bool) (fuel : Nat) (m : Sid) (c : Ctx) (startat : Nat)
    (hc : c.pkt.isRtcp = false ∨ (∀ i, st.ice i = none) ∨ 11 ≤ startat) :
    ∃ r, handleat (st.view ir dr) (fuel + 1) m c startat = .ok r := by
  simp only [handleat]
  obtain ⟨t, ht, ho, _⟩ := loop_total (nested := handleat (st.view ir dr) fuel) (v := st.view ir dr) (c := c)
    (s := startat) (l := (st.view ir dr).mgr m) (a := Act.nop) (by
      intro p hp hs hlk
      refine enq_total p.key ?_ ?_
      · intro i o hk
        rcases proc_cases h hp with ⟨j, a, _, hi, rfl⟩ | ⟨j, a, _, hi, rfl⟩ | ⟨j, a, _, hi, rfl⟩ | ⟨j, a, _, hi, rfl⟩ |
          ⟨j, a, _, hi, rfl⟩ | rfl | ⟨_, _, hk' | ⟨f, hk'⟩⟩
        · cases hk
        · rcases hc with hc | hc | hc
          · rw [likes, hc] at hlk; cases hlk
          · rw [hc] at hi; cases hi
          · simp only [oCtRecv] at hs; omega
        · cases hk
        · cases hk
        · cases hk
        · cases hk
        · rw [hk'] at hk; cases hk
        · rw [hk'] at hk; cases hk
      · intro i o hk
        rcases proc_cases h hp with ⟨j, a, _, hi, rfl⟩ | ⟨j, a, _, hi, rfl⟩ | ⟨j, a, _, hi, rfl⟩ | ⟨j, a, _, hi, rfl⟩ |
          ⟨j, a, _, hi, rfl⟩ | rfl | ⟨_, _, hk' | ⟨f, hk'⟩⟩
        · cases hk
        · cases hk
        · rcases hc with hc | hc | hc
          · rw [likes, hc] at hlk; cases hlk
          · rw [hc] at hi; cases hi
          · simp only [oCtSend] at hs; omega
        · cases hk
        · cases hk
        · cases hk
        · rw [hk'] at hk; cases hk
        · rw [hk'] at hk; cases hk) rfl rfl
  rw [ht]
  obtain ⟨r, hr, _⟩ := finish_total (c := c) ho
  exact ⟨r, hr⟩

/-! ### Nesting -/

theorem loop_error {nested : Sid → Ctx → Nat → Except Fault (Act × List Eff)} {v : View} {c : Ctx} {s : Nat}
    {l : List Proc} {a : Act} {e : Fault} (h : loop nested v c s l a = .error e) :
    e = .ub ∨ ∃ p ∈ l, s ≤ p.order ∧ enq nested v c p.key p.kind = .error e := by
  induction l generalizing a with
  | nil => cases h
  | cons p ps ih =>
    have hcons : (e = .ub ∨ ∃ q ∈ ps, s ≤ q.order ∧ enq nested v c q.key q.kind = .error e) →
        e = .ub ∨ ∃ q ∈ p :: ps, s ≤ q.order ∧ enq nested v c q.key q.kind = .error e := by
      rintro (h1 | ⟨q, h1, h2⟩)
      · exact Or.inl h1
      · exact Or.inr ⟨q, List.mem_cons_of_mem _ h1, h2⟩
    simp only [loop] at h
    split at h
    · exact hcons (ih h)
    next hs =>
      split at h
      · exact hcons (ih h)
      · split at h
        next e' he => cases h; exact Or.inr ⟨p, List.mem_cons_self .., by omega, he⟩
        · split at h
          · cases h
          · split at h
            · cases h; exact Or.inl rfl
            · split at h
              next e' he => cases h; exact hcons (ih he)
              · cases h

theorem wrap_error {x : Except Fault (Act × List Eff)} {e : Fault} (h : wrap x = .error e) : x = .error e := by
  cases x with
  | error e' => cases h; rfl
  | ok y => cases h

/-- Only the multiplexers fail, when the chain they hand the packet to does. -/
theorem enq_error {nested : Sid → Ctx → Nat → Except Fault (Act × List Eff)} {v : View} {c : Ctx} {k : Key} {kd : Kind}
    {e : Fault} (h : enq nested v c k kd = .error e) :
    (∃ i o, kd = .dmx i o ∧ nested i { c with inS := i, outS := some o } oCtRecv = .error e) ∨
    (∃ i o, kd = .mx i o ∧ nested o.rev { c with inS := i, outS := some o } oCtSend = .error e) := by
  cases kd <;> simp only [enq] at h
  case dmx i o => exact Or.inl ⟨i, o, rfl, wrap_error h⟩
  case mx i o => exact Or.inr ⟨i, o, rfl, wrap_error h⟩
  all_goals (repeat' split at h) <;> cases h

theorem handleat_error {v : View} {fuel : Nat} {m : Sid} {c : Ctx} {s : Nat} {e : Fault}
    (h : handleat v (fuel + 1) m c s = .error e) :
    e = .ub ∨ ∃ p ∈ v.mgr m, s ≤ p.order ∧ enq (handleat v fuel) v c p.key p.kind = .error e := by
  simp only [handleat] at h
  cases hl : loop (handleat v fuel) v c s (v.mgr m) Act.nop with
  | error e' => rw [hl] at h; cases h; exact loop_error hl
  | ok t =>
    rw [hl] at h
    simp only [finish] at h
    split at h
    · split at h
      · cases h
      · cases h; exact Or.inl rfl
    · cases h

/-- The depth of nesting that a passage needs. -/
def rank (m : Sid) (startat : Nat) : Nat := if m.rtcp then 2 else if 4 ≤ startat then 1 else 3

/-- The limit of nesting is not reached. -/
theorem handleat_noabort {st : St} (h : InvM st) (ir dr : Bool) : ∀ (fuel : Nat) (m : Sid) (c : Ctx) (s : Nat) (e : Fault),
    rank m s ≤ fuel → handleat (st.view ir dr) fuel m c s = .error e → e = .ub := by
  intro fuel
  induction fuel with
  | zero =>
    intro m c s e hr
    simp only [rank] at hr
    (repeat' split at hr) <;> omega
  | succ fuel ih =>
    intro m c s e hr he
    rcases handleat_error he with he | ⟨p, hp, hs, he⟩
    · exact he
    · rcases proc_cases h hp with ⟨j, a, rfl, hi, rfl⟩ | ⟨j, a, rfl, hi, rfl⟩ | ⟨j, a, rfl, hi, rfl⟩ | ⟨j, a, rfl, hi, rfl⟩ |
          ⟨j, a, rfl, hi, rfl⟩ | rfl | ⟨_, _, hk | ⟨f, hk⟩⟩ <;>
        rcases enq_error he with ⟨i, o, h1, h2⟩ | ⟨i, o, h1, h2⟩ <;> try (cases h1)
      · refine ih _ _ _ _ ?_ h2
        simp only [rank, oCtRecv] at hr hs ⊢
        simp only [Bool.false_eq_true, if_false, if_true] at hr ⊢
        split at hr <;> omega
      · refine ih _ _ _ _ ?_ h2
        simp [rank, oCtSend, Sid.rev] at hr hs ⊢
        omega
      all_goals rw [hk] at h1; cases h1

/-! ### A session in which everything can go out -/

/-- A processor that has let the packet go on, or has taken it. -/
def Lets (r : Enq) : Prop := r.own = true ∧ r.act.take = false ∧ r.act.drop = false
def Takes (r : Enq) : Prop := r.own = false ∧ r.act.take = true ∧ r.act.drop = false

theorem loop_takes {nested : Sid → Ctx → Nat → Except Fault (Act × List Eff)} {v : View} {c : Ctx} {s : Nat}
    {l : List Proc} (hl : ∀ p ∈ l, s ≤ p.order → likes v c p.kind = true → ∃ r, enq nested v c p.key p.kind = .ok r ∧
      (Lets r ∨ Takes r))
    (hx : ∃ p ∈ l, s ≤ p.order ∧ likes v c p.kind = true ∧ ∀ r, enq nested v c p.key p.kind = .ok r → Takes r)
    (a : Act) (ha : a.take = false) (hd : a.drop = false) :
    ∃ t, loop nested v c s l a = .ok t ∧ Takes t := by
  induction l generalizing a with
  | nil => obtain ⟨p, hp, _⟩ := hx; cases hp
  | cons p ps ih =>
    have hl' := fun q hq => hl q (List.mem_cons_of_mem _ hq)
    have hskip : (s > p.order ∨ likes v c p.kind = false) →
        ∃ q ∈ ps, s ≤ q.order ∧ likes v c q.kind = true ∧ ∀ r, enq nested v c q.key q.kind = .ok r → Takes r := by
      intro hs
      obtain ⟨q, hq, h1, h2, h3⟩ := hx
      rcases List.mem_cons.mp hq with rfl | hq
      · rcases hs with hs | hs
        · omega
        · rw [hs] at h2; cases h2
      · exact ⟨q, hq, h1, h2, h3⟩
    simp only [loop]
    split
    next hs => exact ih hl' (hskip (Or.inl hs.2)) a ha hd
    next hs =>
      split
      next hlk => exact ih hl' (hskip (Or.inr hlk)) a ha hd
      next hlk =>
        obtain ⟨r, hr, ho⟩ := hl p (List.mem_cons_self ..) (by omega) (by simpa using hlk)
        rw [hr]
        rcases ho with ⟨o1, o2, o3⟩ | ⟨o1, o2, o3⟩
        · have hx' : ∃ q ∈ ps, s ≤ q.order ∧ likes v c q.kind = true ∧
              ∀ r, enq nested v c q.key q.kind = .ok r → Takes r := by
            obtain ⟨q, hq, h1, h2, h3⟩ := hx
            rcases List.mem_cons.mp hq with rfl | hq
            · have := (h3 r hr).2.1; rw [o2] at this; cases this
            · exact ⟨q, hq, h1, h2, h3⟩
          obtain ⟨t, t1, t2⟩ := ih hl' hx' (a.or r.act) (by simp [Act.or, ha, o2]) (by simp [Act.or, hd, o3])
          simp only [Act.or, ha, hd, o1, o2, o3, Bool.or_false, Bool.false_eq_true, if_false, Bool.true_eq_false] at t1 ⊢
          rw [t1]
          exact ⟨_, rfl, t2⟩
        · simp only [Act.or, ha, hd, o1, o2, o3, Bool.or_true, Bool.or_false, if_true]
          exact ⟨_, rfl, rfl, rfl, rfl⟩

theorem finish_takes {c : Ctx} {t : Enq} (h : Takes t) : finish c (.ok t) = .ok (t.act, t.effs) := by
  simp [finish, h.2.1, h.2.2]

theorem lets_other {nested : Sid → Ctx → Nat → Except Fault (Act × List Eff)} {v : View} {c : Ctx} {k : Key}
    {kd : Kind} (h : kd = .analyze ∨ ∃ f, kd = .other f ∧ (f c.pkt = .nop ∨ f c.pkt = .tee)) :
    ∃ r, enq nested v c k kd = .ok r ∧ (Lets r ∨ Takes r) := by
  rcases h with rfl | ⟨f, rfl, hf | hf⟩ <;> simp [enq, Lets, Act.nop, aTee, *]

theorem takes_relay {st : St} {ir dr : Bool} {nested : Sid → Ctx → Nat → Except Fault (Act × List Eff)} {c : Ctx}
    {k : Key} (hs : ∀ s, st.sendable s = true) (ho : c.outS.isSome = true) :
    ∃ r, enq nested (st.view ir dr) c k .relay = .ok r ∧ Takes r := by
  cases h : c.outS with
  | none => rw [h] at ho; cases ho
  | some o => simp [enq, h, St.view, hs, Takes, aTake]

theorem mem_relay {st : St} (h : InvM st) (s : Sid) : (⟨oRelay, .relay, .relay⟩ : Proc) ∈ st.mgr s := by
  have : (⟨oRelay, .relay, .relay⟩ : Proc) ∈ sel .relay (st.mgr s) := by
    rw [h.keys _ _ (by simp)]; simp [want]
  exact (mem_sel.mp this).1

/-- The end of the chain of an RTP stream takes the packet. -/
theorem takes_rtp {st : St} (h : InvM st) (hs : ∀ s, st.sendable s = true) (ir : Bool) (fuel : Nat) (i : Bool) (c : Ctx)
    (ho : c.outS.isSome = true) :
    ∃ r, handleat (st.view ir true) (fuel + 1) (rtp i) c oCtSend = .ok r ∧ r.1.take = true ∧ r.1.drop = false := by
  obtain ⟨t, ht, hk⟩ := loop_takes (nested := handleat (st.view ir true) fuel) (v := st.view ir true) (c := c)
    (s := oCtSend) (l := (st.view ir true).mgr (rtp i)) (a := Act.nop) (by
      intro p hp hs' hlk
      rcases proc_cases h hp with ⟨j, a, _, hi, rfl⟩ | ⟨j, a, _, hi, rfl⟩ | ⟨j, a, hj, hi, rfl⟩ | ⟨j, a, _, hi, rfl⟩ |
          ⟨j, a, _, hi, rfl⟩ | rfl | ⟨_, h2, _⟩
      · exact absurd hs' (by show ¬ 10 ≤ 1; omega)
      · exact absurd hs' (by show ¬ 10 ≤ 3; omega)
      · cases hj
      · exact absurd hs' (by show ¬ 10 ≤ 2; omega)
      · exact ⟨_, by simp [enq, St.view]; rfl, Or.inr ⟨rfl, rfl, rfl⟩⟩
      · obtain ⟨r, h1, h2⟩ := takes_relay (ir := ir) (dr := true) (nested := handleat (st.view ir true) fuel)
          (k := .relay) hs ho
        exact ⟨r, h1, Or.inr h2⟩
      · have : 10 ≤ p.order := hs'
        omega)
    ⟨_, mem_relay h (rtp i), by decide, rfl, fun r hr => by
      obtain ⟨r', h1, h2⟩ := takes_relay (ir := ir) (dr := true) (nested := handleat (st.view ir true) fuel)
          (k := .relay) hs ho
      rw [h1] at hr; cases hr; exact h2⟩ rfl rfl
  exact ⟨_, by simp only [handleat]; rw [ht, finish_takes hk], hk.2.1, hk.2.2⟩

/-- So does the chain of an RTCP stream. -/
theorem takes_rtcp {st : St} (h : InvM st) (hs : ∀ s, st.sendable s = true) (hp : Passive st) (ir : Bool) (fuel : Nat)
    (i : Bool) (c : Ctx) (ho : c.outS.isSome = true) :
    ∃ r, handleat (st.view ir true) (fuel + 2) (rtcp i) c oCtRecv = .ok r ∧ r.1.take = true ∧ r.1.drop = false := by
  have hrel := fun k => takes_relay (st := st) (ir := ir) (dr := true) (nested := handleat (st.view ir true) (fuel + 1))
          (k := k) hs ho
  obtain ⟨t, ht, hk⟩ := loop_takes (nested := handleat (st.view ir true) (fuel + 1)) (v := st.view ir true) (c := c)
    (s := oCtRecv) (l := (st.view ir true).mgr (rtcp i)) (a := Act.nop) (by
      intro p hpm hs' hlk
      rcases proc_cases h hpm with ⟨j, a, hj, hi, rfl⟩ | ⟨j, a, hj, hi, rfl⟩ | ⟨j, a, hj, hi, rfl⟩ | ⟨j, a, hj, hi, rfl⟩ |
          ⟨j, a, hj, hi, rfl⟩ | rfl | ⟨_, h2, h3⟩
      · cases hj
      · cases hj
      · obtain ⟨r, r1, r2, r3⟩ := takes_rtp h hs ir fuel (!!j) { c with inS := rtcp j, outS := some (rtp !j) } rfl
        refine ⟨⟨r.1, false, r.2⟩, ?_, Or.inr ⟨rfl, r2, r3⟩⟩
        simp only [enq, rev_rtp, r1, wrap]
      · cases hj
      · cases hj
      · obtain ⟨r, h1, h2⟩ := hrel .relay
        exact ⟨r, h1, Or.inr h2⟩
      · refine lets_other ?_
        rcases h3 with h3 | ⟨f, h3⟩
        · exact Or.inl h3
        · exact Or.inr ⟨f, h3, hp _ _ f hpm h3 _⟩)
    ⟨_, mem_relay h (rtcp i), by decide, rfl, fun r hr => by
      obtain ⟨r', h1, h2⟩ := hrel .relay
      rw [h1] at hr; cases hr; exact h2⟩ rfl rfl
  exact ⟨_, by simp only [handleat] at ht ⊢; rw [ht, finish_takes hk], hk.2.1, hk.2.2⟩

/-- If everything can go out and the other processors only look, no chain fails. -/
theorem handleat_open {st : St} (h : InvM st) (hs : ∀ s, st.sendable s = true) (hp : Passive st) (ir : Bool)
    (fuel : Nat) (m : Sid) (c : Ctx) (startat : Nat) :
    ∃ r, handleat (st.view ir true) (fuel + 3) m c startat = .ok r := by
  obtain ⟨t, ht, ho, _⟩ := loop_total (nested := handleat (st.view ir true) (fuel + 2)) (v := st.view ir true) (c := c)
    (s := startat) (l := (st.view ir true).mgr m) (a := Act.nop) (by
      intro p hpm hs' hlk
      by_cases hd : ∃ i o, p.kind = .dmx i o
      · obtain ⟨i, o, hd⟩ := hd
        rcases proc_cases h hpm with ⟨j, a, hj, hi, rfl⟩ | ⟨j, a, hj, hi, rfl⟩ | ⟨j, a, hj, hi, rfl⟩ | ⟨j, a, hj, hi, rfl⟩ |
          ⟨j, a, hj, hi, rfl⟩ | rfl | ⟨_, _, h3 | ⟨f, h3⟩⟩
        case inr.inl =>
          cases hd
          obtain ⟨r, r1, r2, r3⟩ := takes_rtcp h hs hp ir fuel j { c with inS := rtcp j, outS := some (rtcp !j) } rfl
          exact ⟨⟨r.1, false, r.2⟩, by simp only [enq, r1, wrap], fun _ => ⟨r2, r3⟩, by simp⟩
        all_goals first
          | (cases hd; done)
          | (rw [h3] at hd; cases hd)
      · by_cases hm : ∃ i o, p.kind = .mx i o
        · obtain ⟨i, o, hm⟩ := hm
          rcases proc_cases h hpm with ⟨j, a, hj, hi, rfl⟩ | ⟨j, a, hj, hi, rfl⟩ | ⟨j, a, hj, hi, rfl⟩ |
            ⟨j, a, hj, hi, rfl⟩ | ⟨j, a, hj, hi, rfl⟩ | rfl | ⟨_, _, h3 | ⟨f, h3⟩⟩
          case inr.inr.inl =>
            cases hm
            obtain ⟨r, r1, r2, r3⟩ := takes_rtp h hs ir (fuel + 1) (!!j) { c with inS := rtcp j, outS := some (rtp !j) } rfl
            exact ⟨⟨r.1, false, r.2⟩, by simp only [enq, rev_rtp, r1, wrap], fun _ => ⟨r2, r3⟩, by simp⟩
          all_goals first
            | (cases hm; done)
            | (rw [h3] at hm; cases hm)
        · exact enq_total p.key (fun i o e => hd ⟨i, o, e⟩) (fun i o e => hm ⟨i, o, e⟩)) rfl rfl
  obtain ⟨r, hr, _⟩ := finish_total (c := c) ho
  refine ⟨r, ?_⟩
  show finish c (loop (handleat (st.view ir true) (fuel + 2)) (st.view ir true) c startat ((st.view ir true).mgr m) Act.nop) = _
  rw [ht, hr]

end Verif.Plane
