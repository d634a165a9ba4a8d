import Verif.Setup.Spec

/-!
# Lemmas about U and L
-/

namespace Verif.Setup

/-- An invariant that may speak of the history. -/
theorem run_inv (Q : S → List (Ev × Option Reply) → Prop)
    (hq : ∀ s h e, Q s h → Q (step s e).1 (h ++ [(e, (step s e).2)])) :
    ∀ es s h, Q s h → Q (run s es) (h ++ hist s es)
  | [], s, h, hs => by simpa [run, hist] using hs
  | e :: es, s, h, hs => by
    have := run_inv Q hq es (step s e).1 (h ++ [(e, (step s e).2)]) (hq s h e hs)
    simpa [run, hist] using this

/-- An invariant kept by the events of a kind. -/
theorem run_keep (Q : S → Prop) (P : Ev → Prop) (hq : ∀ s e, P e → Q s → Q (step s e).1) :
    ∀ es s, (∀ e ∈ es, P e) → Q s → Q (run s es)
  | [], _, _, hs => hs
  | e :: es, s, he, hs => run_keep Q P hq es _ (fun x hx => he x (by simp [hx])) (hq s e (he e (by simp)) hs)

theorem granted_append (i : Bool) : ∀ h h', granted i (h ++ h') = granted i h' ++ granted i h
  | [], h' => by simp [granted]
  | (e, q) :: h, h' => by
    have ih := granted_append i h h'
    match e, q with
    | .cmd j r v, some (.ok p a) => simp [granted, ih]
    | .cmd j r v, some .err => simpa [granted] using ih
    | .cmd j r v, none => simpa [granted] using ih
    | .rtp _ _ _ _, q => simpa [granted] using ih
    | .rtcp _ _ _, q => simpa [granted] using ih

theorem updates_append : ∀ h h', updates (h ++ h') = updates h' ++ updates h
  | [], h' => by simp [updates]
  | (e, q) :: h, h' => by
    have ih := updates_append h h'
    match e, q with
    | .cmd j r v, some (.ok p a) => simp [updates, ih]
    | .cmd j r v, some .err => simpa [updates] using ih
    | .cmd j r v, none => simpa [updates] using ih
    | .rtp _ _ _ _, q => simpa [updates] using ih
    | .rtcp _ _ _, q => simpa [updates] using ih

/-! ## Packets -/

theorem fill1_asym (s p) : (Latch.fill1 s p).asym = s.asym := rfl

theorem latch_asym (s n p) : (Latch.latch s n p).asym = s.asym := by
  unfold Latch.latch Latch.fill1
  split
  · rfl
  · split
    · rfl
    · split
      · rfl
      · split <;> rfl

theorem latchSync_asym (s n p) : (Latch.latchSync s n p).asym = s.asym := by
  unfold Latch.latchSync
  split
  · rfl
  · split
    · rfl
    · split
      · rfl
      · split
        · rfl
        · split <;> rfl

theorem override_asym {s n p s'} (h : Latch.override s n p = some s') : s'.asym = s.asym := by
  unfold Latch.override at h
  split at h
  · cases h
  · split at h
    · cases h
    · split at h
      · cases h
      · split at h
        · cases h
        · split at h
          · cases h
          · cases h; rfl

theorem rx1_asym (s n p) : (Latch.rx1 s n p).1.asym = s.asym := by
  unfold Latch.rx1
  split
  · rfl
  · split
    · simp [latchSync_asym, fill1_asym]
    · split
      · split
        · rfl
        · simp [latchSync_asym]
      · split
        · split
          · split
            · rfl
            · rename_i h; simp [latchSync_asym, fill1_asym, override_asym h]
          · simp [latchSync_asym, fill1_asym, latch_asym]
        · split <;> simp [latchSync_asym, latch_asym]

theorem guess_asym (s p) : (Latch.guess s p).asym = s.asym := by
  unfold Latch.guess Latch.guess.guessSet
  split
  · split
    · rfl
    · split <;> rfl
  · split <;> rfl

theorem step_rtp_asym (l : Latch.Leg) (n p chg) : (Latch.step l (.rxRtp n p chg)).1.rtp.asym = l.rtp.asym := by
  simp only [Latch.step]
  split
  · rw [latch_asym, rx1_asym]
  · rw [rx1_asym]

theorem step_rtp_rtcp (l : Latch.Leg) (n p chg) :
    (Latch.step l (.rxRtp n p chg)).1.rtcp = l.rtcp ∨
    (Latch.step l (.rxRtp n p chg)).1.rtcp = l.rtcp.map (Latch.guess · p) := by
  simp only [Latch.step]
  split
  · exact Or.inr rfl
  · exact Or.inl rfl

/-- What a packet leaves alone. -/
structure Quiet (d d' : Side) : Prop where
  sock : d'.rtp.sock = d.rtp.sock
  csock : d'.rtcp.sock = d.rtcp.sock
  port : d'.rtp.port = d.rtp.port
  laddr : d'.rtp.laddr = d.rtp.laddr
  hold : d'.rtp.hold = d.rtp.hold
  chold : d'.rtcp.hold = d.rtcp.hold
  codecs : d'.codecs = d.codecs
  ptime : d'.ptime = d.ptime
  resizer : d'.resizer = d.resizer
  asym : d'.rtp.l.asym = d.rtp.l.asym
  casym : d'.rtcp.l.asym = d.rtcp.l.asym

theorem Quiet.refl (d : Side) : Quiet d d := ⟨rfl, rfl, rfl, rfl, rfl, rfl, rfl, rfl, rfl, rfl, rfl⟩

theorem media_rtp (d : Side) (n p chg) : Quiet d (media d (.rxRtp n p chg)) := by
  refine ⟨rfl, rfl, rfl, rfl, rfl, rfl, rfl, rfl, rfl, ?_, ?_⟩
  · exact step_rtp_asym _ n p chg
  · show ((Latch.step ⟨d.rtp.l, some d.rtcp.l⟩ (.rxRtp n p chg)).1.rtcp.getD d.rtcp.l).asym = _
    rcases step_rtp_rtcp ⟨d.rtp.l, some d.rtcp.l⟩ n p chg with h | h <;> rw [h]
    · rfl
    · exact guess_asym _ _

theorem media_rtcp (d : Side) (n p) : Quiet d (media d (.rxRtcp n p)) := by
  refine ⟨rfl, rfl, rfl, rfl, rfl, rfl, rfl, rfl, rfl, rfl, ?_⟩
  exact rx1_asym _ n p

theorem packet_quiet (s : S) (e : Ev) (he : ∀ i r v, e ≠ .cmd i r v) :
    (∀ j, Quiet (s.side j) ((step s e).1.side j)) ∧ (step s e).1.tmo = s.tmo := by
  match e with
  | .cmd i r v => exact absurd rfl (he i r v)
  | .rtp i n p chg =>
    refine ⟨fun j => ?_, rfl⟩
    simp only [step, put]
    split
    · rename_i h; subst h; exact media_rtp _ n p chg
    · exact Quiet.refl _
  | .rtcp i n p =>
    refine ⟨fun j => ?_, rfl⟩
    simp only [step, put]
    split
    · rename_i h; subst h; exact media_rtcp _ n p
    · exact Quiet.refl _

theorem packet_elsewhere (s : S) (e : Ev) (j : Bool) (hc : ∀ i r v, e ≠ .cmd i r v) (he : ¬ Packet j e) :
    (step s e).1.side j = s.side j := by
  match e with
  | .cmd i r v => exact absurd rfl (hc i r v)
  | .rtp i n p chg =>
    have : ¬ j = i := fun h => he h.symm
    simp [step, put, this]
  | .rtcp i n p =>
    have : ¬ j = i := fun h => he h.symm
    simp [step, put, this]

/-! ## Commands -/

/-- The side that is listened on, when the rest of the command begins. -/
inductive Ready (s : S) (i : Bool) (r : Req) (v : Env) : S → Prop
  | kept (h : wants (s.side i) r.o = false) : Ready s i r v s
  | fresh (h : wants (s.side i) r.o = true) (p : Nat) (hp : v.listen = some p) :
      Ready s i r v (put s i (setPort (setLaddr (s.side i) (pick r.o (s.side i).rtp.laddr)) p v.reg))

/-- What comes of a command. -/
inductive Res (s : S) (i : Bool) (r : Req) (v : Env) : S × Reply → Prop
  | refused (h : noNotify v r = true) : Res s i r v (s, .err)
  | failed (h : wants (s.side i) r.o = true) (hl : v.listen = none) :
      Res s i r v (put s i (setLaddr (s.side i) (pick r.o (s.side i).rtp.laddr)), .err)
  | done (s1 : S) (h : Ready s i r v s1) : Res s i r v (settle v i r s1, answer s1 i)

theorem exec_res (s : S) (i : Bool) (r : Req) (v : Env) : Res s i r v (exec s i r v) := by
  unfold exec
  split
  · exact .refused (by assumption)
  · split
    · rename_i hw
      cases hl : v.listen with
      | none => exact .failed hw hl
      | some p => exact .done _ (.fresh hw p hl)
    · rename_i hw
      exact .done _ (.kept (by simpa using hw))

theorem ready_other {s i r v s1} (h : Ready s i r v s1) : s1.side (!i) = s.side (!i) ∧ s1.tmo = s.tmo := by
  cases h with
  | kept _ => exact ⟨rfl, rfl⟩
  | fresh _ p _ => simp [put]

/-- What a listener changes on its own side. -/
theorem ready_own {s i r v s1} (h : Ready s i r v s1) :
    (s1.side i).rtp.l = (s.side i).rtp.l ∧ (s1.side i).rtcp.l = (s.side i).rtcp.l ∧
    (s1.side i).rtp.hold = (s.side i).rtp.hold ∧ (s1.side i).rtcp.hold = (s.side i).rtcp.hold ∧
    (s1.side i).codecs = (s.side i).codecs ∧ (s1.side i).resizer = (s.side i).resizer := by
  cases h with
  | kept _ => simp
  | fresh _ p _ => simp [put, setPort, setLaddr]

theorem settle_own (v i r s) : (settle v i r s).side i = { s.side i with ptime := r.o.ptime } := by simp [settle]

theorem settle_other (v i r s) : (settle v i r s).side (!i) = told v r (s.side (!i)) := by
  cases i <;> simp [settle]

theorem create_some {r v s rep} (h : create r v = (some s, rep)) :
    ∃ p, v.listen = some p ∧ rep = .ok p (lia r.o false) ∧
      s = settle v false r ⟨fun j => if j = false then setPort (side0 (lia r.o false)) p v.reg
        else side0 (lia r.o true), none⟩ := by
  unfold create at h
  split at h
  · cases h
  · cases hl : v.listen with
    | none => rw [hl] at h; cases h
    | some p =>
      rw [hl] at h
      simp only [finish, Prod.mk.injEq, Option.some.injEq] at h
      refine ⟨p, rfl, ?_, h.1.symm⟩
      rw [← h.2]
      rfl

end Verif.Setup
