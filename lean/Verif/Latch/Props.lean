import Verif.Latch.Model

/-!
# C30: a latched source is not hijacked outside the grace window
-/

namespace Verif.Latch

/-- The grace window after the last signalling update is over. -/
def Closed (s : Strm) (now : Int) : Prop := s.lastUpdate = 0 ∨ now - s.lastUpdate > 10000000

/-- The packet proves knowledge of the latched stream: valid RTP with the latched SSRC and a close sequence number. -/
def Qualifies (s : Strm) (p : Pkt) : Prop :=
  s.rtcp = false ∧ ∃ v q, s.ssrc = some v ∧ p.rtp = some (v, q) ∧
    ∃ d : Nat, d ≤ 536 ∧ (s.seq + d) % 65536 = q % 65536

theorem seqDist_close {a b : Nat} (ha : a < 65536) (hb : b < 65536) (h : Rtp.seqDist a b ≤ 536) :
    ∃ d : Nat, d ≤ 536 ∧ (a + d) % 65536 = b % 65536 := by
  refine ⟨_, h, ?_⟩
  unfold Rtp.seqDist
  split <;> omega

theorem override_some {s s' : Strm} {now : Int} {p : Pkt} (h : override s now p = some s') (hc : Closed s now)
    (h1 : s.seq < 65536) (h2 : ∀ x, p.rtp = some x → x.2 < 65536) : Qualifies s p := by
  unfold override at h
  by_cases hr : s.rtcp = true
  · simp [hr] at h
  · simp only [hr] at h
    cases hs : s.ssrc with
    | none => simp [hs] at h
    | some v =>
      simp only [hs] at h
      by_cases hm : s.mode = .forceOn
      · simp [hm] at h
      · simp only [hm] at h
        cases hp : p.rtp with
        | none => simp [hp] at h
        | some x =>
          obtain ⟨ssrc, seq⟩ := x
          simp only [hp] at h
          by_cases hq : (s.lastUpdate = 0 ∨ now - s.lastUpdate > window) ∧ (ssrc ≠ v ∨ Rtp.seqDist s.seq seq > 536)
          · simp [hq] at h
          · have h3 : ¬ (ssrc ≠ v ∨ Rtp.seqDist s.seq seq > 536) := fun h4 => hq ⟨hc, h4⟩
            simp only [not_or, ne_eq, Decidable.not_not] at h3
            refine ⟨by simpa using hr, v, seq, hs, by rw [hp, h3.1], ?_⟩
            exact seqDist_close h1 (h2 _ hp) (by omega)

/-- Latched stream with a remote address, sources being checked, window over: a packet from elsewhere is either
discarded, the stream's state being exactly what it was, or it is valid RTP with the latched SSRC and a sequence
number at most 536 ahead of the last one recorded. -/
theorem C30_foreign_packet (s : Strm) (now : Int) (p : Pkt) (a : Addr) (hrem : s.rem = some a) (hl : s.latched = true)
    (hasym : s.asym = false) (hmode : s.mode ≠ .forceOff) (hc : Closed s now) (hsrc : p.src ≠ a)
    (h1 : s.seq < 65536) (h2 : ∀ x, p.rtp = some x → x.2 < 65536) :
    rx1 s now p = (s, false, false) ∨ Qualifies s p := by
  unfold rx1
  simp only [hmode, hrem, hasym, hl, if_true, if_false]
  rw [if_neg (by simp), if_pos (Ne.symm hsrc)]
  cases ho : override s now p with
  | none => exact .inl rfl
  | some s' => exact .inr (override_some ho hc h1 h2)

/-- An asymmetric stream ignores other hosts altogether. -/
theorem C30_foreign_host_asymmetric (s : Strm) (now : Int) (p : Pkt) (a : Addr) (hrem : s.rem = some a)
    (hasym : s.asym = true) (hmode : s.mode ≠ .forceOff) (hsrc : p.src.host ≠ a.host) :
    rx1 s now p = (s, false, false) := by
  unfold rx1
  simp only [hmode, hrem, hasym, if_true, if_false]
  rw [if_pos (Ne.symm hsrc)]

def A : Addr := ⟨1, 5000⟩
def B : Addr := ⟨2, 6000⟩

/-- A stream latched at time 1 to SSRC 77. -/
def ex : Strm := ⟨false, false, .normal, some A, none, true, 0, true, some 77, 100, 1000000⟩

/-- Wrong SSRC: discarded; right SSRC and near: followed. -/
example : rx1 ex 5000000 ⟨B, some (78, 101)⟩ = (ex, false, false) ∧
    (rx1 ex 5000000 ⟨B, some (77, 101)⟩).1.rem = some B := by decide

/-! ### Sequences -/

theorem fill1_latched {s : Strm} {p : Pkt} (h : s.latched = true) : (fill1 s p).latched = true := by
  unfold fill1; simp only []; split <;> first | rfl | exact h

theorem latchSync_keep (s : Strm) (now : Int) (p : Pkt) :
    (latchSync s now p).rem = s.rem ∧ (latchSync s now p).latched = s.latched ∧ (latchSync s now p).ssrc = s.ssrc ∧
    (latchSync s now p).mode = s.mode ∧ (latchSync s now p).asym = s.asym ∧ (latchSync s now p).rtcp = s.rtcp ∧
    (latchSync s now p).lastUpdate = s.lastUpdate := by
  unfold latchSync
  split
  · simp
  · split
    · simp
    · split
      · simp
      · split
        · simp
        · split <;> simp

/-- What an attacker's packet is, given the SSRCs `known` the rightful source has used: not RTP, or with another
SSRC. -/
def Blind (known : Nat → Prop) (p : Pkt) : Prop := ∀ v q, p.rtp = some (v, q) → ¬ known v

/-- The events of an attack: signalling is quiet and every clock reading is past the window; packets at the RTP port
come from the rightful source `a` with SSRCs in `known` (none of them 0), or from elsewhere and blind. -/
def Attack (a : Addr) (known : Nat → Prop) (lastUpdate : Int) : Ev → Prop
  | .rxRtp now p _ => (lastUpdate = 0 ∨ now - lastUpdate > 10000000) ∧
      ((p.src = a ∧ ∀ v q, p.rtp = some (v, q) → known v ∧ v ≠ 0) ∨ (p.src ≠ a ∧ Blind known p))
  | .rxRtcp _ _ => True
  | .prefill _ _ _ => False

/-- Whether the event is a packet from the rightful source at the RTP port. -/
def Genuine (a : Addr) : Ev → Bool
  | .rxRtp _ p _ => p.src = a
  | _ => false

/-- The RTP stream keeps its remote address. -/
structure Safe (s : Strm) (a : Addr) (known : Nat → Prop) (lu : Int) : Prop where
  rem : s.rem = some a
  latched : s.latched = true
  asym : s.asym = false
  mode : s.mode = .normal
  lu : s.lastUpdate = lu
  ssrc : ∀ v, s.ssrc = some v → known v

theorem safe_step {l : Leg} {a : Addr} {known : Nat → Prop} {lu : Int} (h : Safe l.rtp a known lu) {e : Ev}
    (he : Attack a known lu e) : Safe (step l e).1.rtp a known lu ∧
      (∀ now p chg, e = .rxRtp now p chg → (step l e).2 = decide (p.src = a)) := by
  cases e with
  | prefill now x y => exact he.elim
  | rxRtcp now p =>
    refine ⟨?_, by intros; contradiction⟩
    simp only [step]
    cases hc : l.rtcp with
    | none => exact h
    | some c => exact h
  | rxRtp now p chg =>
    obtain ⟨hw, hp⟩ := he
    have hmode : l.rtp.mode ≠ .forceOff := by rw [h.mode]; decide
    rcases hp with ⟨hsrc, hk⟩ | ⟨hsrc, hb⟩
    · -- the rightful source
      have hrx : rx1 l.rtp now p = (latchSync l.rtp now p, true, false) := by
        unfold rx1
        simp only [hmode, h.rem, h.asym, h.latched, if_true, if_false]
        rw [if_neg (by simp), if_neg (by rw [hsrc]; simp)]
      obtain ⟨k1, k2, k3, k4, k5, k6, k7⟩ := latchSync_keep l.rtp now p
      have hS : Safe (latchSync l.rtp now p) a known lu :=
        ⟨k1.trans h.rem, k2.trans h.latched, k5.trans h.asym, k4.trans h.mode, k7.trans h.lu,
          fun v hv => h.ssrc v (k3 ▸ hv)⟩
      simp only [step, hrx]
      refine ⟨?_, fun now' p' chg' he => by cases he; simp [hsrc]⟩
      split
      · -- the analyser saw another SSRC: latch on it
        unfold latch
        rw [if_neg (by rw [hS.mode]; decide), if_neg (by
          rw [hS.lu]
          unfold window
          intro hh
          rcases hw with hw | hw
          · exact hh.1 hw
          · omega)]
        split
        · exact ⟨hS.rem, rfl, hS.asym, hS.mode, hS.lu, (fun v hv => by cases hv)⟩
        · split
          · rename_i ssrc seq hpr
            obtain ⟨g1, g2⟩ := hk ssrc seq hpr
            exact ⟨hS.rem, by simp [g2], hS.asym, hS.mode, hS.lu, (fun v hv => by cases hv; exact g1)⟩
          · exact ⟨hS.rem, rfl, hS.asym, hS.mode, hS.lu, (fun v hv => by cases hv)⟩
      · exact hS
    · -- somebody else
      have ho : override l.rtp now p = none := by
        cases ho : override l.rtp now p with
        | none => rfl
        | some s' =>
          exfalso
          unfold override at ho
          by_cases hr : l.rtp.rtcp = true
          · simp [hr] at ho
          · simp only [hr] at ho
            cases hs : l.rtp.ssrc with
            | none => simp [hs] at ho
            | some v =>
              simp only [hs] at ho
              cases hp : p.rtp with
              | none => simp [hp] at ho
              | some x =>
                obtain ⟨ssrc, seq⟩ := x
                have hne : ssrc ≠ v := fun e => hb ssrc seq hp (e ▸ h.ssrc v hs)
                simp only [hp] at ho
                rw [h.lu] at ho
                simp [window, hw, hne] at ho
      have hrx : rx1 l.rtp now p = (l.rtp, false, false) := by
        unfold rx1
        simp only [hmode, h.rem, h.asym, h.latched, if_true, if_false]
        rw [if_neg (by simp), if_pos (Ne.symm hsrc), ho]
      simp only [step, hrx]
      refine ⟨?_, fun now' p' chg' he => by cases he; simp [hsrc]⟩
      rw [if_neg (by simp)]
      exact h

/-- **C30.**  A symmetric RTP stream latched to `a`, the grace window being over: whatever an attacker without
knowledge of the SSRCs sends to the RTP and RTCP ports, in whatever order and however interleaved with the rightful
source's packets, the remote address of the stream stays `a`; every packet of the rightful source is passed on and
none of the attacker's. -/
theorem C30_no_hijack (l : Leg) (a : Addr) (known : Nat → Prop) (h : Safe l.rtp a known l.rtp.lastUpdate) (es : List Ev)
    (he : ∀ e ∈ es, Attack a known l.rtp.lastUpdate e) :
    (run l es).1.rtp.rem = some a ∧
    ∀ (i : Nat) (now : Int) (p : Pkt) (chg : Bool), es[i]? = some (.rxRtp now p chg) → (run l es).2[i]? = some (decide (p.src = a)) := by
  have key : ∀ (es : List Ev) (l : Leg) (lu : Int), Safe l.rtp a known lu → (∀ e ∈ es, Attack a known lu e) →
      (run l es).1.rtp.rem = some a ∧
      ∀ (i : Nat) (now : Int) (p : Pkt) (chg : Bool), es[i]? = some (.rxRtp now p chg) →
        (run l es).2[i]? = some (decide (p.src = a)) := by
    intro es
    induction es with
    | nil => intro l lu h _; exact ⟨h.rem, by intro i now p chg hi; simp at hi⟩
    | cons e es ih =>
      intro l lu h he
      obtain ⟨h1, h2⟩ := safe_step h (he e (by simp))
      obtain ⟨i1, i2⟩ := ih (step l e).1 lu h1 (fun x hx => he x (by simp [hx]))
      refine ⟨i1, ?_⟩
      intro i now p chg hi
      cases i with
      | zero =>
        simp only [List.getElem?_cons_zero, Option.some.injEq] at hi
        simp only [run, List.getElem?_cons_zero]
        rw [h2 now p chg hi]
      | succ i =>
        simp only [List.getElem?_cons_succ] at hi
        simp only [run, List.getElem?_cons_succ]
        exact i2 i now p chg hi
  exact key es l _ h he

/-- The hypotheses are met, also with the source changing its SSRC and the attacker trying all sorts. -/
example : Safe ex A (fun v => v = 77 ∨ v = 99) ex.lastUpdate ∧
    (∀ e ∈ [Ev.rxRtp 2000000 ⟨A, some (77, 101)⟩ false, .rxRtp 2000001 ⟨B, some (5, 101)⟩ false, .rxRtp 2000002 ⟨B, none⟩ false,
      .rxRtp 3000000 ⟨A, some (99, 1)⟩ true, .rxRtcp 3000001 ⟨B, none⟩, .rxRtp 3000002 ⟨B, some (78, 1)⟩ true],
      Attack A (fun v => v = 77 ∨ v = 99) ex.lastUpdate e) := by
  refine ⟨⟨rfl, rfl, rfl, rfl, rfl, by simp [ex]⟩, ?_⟩
  simp [Attack, A, B, ex, Blind]

/-- The recorded sequence number follows the rightful source: after each of its packets carrying the latched SSRC it
is that packet's, or was updated less than a second before. -/
theorem C30_sequence_follows (s : Strm) (now : Int) (p : Pkt) (a : Addr) (v q : Nat) (hrem : s.rem = some a)
    (hl : s.latched = true) (hasym : s.asym = false) (hmode : s.mode ≠ .forceOff) (hr : s.rtcp = false)
    (hs : s.ssrc = some v) (hsrc : p.src = a) (hp : p.rtp = some (v, q)) :
    (rx1 s now p).2.1 = true ∧
    ((rx1 s now p).1.seq = q ∨ ((rx1 s now p).1.seq = s.seq ∧ now - s.lastSync < 1000000)) := by
  unfold rx1
  simp only [hmode, hrem, hasym, hl, if_true, if_false]
  rw [if_neg (by simp), if_neg (by rw [hsrc]; simp)]
  refine ⟨rfl, ?_⟩
  simp only [latchSync, hr, hs, hp]
  by_cases hc : now - s.lastSync < syncIval
  · rw [if_neg (by simp), if_pos hc]
    exact .inr ⟨rfl, hc⟩
  · rw [if_neg (by simp), if_neg hc, if_neg (by simp)]
    exact .inl rfl

/-- The rightful source may move: a packet from a new address with the latched SSRC and a close sequence number is
accepted and the stream follows it, staying latched, window or not. -/
theorem C30_follows_move (s : Strm) (now : Int) (p : Pkt) (a : Addr) (v q : Nat) (hrem : s.rem = some a)
    (hl : s.latched = true) (hasym : s.asym = false) (hmode : s.mode = .normal) (hr : s.rtcp = false)
    (hs : s.ssrc = some v) (hp : p.rtp = some (v, q)) (hd : Rtp.seqDist s.seq q ≤ 536) :
    (rx1 s now p).1.rem = some p.src ∧ (rx1 s now p).1.latched = true ∧ (rx1 s now p).2.1 = true := by
  by_cases hsrc : p.src = a
  · unfold rx1
    simp only [hmode, hrem, hasym, hl, if_true, if_false, reduceCtorEq]
    rw [if_neg (by rw [hsrc]; simp)]
    obtain ⟨k1, k2, -⟩ := latchSync_keep s now p
    exact ⟨by rw [k1, hrem, hsrc], k2.trans hl, rfl⟩
  · have ho : ∃ s', override s now p = some s' ∧ s'.latched = true := by
      refine ⟨{ s with seq := q, lastSync := now }, ?_, hl⟩
      simp only [override, hr, hs, hmode, hp]
      rw [if_neg (by simp), if_neg (by simp), if_neg]
      rintro ⟨-, h | h⟩
      · exact h rfl
      · omega
    obtain ⟨s', ho, hl'⟩ := ho
    unfold rx1
    simp only [hmode, hrem, hasym, hl, if_true, if_false, reduceCtorEq]
    rw [if_pos (Ne.symm hsrc), ho]
    obtain ⟨k1, k2, -⟩ := latchSync_keep (fill1 s' p) now p
    exact ⟨by rw [k1]; rfl, k2.trans (fill1_latched hl'), rfl⟩

/-! ### Where the claim fails -/

/-- SSRC 0 (allowed by RFC 3550) is taken for "bad": when the rightful, latched source switches to it the stream is no
longer latched, and the next packet of anybody, RTP or not, redirects it. -/
theorem C30_zero_ssrc_counterexample :
    ¬ ∀ (l : Leg) (a : Addr) (es : List Ev), l.rtp.rem = some a → l.rtp.latched = true → l.rtp.asym = false →
      l.rtp.mode = .normal → l.rtp.lastUpdate = 0 →
      (∀ e ∈ es, ∃ now p chg, e = .rxRtp now p chg ∧ (p.src = a ∨ p.rtp = none)) → (run l es).1.rtp.rem = some a := by
  intro h
  have := h ⟨ex, none⟩ A [.rxRtp 2000000 ⟨A, some (0, 5)⟩ true, .rxRtp 2000001 ⟨B, none⟩ false] rfl rfl rfl rfl rfl
    (by
      intro e he
      simp only [List.mem_cons, List.not_mem_nil, or_false] at he
      rcases he with rfl | rfl
      · exact ⟨_, _, _, rfl, .inl rfl⟩
      · exact ⟨_, _, _, rfl, .inr rfl⟩)
  exact absurd this (by decide)

/-- The RTCP companion is not protected: a packet filling in the address of the RTP stream from another host
redirects (and unlatches) an RTCP stream latched long ago. -/
theorem C30_rtcp_redirected_counterexample :
    ¬ ∀ (l : Leg) (c : Strm) (a : Addr) (now : Int) (p : Pkt) (chg : Bool), l.rtcp = some c → c.rem = some a → c.latched = true →
      c.mode = .normal → c.asym = false → Closed c now →
      ∃ c', (step l (.rxRtp now p chg)).1.rtcp = some c' ∧ c'.rem = some a := by
  intro h
  have := h ⟨{ ex with rem := none, latched := false, ssrc := none }, some { ex with rtcp := true, ssrc := none }⟩
    { ex with rtcp := true, ssrc := none } A 50000000 ⟨B, none⟩ false rfl rfl rfl rfl rfl (.inl rfl)
  obtain ⟨c', h1, h2⟩ := this
  have h1' : c' = { ex with rtcp := true, ssrc := none, rem := some ⟨2, 6001⟩, latched := false } := by
    have : (step ⟨{ ex with rem := none, latched := false, ssrc := none }, some { ex with rtcp := true, ssrc := none }⟩
      (.rxRtp 50000000 ⟨B, none⟩ false)).1.rtcp = some { ex with rtcp := true, ssrc := none, rem := some ⟨2, 6001⟩, latched := false } := by
      decide
    rw [this] at h1
    exact (Option.some.inj h1).symm
  rw [h1'] at h2
  exact absurd h2 (by decide)

/-- **C30 for RTCP (partial).**  Missing: redirection through the RTP companion, see above.  Packets at the RTCP port
itself never redirect a latched RTCP stream, window or not; those from elsewhere are discarded. -/
theorem C30_rtcp_partial (l : Leg) (c : Strm) (a : Addr) (now : Int) (p : Pkt) (hc : l.rtcp = some c) (hr : c.rtcp = true)
    (hrem : c.rem = some a) (hl : c.latched = true) (hasym : c.asym = false) (hmode : c.mode ≠ .forceOff) :
    ∃ c', (step l (.rxRtcp now p)).1 = ⟨l.rtp, some c'⟩ ∧ c'.rem = some a ∧ c'.latched = true ∧
      (step l (.rxRtcp now p)).2 = decide (p.src = a) := by
  simp only [step, hc]
  by_cases hsrc : p.src = a
  · have hrx : rx1 c now p = (latchSync c now p, true, false) := by
      unfold rx1
      simp only [hmode, hrem, hasym, hl, if_true, if_false]
      rw [if_neg (by simp), if_neg (by rw [hsrc]; simp)]
    obtain ⟨k1, k2, -⟩ := latchSync_keep c now p
    rw [hrx]
    exact ⟨_, rfl, k1.trans hrem, k2.trans hl, by simp [hsrc]⟩
  · have hrx : rx1 c now p = (c, false, false) := by
      unfold rx1
      simp only [hmode, hrem, hasym, hl, if_true, if_false]
      rw [if_neg (by simp), if_pos (Ne.symm hsrc)]
      simp [override, hr]
    rw [hrx]
    exact ⟨c, rfl, hrem, hl, by simp [hsrc]⟩

/-- When the first packet arrives before any signalling address, the stream locks onto its source without recording
an SSRC; from then on nobody else is ever accepted, not even in the grace window after a signalling update, and the
signalled address is ignored. -/
theorem C30_first_packet_locks (s : Strm) (now : Int) (p : Pkt) (hrem : s.rem = none) (hprev : s.prev = none)
    (hmode : s.mode = .normal) (hasym : s.asym = false) (hs : s.ssrc = none) (now' now'' : Int) (a : Addr) (p' : Pkt)
    (hp' : p'.src ≠ p.src) :
    rx1 (prefill (rx1 s now p).1 now' a) now'' p' = (prefill (rx1 s now p).1 now' a, false, false) ∧
    (prefill (rx1 s now p).1 now' a).rem = some p.src := by
  have h1 : (rx1 s now p).1 = fill1 s p := by
    unfold rx1
    simp only [hmode, hrem, reduceCtorEq, if_false]
    unfold latchSync
    have : (fill1 s p).ssrc = none := hs
    rw [this]
    split <;> rfl
  rw [h1]
  have h2 : prefill (fill1 s p) now' a = { fill1 s p with lastUpdate := now' } := by
    unfold prefill
    simp [fill1]
  rw [h2]
  refine ⟨?_, rfl⟩
  have e1 : ({ fill1 s p with lastUpdate := now' } : Strm).rem = some p.src := rfl
  have e2 : ({ fill1 s p with lastUpdate := now' } : Strm).latched = true := by simp [fill1, hprev]
  have e3 : ({ fill1 s p with lastUpdate := now' } : Strm).mode = .normal := hmode
  have e4 : ({ fill1 s p with lastUpdate := now' } : Strm).asym = false := hasym
  have e5 : ({ fill1 s p with lastUpdate := now' } : Strm).ssrc = none := hs
  generalize ({ fill1 s p with lastUpdate := now' } : Strm) = t at e1 e2 e3 e4 e5
  unfold rx1
  simp only [e1, e2, e3, e4, reduceCtorEq, if_false, if_true]
  rw [if_pos (Ne.symm hp')]
  simp [override, e5]

end Verif.Latch
