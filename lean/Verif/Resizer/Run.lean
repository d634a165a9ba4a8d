import Verif.Resizer.Order

/-!
# Whole histories of a resizer (C10): lemmas
-/

namespace Verif.Resizer

open Verif.Rtp (PCMU PCMA GSM G723 G722 G729 byte be16 be32 byte_poke length_poke version hdrLen
  hasPad hasExt baseLen padLen WellFormed LooksRtcp)

theorem run_cons {s s1 : St} {o : Op} {os : List Op} {ev : Ev} (h : step s o = .ok (s1, ev))
    {s' evs'} : run s (o :: os) = .ok (s', evs') ↔
      ∃ evs, run s1 os = .ok (s', evs) ∧ evs' = ev :: evs := by
  simp only [run, h]
  cases run s1 os with
  | error e => simp
  | ok r =>
    obtain ⟨a, b⟩ := r
    simp only [Except.ok.injEq, Prod.mk.injEq]
    constructor
    · rintro ⟨rfl, rfl⟩; exact ⟨b, ⟨rfl, rfl⟩, rfl⟩
    · rintro ⟨evs, ⟨rfl, rfl⟩, rfl⟩; exact ⟨rfl, rfl⟩

/-- One call: what it does with the audio. -/
theorem step_spec {s : St} (h : SOK s) (o : Op) (ho : o.ok) :
    ∃ s' ev, step s o = .ok (s', ev) ∧ SOK s' ∧
      (bytesOf (emitted [ev]) ++ bytesOf s'.q).Perm (bytesOf s.q ++ bytesOf (accepted [ev])) ∧
      ((∀ x ∈ s.q ++ accepted [ev], Timed x) →
        (∀ x ∈ s'.q, Timed x) ∧
        (stampsOf (emitted [ev]) ++ stampsOf s'.q).Perm
          (stampsOf s.q ++ stampsOf (accepted [ev]))) := by
  cases o with
  | ptime n =>
    exact ⟨_, _, rfl, ⟨h.q, h.total, h.seq⟩, by simp [bytesOf, emitted, accepted, setPtime],
      fun hT => ⟨fun x hx => hT x (List.mem_append_left _ hx),
        by simp [stampsOf, emitted, accepted, setPtime]⟩⟩
  | get dt al =>
    obtain ⟨s1, o1, g1, g2, g3, g4⟩ := get_spec h dt al
    rcases g4 with ⟨rfl, rfl⟩ | ⟨p, q, r, b, st, k, c1, c2, c3, c4, c5, c6, c7, c8, c9, c10, -⟩
    · exact ⟨s1, .none, by simp only [step, g1], g2, by simp [bytesOf, emitted, accepted],
        fun hT => ⟨fun x hx => hT x (List.mem_append_left _ hx),
          by simp [stampsOf, emitted, accepted]⟩⟩
    · subst c2
      refine ⟨s1, .emitted (setSeq r k), by simp only [step, g1], g2, ?_, ?_⟩
      · have e1 : (setSeq r k).payload = b := c9
        have := c8.bytes
        rw [c1]
        simp only [bytesOf, emitted, accepted, List.flatMap_cons, List.flatMap_nil,
          List.append_nil, e1] at this ⊢
        rw [this]
      · intro hT
        have hTq : ∀ x ∈ p :: q, Timed x := by
          intro x hx; exact hT x (by rw [c1]; exact List.mem_append_left _ hx)
        obtain ⟨t1, t2⟩ := c8.stamps hTq
        refine ⟨t1, ?_⟩
        have e2 : stamps (setSeq r k) = st := c10 hTq
        rw [c1]
        simp only [stampsOf, emitted, accepted, List.flatMap_cons, List.flatMap_nil,
          List.append_nil, e2] at t2 ⊢
        rw [t2]
  | enq dg j now =>
    obtain ⟨s1, o1, g1, g2, g3, g4⟩ := enqueue_spec h (now := now) ho
    rcases g4 with ⟨rfl, rfl⟩ | ⟨i, n, c1, c2, c3, c4, c5⟩
    · exact ⟨s1, .none, by simp only [step, g1], g2, by simp [bytesOf, emitted, accepted],
        fun hT => ⟨fun x hx => hT x (List.mem_append_left _ hx),
          by simp [stampsOf, emitted, accepted]⟩⟩
    · rcases c5 with ⟨rfl, c6, -⟩ | ⟨rfl, c6, c7⟩
      · exact ⟨s1, .none, by simp only [step, g1], g2, by simp [bytesOf, emitted, accepted, c6],
          fun hT => ⟨fun x hx => hT x (List.mem_append_left _ (by rw [← c6]; exact hx)),
            by simp [stampsOf, emitted, accepted, c6]⟩⟩
      · obtain ⟨a, b, q1, q2, -, -⟩ := insertQ_split (mkPkt dg j i n) s.q
        rw [q2] at c6
        have hperm : s1.q.Perm (s.q ++ [mkPkt dg j i n]) := by
          rw [c6, q1]
          refine List.perm_middle.trans ?_
          exact (List.perm_append_comm (l₁ := [mkPkt dg j i n]) (l₂ := a ++ b))
        refine ⟨s1, .accepted (mkPkt dg j i n), by simp only [step, g1], g2, ?_, ?_⟩
        · simp only [emitted, accepted]
          have := hperm.flatMap_right Pkt.payload
          simpa [bytesOf] using this
        · intro hT
          simp only [accepted] at hT
          refine ⟨fun x hx => hT x (hperm.mem_iff.mp hx), ?_⟩
          simp only [emitted, accepted]
          have := hperm.flatMap_right stamps
          simpa [stampsOf] using this

theorem accepted_cons (e : Ev) (l : List Ev) : accepted (e :: l) = accepted [e] ++ accepted l := by
  cases e <;> simp [accepted]
theorem emitted_cons (e : Ev) (l : List Ev) : emitted (e :: l) = emitted [e] ++ emitted l := by
  cases e <;> simp [emitted]
theorem bytesOf_append (a b : List Pkt) : bytesOf (a ++ b) = bytesOf a ++ bytesOf b := by
  simp [bytesOf]
theorem stampsOf_append (a b : List Pkt) : stampsOf (a ++ b) = stampsOf a ++ stampsOf b := by
  simp [stampsOf]

theorem run_spec : ∀ (ops : List Op) (s : St), SOK s → (∀ o ∈ ops, o.ok) →
    ∃ s' evs, run s ops = .ok (s', evs) ∧ SOK s' ∧
      (bytesOf (emitted evs) ++ bytesOf s'.q).Perm (bytesOf s.q ++ bytesOf (accepted evs)) ∧
      ((∀ x ∈ s.q ++ accepted evs, Timed x) →
        (stampsOf (emitted evs) ++ stampsOf s'.q).Perm
          (stampsOf s.q ++ stampsOf (accepted evs)))
  | [], s, h, _ => ⟨s, [], rfl, h, by simp [bytesOf, emitted, accepted],
      fun _ => by simp [stampsOf, emitted, accepted]⟩
  | o :: os, s, h, hok => by
    obtain ⟨s1, ev, a1, a2, a3, a4⟩ := step_spec h o (hok o (by simp))
    obtain ⟨s2, evs, b1, b2, b3, b4⟩ := run_spec os s1 a2 (fun x hx => hok x (by simp [hx]))
    refine ⟨s2, ev :: evs, (run_cons a1).mpr ⟨evs, b1, rfl⟩, b2, ?_, ?_⟩
    · rw [accepted_cons, emitted_cons, bytesOf_append, bytesOf_append, List.append_assoc,
        ← List.append_assoc (bytesOf s.q)]
      exact (b3.append_left _).trans (by
        rw [← List.append_assoc]; exact a3.append_right _)
    · intro hT
      rw [accepted_cons] at hT
      obtain ⟨t1, t2⟩ := a4 (fun x hx => hT x (by
        simp only [List.mem_append] at hx ⊢
        rcases hx with hx | hx
        · exact .inl hx
        · exact .inr (.inl hx)))
      have t3 := b4 (fun x hx => by
        rcases List.mem_append.mp hx with hx | hx
        · exact t1 x hx
        · exact hT x (by simp [hx]))
      rw [accepted_cons, emitted_cons, stampsOf_append, stampsOf_append, List.append_assoc,
        ← List.append_assoc (stampsOf s.q)]
      exact (t3.append_left _).trans (by
        rw [← List.append_assoc]; exact t2.append_right _)

theorem run_sok {ops : List Op} {s s' : St} {evs} (h : SOK s) (hok : ∀ o ∈ ops, o.ok)
    (hr : run s ops = .ok (s', evs)) : SOK s' := by
  obtain ⟨a, b, h1, h2, -⟩ := run_spec ops s h hok
  rw [h1] at hr
  simp only [Except.ok.injEq, Prod.mk.injEq] at hr
  rw [← hr.1]; exact h2

/-- Sequence numbers: one after the other. -/
def Consecutive (k : Nat) : List Pkt → Prop
  | [] => True
  | p :: l => p.seq = k ∧ Consecutive ((k + 1) % 65536) l

theorem consecutive_get {k : Nat} : ∀ {l : List Pkt}, k < 65536 → Consecutive k l →
    ∀ (i : Nat) (h : i < l.length), l[i].seq = (k + i) % 65536
  | [], _, _, i, h => absurd h (by simp)
  | p :: l, hk, hc, 0, h => by simp [hc.1]; omega
  | p :: l, hk, hc, i + 1, h => by
    have := consecutive_get (k := (k + 1) % 65536) (Nat.mod_lt _ (by omega)) hc.2 i (by simpa using h)
    rw [List.getElem_cons_succ, this]
    omega

theorem run_seq : ∀ (ops : List Op) (s : St), SOK s → (∀ o ∈ ops, o.ok) →
    ∀ s' evs, run s ops = .ok (s', evs) →
    (∀ k, s.seq = some k → Consecutive k (emitted evs)) ∧
    (s.seq = none → ∃ k, k < 65536 ∧ Consecutive k (emitted evs))
  | [], s, _, _, s', evs, hr => by
    simp only [run, Except.ok.injEq, Prod.mk.injEq] at hr
    obtain ⟨-, rfl⟩ := hr
    exact ⟨fun _ _ => trivial, fun _ => ⟨0, by omega, trivial⟩⟩
  | o :: os, s, h, hok, s', evs', hr => by
    obtain ⟨s1, ev, a1, a2, -, -⟩ := step_spec h o (hok o (by simp))
    obtain ⟨evs, hr', rfl⟩ := (run_cons a1).mp hr
    have IH := run_seq os s1 a2 (fun x hx => hok x (by simp [hx])) s' evs hr'
    have same : s1.seq = s.seq → emitted [ev] = [] →
        (∀ k, s.seq = some k → Consecutive k (emitted (ev :: evs))) ∧
        (s.seq = none → ∃ k, k < 65536 ∧ Consecutive k (emitted (ev :: evs))) := by
      intro h1 h2
      rw [emitted_cons, h2, List.nil_append, ← h1]
      exact IH
    cases o with
    | ptime n =>
      simp only [step, Except.ok.injEq, Prod.mk.injEq] at a1
      obtain ⟨rfl, rfl⟩ := a1
      exact same rfl rfl
    | enq dg j now =>
      obtain ⟨s2, o1, g1, g2, g3, g4⟩ := enqueue_spec h (now := now) (hok (.enq dg j now) (by simp))
      simp only [step, g1] at a1
      cases o1 <;> simp only [Except.ok.injEq, Prod.mk.injEq] at a1 <;>
        obtain ⟨rfl, rfl⟩ := a1 <;> exact same g3 rfl
    | get dt al =>
      obtain ⟨s2, o1, g1, g2, g3, g4⟩ := get_spec h dt al
      simp only [step, g1] at a1
      rcases g4 with ⟨rfl, rfl⟩ | ⟨p, q, r, b, st, k, c1, rfl, c3, c4, c5, c6, -⟩
      · simp only [Except.ok.injEq, Prod.mk.injEq] at a1
        obtain ⟨rfl, rfl⟩ := a1
        exact same rfl rfl
      · simp only [Except.ok.injEq, Prod.mk.injEq] at a1
        obtain ⟨rfl, rfl⟩ := a1
        have hc : Consecutive k (emitted (.emitted (setSeq r k) :: evs)) := ⟨rfl, IH.1 _ c6⟩
        refine ⟨fun k' hk' => ?_, fun _ => ⟨k, c4, hc⟩⟩
        rw [hk'] at c5
        simp only [Option.getD_some] at c5
        rw [← c5]; exact hc

/-- End of the last packet of a list. -/
def endOf (o : Option Nat) (l : List Pkt) : Option Nat :=
  match l.getLast? with
  | none => o
  | some r => some (u32 (r.ts + r.ns))

theorem run_last {base ssrc : Nat} : ∀ (ops : List Op) (s : St), SOK s →
    (s.ssrc = none ∨ s.ssrc = some ssrc) → (∀ o ∈ ops, o.ok) → OneStream base ssrc ops →
    ∀ s' evs, run s ops = .ok (s', evs) →
    s'.lastSent = endOf s.lastSent (emitted evs) ∧ (s'.ssrc = none ∨ s'.ssrc = some ssrc)
  | [], s, _, hss, _, _, s', evs, hr => by
    simp only [run, Except.ok.injEq, Prod.mk.injEq] at hr
    obtain ⟨rfl, rfl⟩ := hr
    exact ⟨rfl, hss⟩
  | o :: os, s, h, hss, hok, h1s, s', evs', hr => by
    obtain ⟨s1, ev, a1, a2, -, -⟩ := step_spec h o (hok o (by simp))
    obtain ⟨evs, hr', rfl⟩ := (run_cons a1).mp hr
    have h1s' : OneStream base ssrc os := fun d j now hm => h1s d j now (by simp [hm])
    have IH := fun hx => run_last (base := base) os s1 a2 hx (fun x hx => hok x (by simp [hx])) h1s' s' evs hr'
    have same : (s1.ssrc = none ∨ s1.ssrc = some ssrc) → s1.lastSent = s.lastSent → emitted [ev] = [] →
        s'.lastSent = endOf s.lastSent (emitted (ev :: evs)) ∧ (s'.ssrc = none ∨ s'.ssrc = some ssrc) := by
      intro h0 h1 h2
      rw [emitted_cons, h2, List.nil_append, ← h1]
      exact IH h0
    cases o with
    | ptime n =>
      simp only [step, Except.ok.injEq, Prod.mk.injEq] at a1
      obtain ⟨rfl, rfl⟩ := a1
      exact same hss rfl rfl
    | enq dg j now =>
      obtain ⟨s2, o1, g1, g2, g3, g4⟩ := enqueue_spec h (now := now) (hok (.enq dg j now) (by simp))
      simp only [step, g1] at a1
      rcases g4 with ⟨rfl, rfl⟩ | ⟨i, n, c1, c2, c3, c4, c5⟩
      · simp only [Except.ok.injEq, Prod.mk.injEq] at a1
        obtain ⟨rfl, rfl⟩ := a1
        exact same hss rfl rfl
      · obtain ⟨e1, -⟩ := h1s dg j now (by simp) i c1 n c2
        rw [e1] at c3 c4
        cases o1 <;> simp only [Except.ok.injEq, Prod.mk.injEq] at a1 <;>
          obtain ⟨rfl, rfl⟩ := a1 <;> exact same (.inr c3) (c4 hss) rfl
    | get dt al =>
      obtain ⟨s2, o1, g1, g2, g3, g4⟩ := get_spec h dt al
      simp only [step, g1] at a1
      rcases g4 with ⟨rfl, rfl⟩ | ⟨p, q, r, b, st, k, c1, rfl, c3, c4, c5, c6, c7, -⟩
      · simp only [Except.ok.injEq, Prod.mk.injEq] at a1
        obtain ⟨rfl, rfl⟩ := a1
        exact same hss rfl rfl
      · simp only [Except.ok.injEq, Prod.mk.injEq] at a1
        obtain ⟨rfl, rfl⟩ := a1
        obtain ⟨i1, i2⟩ := IH (by rw [g3]; exact hss)
        refine ⟨?_, i2⟩
        rw [i1, c7]
        simp only [emitted]
        unfold endOf
        cases he : emitted evs with
        | nil => simp [setSeq]
        | cons x l =>
          rw [List.getLast?_cons_cons]
          cases hg : (x :: l).getLast? with
          | none => simp at hg
          | some y => rfl

/-- An emitted packet without padding, when parsed again. -/
theorem wire_parse {r : Pkt} (h : ROK r) (hp : ¬ hasPad r.hdr) :
    ∃ i, Rtp.parse r.wire = .ok (.ok i) ∧ i.seq = r.seq ∧ i.ts = r.ts ∧ i.ssrc = r.ssrc ∧
      i.pt = r.pt ∧ (r.wire.drop i.dataOffset).take i.dataSize = r.payload := by
  have hsz := h.hok.nopad hp
  have hle := h.szc
  have hlen := h.len
  have hwl : r.wire.length = r.size := by
    unfold Pkt.wire
    rw [List.length_take, List.length_append]; omega
  have hw : r.wire = r.hdr ++ r.payload := by
    unfold Pkt.wire Pkt.payload
    rw [List.take_append, hsz, List.take_of_length_le (by omega)]
    congr 2; omega
  have hbyte : ∀ k, k < r.hdr.length → byte r.wire k = byte r.hdr k := by
    intro k hk
    unfold byte
    rw [hw, List.getD_eq_getElem?_getD, List.getD_eq_getElem?_getD, List.getElem?_append_left hk]
  have h12 := h.h12
  have hb0 := hbyte 0 (by omega)
  have hpad : ¬ hasPad r.wire := by unfold hasPad at *; rw [hb0]; exact hp
  have hver : version r.wire = 2 := by unfold version; rw [hb0]; exact h.hok.ver
  have hbl : baseLen r.wire = baseLen r.hdr := by unfold baseLen; rw [hb0]
  have hex : hasExt r.wire ↔ hasExt r.hdr := by unfold hasExt; rw [hb0]
  have hhl := h.hok.hl
  have hH : hdrLen r.wire = r.hdr.length := by
    rw [← hhl]
    unfold hdrLen at hhl ⊢
    by_cases he : hasExt r.hdr
    · rw [if_pos he] at hhl ⊢
      rw [if_pos (hex.mpr he), hbl]
      unfold be16
      rw [hbyte _ (by omega), hbyte _ (by omega)]
    · rw [if_neg he]
      rw [if_neg (fun hc => he (hex.mp hc)), hbl]
  have hpt : byte r.wire 1 % 128 = r.pt := by rw [hbyte 1 (by omega)]; exact h.hok.pt
  have hnr : ¬ LooksRtcp r.wire := by
    rintro ⟨-, -, h1, h2⟩
    rcases h.known with hk | hk | hk | hk | hk | hk <;> rw [hk] at hpt <;>
      simp only [PCMU, PCMA, GSM, G723, G722, G729] at hpt <;> omega
  have hpl : padLen r.wire = 0 := by unfold padLen; rw [if_neg hpad]
  have hwf : WellFormed r.wire := by
    refine ⟨by omega, hver, fun he => ?_, by omega, fun hc => absurd hc hpad⟩
    have he' := hex.mp he
    unfold hdrLen at hhl
    rw [if_pos he'] at hhl
    omega
  rcases Rtp.parse_spec r.wire with ⟨h1 | h1, -⟩ | ⟨-, -, i, h2, a1, a2, a3, a4, a5, a6, -⟩
  · exact absurd h1 hnr
  · exact absurd hwf h1
  refine ⟨i, h2, ?_, ?_, ?_, by rw [a6, hpt], ?_⟩
  · rw [a4, ← h.hok.seq]; unfold be16; rw [hbyte _ (by omega), hbyte _ (by omega)]
  · rw [a3, ← h.hok.ts]; unfold be32
    rw [hbyte _ (by omega), hbyte _ (by omega), hbyte _ (by omega), hbyte _ (by omega)]
  · rw [a5, ← h.hok.ssrc]; unfold be32
    rw [hbyte _ (by omega), hbyte _ (by omega), hbyte _ (by omega), hbyte _ (by omega)]
  · rw [a1, a2, hpl, hH, hwl, hw, List.drop_left]
    refine List.take_of_length_le ?_
    unfold Pkt.payload
    rw [List.length_take]; omega

end Verif.Resizer
