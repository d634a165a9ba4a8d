import Verif.Resizer.Loop

/-!
# Histories of a resizer
-/

namespace Verif.Resizer

open Verif.Rtp (PCMU PCMA GSM G723 G722 G729 hasPad byte be16 be32 hdrLen hasExt baseLen version
  byte_lt padLen)

/-! ### freshly received packets -/

theorem byte_take {b : List UInt8} {n k : Nat} (h : k < n) : byte (b.take n) k = byte b k := by
  unfold byte
  rw [List.getD_eq_getElem?_getD, List.getD_eq_getElem?_getD, List.getElem?_take, if_pos h]

theorem mk_qok {d junk : List UInt8} {i : Rtp.Info} {n : Nat} (hp : Rtp.parse d = .ok (.ok i))
    (hn : i.nsamples = some n) (hl : d.length + junk.length = cap) : QOK (mkPkt d junk i n) := by
  rcases Rtp.parse_spec d with ⟨-, e, h2⟩ | ⟨h0, h1, j, h2, h3⟩
  · rw [h2] at hp; simp at hp
  rw [h2] at hp
  simp only [Except.ok.injEq] at hp
  subst hp
  obtain ⟨a1, a2, a3, a4, a5, a6, a7, a8, a9⟩ := h3
  obtain ⟨w1, w2, w3, w4, w5⟩ := h1
  have hbl : 12 ≤ baseLen d := by unfold baseLen; omega
  have hhl : baseLen d ≤ hdrLen d ∧ (hasExt d → baseLen d + 4 ≤ hdrLen d) := by
    unfold hdrLen
    split
    · next h => exact ⟨by omega, fun _ => by omega⟩
    · next h => exact ⟨by omega, fun hh => absurd hh h⟩
  have hdl : (d.take j.dataOffset).length = j.dataOffset := by rw [List.length_take, a1]; omega
  have hpl : ((d.drop j.dataOffset ++ junk).take j.dataSize) = (d.drop j.dataOffset).take j.dataSize := by
    rw [List.take_append_of_le_length]
    rw [List.length_drop, a1, a2]; omega
  have hpll : ((d.drop j.dataOffset).take j.dataSize).length = j.dataSize := by
    rw [List.length_take, List.length_drop, a1, a2]; omega
  have hz : j.dataSize ≠ 0 := fun h => by rw [a7 h] at hn; cases hn
  have hfr : Fr j.pt ((d.drop j.dataOffset).take j.dataSize) n := by
    have h8 := a8 hz
    rw [hn] at h8
    unfold Rtp.calcSamples at h8
    unfold Fr
    rw [hpll]
    split at h8
    · next h => simp only [Except.ok.injEq, Option.some.injEq] at h8; exact .inl ⟨h, h8.symm⟩
    split at h8
    · next h =>
      simp only [Except.ok.injEq, Option.some.injEq] at h8
      refine .inr (.inl ⟨h, ?_⟩)
      unfold framesUp
      split at h8 <;> simp_all <;> omega
    split at h8
    · next h => simp only [Except.ok.injEq, Option.some.injEq] at h8; exact .inr (.inr (.inl ⟨h, h8.symm⟩))
    split at h8
    · next h =>
      obtain ⟨k, k1, k2⟩ := g723_frames (by rw [a1, a2]; omega) _ _ _ _ (Nat.le_refl _) h8
      refine .inr (.inr (.inr (.inl ⟨h, k, ?_, by omega⟩)))
      simpa using k2
    split at h8
    · next h =>
      simp only [Except.ok.injEq, Option.some.injEq] at h8
      exact .inr (.inr (.inr (.inr ⟨h, by omega⟩)))
    · simp at h8
  have hb32 : ∀ k, be32 d k < 4294967296 := by
    intro k
    unfold be32
    have := byte_lt d k; have := byte_lt d (k + 1); have := byte_lt d (k + 2); have := byte_lt d (k + 3)
    omega
  refine ⟨⟨?_, ?_, ?_, ?_, ?_, ?_, ?_⟩, ⟨?_, ?_, ?_, ?_, ?_, ?_, ?_⟩⟩
  · simp only [mkPkt, hdl, List.length_append, List.length_drop]; rw [a1]; omega
  · simp only [mkPkt, hdl]; omega
  · simp only [mkPkt, hdl]; omega
  · simp only [mkPkt]; omega
  · simp only [mkPkt, Pkt.payload]; rw [hpl]; exact hfr
  · simp only [mkPkt]; rw [a3]; exact hb32 4
  · simp only [mkPkt]
    intro h1 h2
    apply Classical.byContradiction
    intro h
    rw [a9.mpr ⟨h1, h⟩] at h2
    cases h2
  · simp only [mkPkt]; unfold version; rw [byte_take (by omega)]; exact w2
  · simp only [mkPkt, hdl]
    have e : hasExt (d.take j.dataOffset) ↔ hasExt d := by
      unfold hasExt; rw [byte_take (by omega)]
    have eb : baseLen (d.take j.dataOffset) = baseLen d := by
      unfold baseLen; rw [byte_take (by omega)]
    unfold hdrLen
    rw [a1]
    rw [a1] at e eb
    by_cases hx : hasExt d
    · rw [if_pos (e.mpr hx), eb]
      have := hhl.2 hx
      have e2 : be16 (d.take (hdrLen d)) (baseLen d + 2) = be16 d (baseLen d + 2) := by
        unfold be16; rw [byte_take (by omega), byte_take (by omega)]
      rw [e2]
      unfold hdrLen
      rw [if_pos hx]
    · rw [if_neg (fun h => hx (e.mp h)), eb]
      unfold hdrLen
      rw [if_neg hx]
  · simp only [mkPkt]; rw [byte_take (by omega)]; exact a6.symm
  · simp only [mkPkt]; unfold be32
    rw [byte_take (by omega), byte_take (by omega), byte_take (by omega), byte_take (by omega)]
    exact a3.symm
  · simp only [mkPkt]; unfold be16
    rw [byte_take (by omega), byte_take (by omega)]
    exact a4.symm
  · simp only [mkPkt]; unfold be32
    rw [byte_take (by omega), byte_take (by omega), byte_take (by omega), byte_take (by omega)]
    exact a5.symm
  · simp only [mkPkt, hdl]
    intro hnp
    have : ¬ hasPad d := by
      unfold hasPad at hnp ⊢
      rwa [byte_take (by omega)] at hnp
    have e : padLen d = 0 := by unfold padLen; rw [if_neg this]
    omega

/-! ### states -/

structure SOK (s : St) : Prop where
  q : ∀ p ∈ s.q, QOK p
  total : s.total = sumNs s.q
  seq : ∀ k, s.seq = some k → k < 65536

theorem new_ok (n : Nat) : SOK (new n) := by
  refine ⟨?_, ?_, ?_⟩
  · intro p hp; exact absurd hp (List.not_mem_nil)
  · rfl
  · intro k hk; exact absurd hk (by simp [new, setPtime])

theorem insertQ_split (p : Pkt) (q : List Pkt) : ∃ a b, q = a ++ b ∧ insertQ p q = a ++ p :: b ∧
    (∀ x ∈ b, tsl p.ts x.ts = true) ∧ (∀ x, a.getLast? = some x → tsl p.ts x.ts = false) := by
  refine ⟨(q.reverse.dropWhile (fun x => tsl p.ts x.ts)).reverse,
    (q.reverse.takeWhile (fun x => tsl p.ts x.ts)).reverse, ?_, ?_, ?_, ?_⟩
  · rw [← List.reverse_append, List.takeWhile_append_dropWhile, List.reverse_reverse]
  · unfold insertQ; rfl
  · intro x hx
    rw [List.mem_reverse] at hx
    exact List.all_eq_true.mp List.all_takeWhile x hx
  · intro x hx
    rw [List.getLast?_reverse] at hx
    have := List.head?_dropWhile_not (fun x => tsl p.ts x.ts) q.reverse
    rw [hx] at this
    simpa using this

/-- What `enqueue` does, seen from outside. -/
theorem enqueue_spec {s : St} (h : SOK s) {d j : List UInt8} {now : Nat} (hl : d.length + j.length = cap) :
    ∃ s' o, enqueue s d j now = .ok (s', o) ∧ SOK s' ∧ s'.seq = s.seq ∧
      ((o = .pass ∧ s' = s) ∨
       ∃ i n, Rtp.parse d = .ok (.ok i) ∧ i.nsamples = some n ∧ s'.ssrc = some i.ssrc ∧
         (s.ssrc = none ∨ s.ssrc = some i.ssrc → s'.lastSent = s.lastSent) ∧
         ((o = .late ∧ s'.q = s.q ∧ ∃ t, s'.lastSent = some t ∧ tsl i.ts t = true) ∨
          (o = .taken (mkPkt d j i n) ∧ s'.q = insertQ (mkPkt d j i n) s.q ∧
            ∀ t, s'.lastSent = some t → tsl i.ts t = false))) := by
  unfold enqueue
  rcases Rtp.parse_spec d with ⟨-, e, h2⟩ | ⟨-, -, i, h2, -⟩
  · rw [h2]; exact ⟨s, .pass, rfl, h, rfl, .inl ⟨rfl, rfl⟩⟩
  rw [h2]
  simp only
  cases hn : i.nsamples with
  | none => exact ⟨s, .pass, rfl, h, rfl, .inl ⟨rfl, rfl⟩⟩
  | some n =>
    simp only
    have hQ := mk_qok h2 hn hl
    generalize hp : mkPkt d j i n = p at hQ
    have hps : p.ssrc = i.ssrc := by rw [← hp]; rfl
    have hpt : p.ts = i.ts := by rw [← hp]; rfl
    have hs1 : ∃ s1 : St, switchSsrc s p.ssrc = s1 ∧
        s1.q = s.q ∧ s1.total = s.total ∧ s1.seq = s.seq ∧ s1.ssrc = some p.ssrc ∧
        (s.ssrc = none ∨ s.ssrc = some p.ssrc → s1.lastSent = s.lastSent) := by
      refine ⟨_, rfl, ?_⟩
      unfold switchSsrc
      by_cases h3 : s.ssrc = some p.ssrc
      · rw [if_pos h3]; exact ⟨rfl, rfl, rfl, h3, fun _ => rfl⟩
      · rw [if_neg h3]
        cases h4 : s.ssrc with
        | none => exact ⟨rfl, rfl, rfl, rfl, fun _ => rfl⟩
        | some v =>
          refine ⟨rfl, rfl, rfl, rfl, fun hc => ?_⟩
          rcases hc with hc | hc
          · cases hc
          · rw [h4] at h3; exact absurd hc h3
    obtain ⟨s1, e1, e2, e3, e4, e5, e6⟩ := hs1
    rw [e1]
    have hlate : ∃ b : Bool, isLate s1 p.ts = b ∧
        (b = true → ∃ t, s1.lastSent = some t ∧ tsl p.ts t = true) ∧
        (b = false → ∀ t, s1.lastSent = some t → tsl p.ts t = false) := by
      refine ⟨_, rfl, ?_, ?_⟩
      · unfold isLate
        cases s1.lastSent with
        | none => simp
        | some t => intro hh; exact ⟨t, rfl, hh⟩
      · unfold isLate
        cases s1.lastSent with
        | none => simp
        | some t => intro hh t' ht'; cases ht'; exact hh
    obtain ⟨b, l1, l2, l3⟩ := hlate
    simp only [l1]
    have hok1 : SOK s1 := ⟨by rw [e2]; exact h.q, by rw [e2, e3]; exact h.total, by rw [e4]; exact h.seq⟩
    cases b with
    | true =>
      rw [if_pos rfl]
      refine ⟨s1, .late, rfl, hok1, e4, .inr ⟨i, n, rfl, hn, by rw [e5, hps], by rw [← hps]; exact e6, .inl ⟨rfl, e2, ?_⟩⟩⟩
      rw [← hpt]; exact l2 rfl
    | false =>
      rw [if_neg (by simp)]
      refine ⟨_, _, rfl, ⟨?_, ?_, ?_⟩, e4, .inr ⟨i, n, rfl, hn, by simp only; rw [e5, hps],
        by simp only; rw [← hps]; exact e6, .inr ⟨by rw [hp], by simp only; rw [e2, hp], ?_⟩⟩⟩
      · simp only
        obtain ⟨a, c, q1, q2, -, -⟩ := insertQ_split p s1.q
        rw [q2]
        intro x hx
        simp only [List.mem_append, List.mem_cons] at hx
        rw [e2] at q1
        rcases hx with hx | hx | hx
        · exact h.q x (by rw [q1]; simp [hx])
        · rw [hx]; exact hQ
        · exact h.q x (by rw [q1]; simp [hx])
      · simp only
        obtain ⟨a, c, q1, q2, -, -⟩ := insertQ_split p s1.q
        have := hok1.total
        rw [q2, this, q1]
        simp only [sumNs, List.map_append, List.map_cons, List.sum_append, List.sum_cons]
        omega
      · simp only; rw [e4]; exact h.seq
      · simp only; rw [← hpt]; exact l3 rfl

/-- What `get` does, seen from outside. -/
theorem get_spec {s : St} (h : SOK s) (dt : Nat) (a : Bool) :
    ∃ s' o, get s dt a = .ok (s', o) ∧ SOK s' ∧ s'.ssrc = s.ssrc ∧
      ((o = none ∧ s' = s) ∨
       ∃ p q r b st k, s.q = p :: q ∧ o = some (setSeq r k) ∧ ROK r ∧ k < 65536 ∧
         k = s.seq.getD p.seq ∧ s'.seq = some ((k + 1) % 65536) ∧
         s'.lastSent = some (u32 (r.ts + r.ns)) ∧
         Eat p.ts (p :: q) (u32 (r.ts + r.ns)) s'.q b st ∧ r.payload = b ∧
         ((∀ x ∈ p :: q, Timed x) → stamps r = st) ∧ r.ts = p.ts ∧ r.pt = p.pt ∧
         r.hdr = p.hdr ∧
         r.ns ≤ targetOf s.outN p.pt ∧ (r.ns < targetOf s.outN p.pt → Why r s'.q)) := by
  unfold get
  cases hq : s.q with
  | nil => exact ⟨s, none, rfl, h, rfl, .inl ⟨rfl, rfl⟩⟩
  | cons p q =>
    simp only
    split
    · exact ⟨s, none, rfl, h, rfl, .inl ⟨rfl, rfl⟩⟩
    have hQ : ∀ x ∈ p :: q, QOK x := by rw [← hq]; exact h.q
    have hP := hQ p (by simp)
    have hseq : p.seq < 65536 := by
      rw [← hP.2.seq]
      unfold be16
      have := byte_lt p.hdr 2; have := byte_lt p.hdr (2 + 1)
      omega
    rcases collect_spec (allocOk := a) (q := q) hP (fun x hx => hQ x (by simp [hx]))
      (gran_target s.outN p.pt hP.1.fr.known).1 with ⟨-, hc⟩ | ⟨r, q', b, st, g1, g2, g3, g4, g5, g6, g7, g8, g9, g10, g11, g12, g13, g14⟩
    · rw [hc]; exact ⟨s, none, rfl, h, rfl, .inl ⟨rfl, rfl⟩⟩
    · rw [g1]
      have hk : s.seq.getD p.seq < 65536 := by
        cases hs : s.seq with
        | none => exact hseq
        | some k => exact h.seq k hs
      refine ⟨_, _, rfl, ⟨g14, ?_, ?_⟩, rfl, .inr ⟨p, q, r, b, st, s.seq.getD r.seq, rfl, rfl, g11, by rw [g8]; exact hk,
        by rw [g8], rfl, rfl, g2, g3, g4, g5, g6, g9, g12, g13⟩⟩
      · simp only
        have := h.total
        rw [hq, ← g10] at this
        rw [this]
        omega
      · intro k hk'
        simp only [Option.some.injEq] at hk'
        omega

theorem Eat.bytes {e q e' q' b st} (h : Eat e q e' q' b st) : b ++ bytesOf q' = bytesOf q := by
  induction h with
  | stop => rfl
  | whole hp r ih => simp only [bytesOf, List.flatMap_cons, List.append_assoc] at *; rw [ih]
  | part hp hm hd hx hn hs ht => simp only [bytesOf, List.flatMap_cons]; rw [hd, List.append_assoc]

theorem Eat.stamps {e q e' q' b st} (h : Eat e q e' q' b st) (hT : ∀ x ∈ q, Timed x) :
    (∀ x ∈ q', Timed x) ∧ st ++ stampsOf q' = stampsOf q := by
  induction h with
  | stop => exact ⟨hT, rfl⟩
  | whole hp r ih =>
    obtain ⟨i1, i2⟩ := ih (fun x hx => hT x (by simp [hx]))
    refine ⟨i1, ?_⟩
    simp only [stampsOf, List.flatMap_cons, List.append_assoc] at *
    rw [i2]
  | part hp hm hd hx hn hs ht =>
    refine ⟨?_, ?_⟩
    · intro x hx
      rcases List.mem_cons.mp hx with rfl | hx
      · exact ht (hT _ (by simp))
      · exact hT x (by simp [hx])
    · simp only [stampsOf, List.flatMap_cons]
      rw [hs (hT _ (by simp)), List.append_assoc]

end Verif.Resizer
