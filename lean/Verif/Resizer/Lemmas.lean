import Verif.Resizer.Spec

/-!
# Helper lemmas for the resizer: memory, chunks, the aggregation loop
-/

namespace Verif.Resizer

open Verif.Rtp (PCMU PCMA GSM G723 G722 G729 g723Len g723Samples rd byte be16 be32 poke byte_poke
  length_poke rd_ok hdrLen hasExt hasPad baseLen padLen version WellFormed LooksRtcp)

/-! ### memory -/

theorem rdn_ok {b : List UInt8} {o n : Nat} (h : o + n ≤ b.length) :
    rdn b o n = .ok ((b.drop o).take n) := by unfold rdn; rw [if_pos h]

theorem wr_ok {b c : List UInt8} {o : Nat} (h : o + c.length ≤ b.length) :
    wr b o c = .ok (b.take o ++ c ++ b.drop (o + c.length)) := by unfold wr; rw [if_pos h]

/-! ### G.723 frames -/

/-- A payload made of `k` G.723 frames (the last one possibly truncated). -/
inductive G723Fr : List UInt8 → Nat → Prop
  | nil : G723Fr [] 0
  | cons {ch : UInt8} {l : List UInt8} {n k : Nat} (h : g723Len ch.toNat = some n)
      (r : G723Fr ((ch :: l).drop n) k) : G723Fr (ch :: l) (k + 1)

theorem G723Fr.nil_zero {k : Nat} (h : G723Fr [] k) : k = 0 := by cases h; rfl

theorem g723Len_pos {ch n : Nat} (h : g723Len ch = some n) : 0 < n := by
  unfold g723Len at h
  split at h <;> cases h <;> omega

theorem drop_eq_cons {b : List UInt8} {i : Nat} (h : i < b.length) :
    b.drop i = b[i] :: b.drop (i + 1) := List.drop_eq_getElem_cons h

theorem rd_get {b : List UInt8} {i : Nat} (h : i < b.length) : rd b i = .ok (b[i].toNat) := by
  unfold rd; rw [List.getElem?_eq_getElem h]

theorem g723_frames {b : List UInt8} {off m : Nat} (hb : off + m ≤ b.length) :
    ∀ (f pos s r : Nat), m - pos ≤ f → g723Samples b off m pos s = .ok (some r) →
      ∃ k, r = s + 240 * k ∧ G723Fr ((b.drop (off + pos)).take (m - pos)) k
  | 0, pos, s, r, hf, h => by
    unfold g723Samples at h
    rw [dif_neg (by omega)] at h
    simp only [Except.ok.injEq, Option.some.injEq] at h
    refine ⟨0, by omega, ?_⟩
    rw [show m - pos = 0 by omega, List.take_zero]
    exact .nil
  | f + 1, pos, s, r, hf, h => by
    unfold g723Samples at h
    split at h
    · next hp =>
      rw [rd_get (by omega)] at h
      simp only at h
      split at h
      · simp at h
      · next n hn =>
        have hpos := g723Len_pos hn
        obtain ⟨k, hk, hfr⟩ := g723_frames hb f (pos + n) (s + 240) r (by omega) h
        refine ⟨k + 1, by omega, ?_⟩
        rw [drop_eq_cons (by omega), show m - pos = (m - pos - 1) + 1 by omega, List.take_succ_cons]
        refine .cons hn ?_
        rw [← List.take_succ_cons, ← drop_eq_cons (by omega), show m - pos - 1 + 1 = m - pos by omega,
          List.drop_take, List.drop_drop, show m - pos - n = m - (pos + n) by omega,
          Nat.add_assoc]
        exact hfr
    · next hp =>
      simp only [Except.ok.injEq, Option.some.injEq] at h
      refine ⟨0, by omega, ?_⟩
      rw [show m - pos = 0 by omega, List.take_zero]
      exact .nil

theorem g723_walk {b : List UInt8} {ds : Nat} (hb : ds ≤ b.length) :
    ∀ (m k pos found : Nat), m < k → G723Fr ((b.take ds).drop pos) k → pos ≤ ds →
      ∃ pos', g723Walk b ds (found + 240 * m) pos found = .ok (pos', found + 240 * m) ∧ pos' < ds ∧
        G723Fr ((b.take ds).drop pos') (k - m)
  | 0, k, pos, found, hk, hfr, hp => by
    unfold g723Walk
    rw [dif_neg (by omega)]
    refine ⟨pos, rfl, ?_, hfr⟩
    rcases Nat.lt_or_ge pos ds with h | h
    · exact h
    · rw [List.drop_eq_nil_of_le (by rw [List.length_take]; omega)] at hfr
      have := hfr.nil_zero
      omega
  | m + 1, k, pos, found, hk, hfr, hp => by
    have hlt : pos < ds := by
      rcases Nat.lt_or_ge pos ds with h | h
      · exact h
      · rw [List.drop_eq_nil_of_le (by rw [List.length_take]; omega)] at hfr
        have := hfr.nil_zero
        omega
    unfold g723Walk
    rw [dif_pos ⟨hlt, by omega⟩, rd_get (by omega)]
    have hc : (b.take ds).drop pos = b[pos] :: (b.take ds).drop (pos + 1) := by
      rw [drop_eq_cons (by rw [List.length_take]; omega), List.getElem_take]
    rw [hc] at hfr
    obtain ⟨n, hn, hr⟩ : ∃ n, g723Len b[pos].toNat = some n ∧
        G723Fr ((b.take ds).drop (pos + n)) (k - 1) := by
      cases hfr with
      | cons h r =>
        rename_i n k'
        refine ⟨n, h, ?_⟩
        rw [← hc, List.drop_drop] at r
        exact r
    have hk1 : (k - 1) - m = k - (m + 1) := by omega
    have hnp : pos + n ≤ ds := by
      rcases Nat.lt_or_ge ds (pos + n) with h | h
      · rw [List.drop_eq_nil_of_le (by rw [List.length_take]; omega)] at hr
        have := hr.nil_zero
        omega
      · exact h
    obtain ⟨pos', h1, h2, h3⟩ := g723_walk hb m (k - 1) (pos + n) (found + 240) (by omega) hr hnp
    refine ⟨pos', ?_, h2, by rw [← hk1]; exact h3⟩
    simp only
    split
    · next h0 => rw [hn] at h0; cases h0
    · next n' h0 =>
      rw [hn] at h0
      cases h0
      rw [show found + 240 * (m + 1) = found + 240 + 240 * m by omega]
      exact h1

/-! ### packets in the queue -/

/-- Number of samples and payload agree. -/
def Fr (pt : Nat) (pl : List UInt8) (n : Nat) : Prop :=
  (pt = PCMU ∨ pt = PCMA) ∧ n = pl.length ∨
  pt = G729 ∧ n = framesUp pl.length 10 * 80 ∨
  pt = GSM ∧ n = 160 * (pl.length / 33) ∨
  pt = G723 ∧ (∃ k, G723Fr pl k ∧ n = 240 * k) ∨
  pt = G722 ∧ n ≤ pl.length

/-- Sample granularity of chunks. -/
def gran (pt : Nat) : Nat := if pt = G729 then 80 else if pt = GSM then 160 else if pt = G723 then 240 else 1

theorem Fr.gran {pt : Nat} {pl : List UInt8} {n : Nat} (h : Fr pt pl n) : Resizer.gran pt ∣ n := by
  unfold Resizer.gran
  rcases h with ⟨h, rfl⟩ | ⟨h, rfl⟩ | ⟨h, rfl⟩ | ⟨h, k, _, rfl⟩ | ⟨h, _⟩
  · rcases h with h | h <;> subst h <;> simp [PCMU, PCMA, G729, GSM, G723]
  · subst h; simp only [if_true]; exact Nat.dvd_mul_left _ _
  · subst h; simp only [GSM, G729]; exact Nat.dvd_mul_right _ _
  · subst h; simp only [GSM, G729, G723]; exact Nat.dvd_mul_right _ _
  · subst h; simp [GSM, G729, G723, G722]

structure POK (p : Pkt) : Prop where
  len : p.hdr.length + p.body.length = cap
  h12 : 12 ≤ p.hdr.length
  sz : p.hdr.length + p.ds ≤ p.size
  szc : p.size ≤ cap
  fr : Fr p.pt p.payload p.ns
  tsb : p.ts < 4294967296
  ap : p.pt = G729 → p.app = true → p.ds % 10 = 0

theorem POK.dsb {p : Pkt} (h : POK p) : p.ds ≤ p.body.length := by
  have := h.len; have := h.sz; have := h.szc; omega

theorem POK.plen {p : Pkt} (h : POK p) : p.payload.length = p.ds := by
  unfold Pkt.payload; rw [List.length_take]; have := h.dsb; omega

theorem framesUp_mul (k m : Nat) (hk : 0 < k) : framesUp (m * k) k = m := by
  unfold framesUp
  rw [Nat.mul_div_cancel _ hk]
  simp

/-- `rtp_packet_first_chunk_find` finds exactly the requested number of samples. -/
theorem chunkFind_spec {p : Pkt} (h : POK p) {m : Nat} (hm : m < p.ns) (hd : gran p.pt ∣ m) :
    ∃ b, chunkFind p m = .ok (some ⟨b, m⟩) ∧ b ≤ p.ds ∧ Fr p.pt (p.payload.drop b) (p.ns - m) ∧
      (Timed p → b % bpf p.pt = 0 ∧ m = b / bpf p.pt * spf p.pt) := by
  have hl := h.plen
  have hb := h.dsb
  unfold chunkFind
  rw [if_neg (by omega)]
  rcases h.fr with ⟨hp, hn⟩ | ⟨hp, hn⟩ | ⟨hp, hn⟩ | ⟨hp, k, hk, hn⟩ | ⟨hp, hn⟩
  · rw [if_pos hp]
    refine ⟨m, rfl, by omega, .inl ⟨hp, ?_⟩, fun _ => ?_⟩
    · rw [List.length_drop]; omega
    · rcases hp with hp | hp <;> rw [hp] <;> simp [bpf, spf, PCMU, PCMA, G729, GSM, Nat.mod_one]
  · rw [hp] at hd ⊢
    obtain ⟨f, rfl⟩ : ∃ f, m = f * 80 := by
      obtain ⟨f, hf⟩ := hd; exact ⟨f, by rw [hf]; simp [gran, Nat.mul_comm]⟩
    rw [if_neg (by decide), if_pos rfl, framesUp_mul _ _ (by omega), if_neg (by omega)]
    unfold framesUp at hn
    rw [hl] at hn
    refine ⟨f * 10, rfl, ?_, .inr (.inl ⟨rfl, ?_⟩), fun _ => ?_⟩
    · split at hn <;> omega
    · unfold framesUp; rw [List.length_drop, hl]
      have : (p.ds - f * 10) % 10 = p.ds % 10 := by split at hn <;> omega
      rw [this]
      by_cases h0 : p.ds % 10 = 0
      · rw [if_pos h0] at hn ⊢; omega
      · rw [if_neg h0] at hn ⊢; omega
    · simp [bpf, spf]
  · rw [hp] at hd ⊢
    obtain ⟨f, rfl⟩ : ∃ f, m = f * 160 := by
      obtain ⟨f, hf⟩ := hd; exact ⟨f, by rw [hf]; simp [gran, GSM, G729, Nat.mul_comm]⟩
    rw [if_neg (by decide), if_neg (by decide), if_pos rfl, framesUp_mul _ _ (by omega),
      if_neg (by omega)]
    refine ⟨f * 33, rfl, by omega, .inr (.inr (.inl ⟨rfl, ?_⟩)), fun _ => ?_⟩
    · rw [List.length_drop, hl] at *
      omega
    · simp [bpf, spf, GSM, G729]
  · rw [hp] at hd ⊢
    obtain ⟨f, rfl⟩ : ∃ f, m = f * 240 := by
      obtain ⟨f, hf⟩ := hd; exact ⟨f, by rw [hf]; simp [gran, GSM, G729, G723, Nat.mul_comm]⟩
    rw [if_neg (by decide), if_neg (by decide), if_neg (by decide), if_pos rfl,
      framesUp_mul _ _ (by omega), if_neg (by omega)]
    obtain ⟨pos', h1, h2, h3⟩ := g723_walk (b := p.body) (ds := p.ds) hb f k 0 0 (by omega)
      (by simpa [Pkt.payload] using hk) (by omega)
    rw [Nat.zero_add, Nat.mul_comm] at h1
    rw [h1]
    simp only
    rw [if_pos h2]
    refine ⟨pos', rfl, by omega, .inr (.inr (.inr (.inl ⟨rfl, k - f, h3, ?_⟩))), fun ht => ?_⟩
    · omega
    · unfold Timed at ht
      rw [hp] at ht
      revert ht; simp [PCMU, PCMA, GSM, G729, G723]
  · rw [hp]
    rw [if_neg (by decide), if_neg (by decide), if_neg (by decide), if_neg (by decide), if_pos rfl]
    refine ⟨m / 2, rfl, by omega, .inr (.inr (.inr (.inr ⟨rfl, ?_⟩))), fun ht => ?_⟩
    · rw [List.length_drop]; omega
    · unfold Timed at ht
      rw [hp] at ht
      revert ht; simp [PCMU, PCMA, GSM, G729, G722]

/-! ### headers -/

/-- The header bytes agree with the parsed values, and an unpadded packet ends with its payload. -/
structure HOK (p : Pkt) : Prop where
  ver : version p.hdr = 2
  hl : hdrLen p.hdr = p.hdr.length
  pt : byte p.hdr 1 % 128 = p.pt
  ts : be32 p.hdr 4 = p.ts
  seq : be16 p.hdr 2 = p.seq
  ssrc : be32 p.hdr 8 = p.ssrc
  nopad : ¬ hasPad p.hdr → p.size = p.hdr.length + p.ds

theorem hdrLen_congr {b b' : List UInt8} (h0 : byte b' 0 = byte b 0)
    (h8 : ∀ k, 8 ≤ k → byte b' k = byte b k) :
    hdrLen b' = hdrLen b ∧ version b' = version b ∧ (hasPad b' ↔ hasPad b) ∧ be32 b' 8 = be32 b 8 := by
  have e : hasExt b' ↔ hasExt b := by unfold hasExt; rw [h0]
  have hbl : baseLen b' = baseLen b := by unfold baseLen; rw [h0]
  have he : be16 b' (baseLen b + 2) = be16 b (baseLen b + 2) := by
    unfold be16; rw [h8 _ (by unfold baseLen; omega), h8 _ (by unfold baseLen; omega)]
  refine ⟨?_, ?_, ?_, ?_⟩
  · unfold hdrLen; simp only [e, hbl, he]
  · unfold version; rw [h0]
  · unfold hasPad; rw [h0]
  · unfold be32; rw [h8 _ (by omega), h8 _ (by omega), h8 _ (by omega), h8 _ (by omega)]

theorem setTs_hok {p : Pkt} (h : HOK p) (h12 : 12 ≤ p.hdr.length) {t : Nat} (ht : t < 4294967296) :
    HOK (setTs p t) := by
  have hb : ∀ k, (k < 4 ∨ 8 ≤ k) → byte (setTs p t).hdr k = byte p.hdr k := by
    intro k hk
    simp only [setTs]
    rw [byte_poke _ _ _ _ (by simp only [length_poke]; omega), byte_poke _ _ _ _ (by simp only [length_poke]; omega),
      byte_poke _ _ _ _ (by simp only [length_poke]; omega), byte_poke _ _ _ _ (by omega)]
    rw [if_neg (by omega), if_neg (by omega), if_neg (by omega), if_neg (by omega)]
  obtain ⟨a1, a2, a3, a4⟩ := hdrLen_congr (hb 0 (by omega)) (fun k hk => hb k (by omega))
  have hlen : (setTs p t).hdr.length = p.hdr.length := by simp [setTs, length_poke]
  refine ⟨by rw [a2]; exact h.ver, by rw [a1, hlen]; exact h.hl, ?_, ?_, ?_, by rw [a4]; exact h.ssrc, ?_⟩
  · rw [hb 1 (by omega)]; exact h.pt
  · simp only [setTs, be32, byte_poke, length_poke, show (4:Nat) < p.hdr.length by omega,
        show (5:Nat) < p.hdr.length by omega, show (6:Nat) < p.hdr.length by omega,
        show (7:Nat) < p.hdr.length by omega]
    simp only [Nat.reduceAdd, Nat.reduceEqDiff, if_true, if_false]
    omega
  · unfold be16; rw [hb 2 (by omega), hb 3 (by omega)]; exact h.seq
  · rw [a3, hlen]; exact h.nopad

theorem setSeq_hok {p : Pkt} (h : HOK p) (h12 : 12 ≤ p.hdr.length) {t : Nat} (ht : t < 65536) :
    HOK (setSeq p t) := by
  have hb : ∀ k, k ≠ 2 → k ≠ 3 → byte (setSeq p t).hdr k = byte p.hdr k := by
    intro k h2 h3
    simp only [setSeq]
    rw [byte_poke _ _ _ _ (by simp only [length_poke]; omega), byte_poke _ _ _ _ (by omega)]
    rw [if_neg h3, if_neg h2]
  obtain ⟨a1, a2, a3, a4⟩ := hdrLen_congr (hb 0 (by omega) (by omega)) (fun k hk => hb k (by omega) (by omega))
  have hlen : (setSeq p t).hdr.length = p.hdr.length := by simp [setSeq, length_poke]
  refine ⟨by rw [a2]; exact h.ver, by rw [a1, hlen]; exact h.hl, ?_, ?_, ?_, by rw [a4]; exact h.ssrc, ?_⟩
  · rw [hb 1 (by omega) (by omega)]; exact h.pt
  · unfold be32
    rw [hb 4 (by omega) (by omega), hb 5 (by omega) (by omega), hb 6 (by omega) (by omega),
      hb 7 (by omega) (by omega)]
    exact h.ts
  · simp only [setSeq, be16, byte_poke, length_poke, show (2:Nat) < p.hdr.length by omega,
        show (3:Nat) < p.hdr.length by omega]
    simp only [Nat.reduceAdd, Nat.reduceEqDiff, if_true, if_false]
    omega
  · rw [a3, hlen]; exact h.nopad

theorem clearMbt_hok {p : Pkt} (h : HOK p) (h12 : 12 ≤ p.hdr.length) : HOK (clearMbt p) := by
  have hb : ∀ k, k ≠ 1 → byte (clearMbt p).hdr k = byte p.hdr k := by
    intro k h1
    simp only [clearMbt]
    rw [byte_poke _ _ _ _ (by omega), if_neg h1]
  obtain ⟨a1, a2, a3, a4⟩ := hdrLen_congr (hb 0 (by omega)) (fun k hk => hb k (by omega))
  have hlen : (clearMbt p).hdr.length = p.hdr.length := by simp [clearMbt, length_poke]
  refine ⟨by rw [a2]; exact h.ver, by rw [a1, hlen]; exact h.hl, ?_, ?_, ?_, by rw [a4]; exact h.ssrc, ?_⟩
  · have := h.pt
    simp only [clearMbt]
    rw [byte_poke _ _ _ _ (by omega), if_pos rfl]
    change byte p.hdr 1 % 128 % 256 % 128 = p.pt
    omega
  · unfold be32
    rw [hb 4 (by omega), hb 5 (by omega), hb 6 (by omega), hb 7 (by omega)]
    exact h.ts
  · unfold be16; rw [hb 2 (by omega), hb 3 (by omega)]; exact h.seq
  · rw [a3, hlen]; exact h.nopad

/-! ### copying -/

theorem appendPacket_spec {d s : Pkt} (hd : d.hdr.length + d.body.length = cap)
    (hds : d.hdr.length + d.ds ≤ d.size) (hs : s.ds ≤ s.body.length) (hc : d.size + s.ds ≤ cap) :
    ∃ r, appendPacket d s = .ok r ∧ r.payload = d.payload ++ s.payload ∧ r.ns = d.ns + s.ns ∧
      r.ds = d.ds + s.ds ∧ r.size = d.size + s.ds ∧ r.app = s.app ∧ r.hdr = d.hdr ∧ r.ts = d.ts ∧
      r.seq = d.seq ∧ r.ssrc = d.ssrc ∧ r.pt = d.pt ∧ r.body.length = d.body.length := by
  unfold appendPacket
  rw [rdn_ok (by omega)]
  simp only [List.drop_zero]
  have hl : (s.body.take s.ds).length = s.ds := by rw [List.length_take]; omega
  rw [wr_ok (by rw [hl]; omega)]
  refine ⟨_, rfl, ?_, rfl, rfl, rfl, rfl, rfl, rfl, rfl, rfl, rfl, ?_⟩
  · simp only [Pkt.payload]
    rw [List.take_append_of_le_length, List.take_of_length_le]
    · rw [List.length_append, hl, List.length_take]; omega
    · rw [List.length_append, hl, List.length_take]; omega
  · simp only [List.length_append, hl, List.length_take, List.length_drop]; omega

theorem truncSrc_spec {s : Pkt} (h : POK s) {b m : Nat} (hb : b ≤ s.ds) (hm : m < s.ns)
    (hfr : Fr s.pt (s.payload.drop b) (s.ns - m)) (h10 : s.pt = G729 → b % 10 = 0) :
    ∃ s', truncSrc s ⟨b, m⟩ = .ok s' ∧ POK s' ∧ s'.payload = s.payload.drop b ∧ s'.ns = s.ns - m ∧
      s'.ts = u32 (s.ts + m) ∧ s'.pt = s.pt ∧ s'.ssrc = s.ssrc ∧ s'.ds = s.ds - b ∧
      (HOK s → HOK s') := by
  have h1 := h.sz
  have h2 := h.dsb
  have h3 := h.szc
  have h4 := h.len
  unfold truncSrc
  simp only
  rw [if_neg (by omega)]
  have e : (setTs s (u32 (s.ts + m))).body = s.body := rfl
  rw [e, rdn_ok (by omega)]
  simp only
  have hl : ((s.body.drop b).take (s.ds - b)).length = s.ds - b := by
    rw [List.length_take, List.length_drop]; omega
  rw [wr_ok (by rw [hl]; omega)]
  simp only [List.take_zero, List.nil_append, Nat.zero_add, hl]
  have hpl : (((s.body.drop b).take (s.ds - b) ++ s.body.drop (s.ds - b)).take (s.ds - b)) =
      s.payload.drop b := by
    rw [List.take_append_of_le_length (by omega), List.take_of_length_le (by omega)]
    unfold Pkt.payload
    rw [List.drop_take]
  have hu : u32 (s.ts + m) < 4294967296 := by unfold u32; omega
  refine ⟨_, rfl, ⟨?_, ?_, ?_, ?_, ?_, hu, ?_⟩, hpl, rfl, rfl, rfl, rfl, rfl, fun hh => ?_⟩
  · simp only [setTs, length_poke, List.length_append, hl, List.length_drop]; omega
  · simp only [setTs, length_poke]; exact h.h12
  · simp only [setTs, length_poke]; omega
  · simp only; omega
  · rw [Pkt.payload]; simp only; rw [hpl]; exact hfr
  · simp only [setTs]
    intro hp ha
    have := h.ap hp ha
    have := h10 hp
    omega
  · have := setTs_hok hh h.h12 hu
    refine ⟨this.ver, this.hl, this.pt, this.ts, this.seq, this.ssrc, fun hp => ?_⟩
    have := this.nopad hp
    simp only [setTs, length_poke] at this ⊢
    omega

/-! ### stamps -/

theorem stampAt_append {pt ts : Nat} {a b : List UInt8} {m : Nat} (h : a.length % bpf pt = 0)
    (hm : m = a.length / bpf pt * spf pt) :
    stampAt pt ts (a ++ b) = stampAt pt ts a ++ stampAt pt (u32 (ts + m)) b := by
  unfold stampAt
  rw [List.zipIdx_append, List.map_append]
  congr 1
  rw [Nat.zero_add, List.zipIdx_eq_map_add, List.map_map]
  apply List.map_congr_left
  rintro ⟨x, j⟩ _
  simp only [Function.comp]
  have hpos : 0 < bpf pt := by
    unfold bpf
    split
    · omega
    · split <;> omega
  have e : (a.length + j) / bpf pt = a.length / bpf pt + j / bpf pt := by
    obtain ⟨k, hk⟩ := Nat.dvd_of_mod_eq_zero h
    rw [hk, Nat.mul_add_div hpos, Nat.mul_div_cancel_left _ hpos]
  rw [e, Nat.add_mul, ← hm]
  simp only [u32, Prod.mk.injEq, and_true]
  omega

/-- The packet ends at a frame boundary and its number of samples is that of its frames. -/
def Aligned (p : Pkt) : Prop :=
  p.payload.length % bpf p.pt = 0 ∧ p.ns = p.payload.length / bpf p.pt * spf p.pt

/-- Timed queue packets that may be continued are aligned. -/
theorem aligned_of {p : Pkt} (h : POK p) (ht : Timed p) (ha : p.app = true) : Aligned p := by
  have hl := h.plen
  unfold Aligned
  rw [hl]
  rcases h.fr with ⟨hp, hn⟩ | ⟨hp, hn⟩ | ⟨hp, hn⟩ | ⟨hp, k, hk, hn⟩ | ⟨hp, hn⟩
  · rcases hp with hp | hp <;> rw [hp] <;> simp [bpf, spf, PCMU, PCMA, G729, GSM, Nat.mod_one] <;> omega
  · have := h.ap hp ha
    rw [hp]
    simp only [bpf, spf, if_true]
    rw [hl] at hn
    unfold framesUp at hn
    rw [if_pos this] at hn
    exact ⟨this, hn⟩
  · rcases ht with h1 | h1 | h1 | h1
    · rw [hp] at h1; simp [GSM, PCMU] at h1
    · rw [hp] at h1; simp [GSM, PCMA] at h1
    · rw [hp] at h1; simp [GSM, G729] at h1
    · rw [hp]
      rw [hl] at hn
      simp only [bpf, spf, GSM, G729]
      simp
      omega
  · rcases ht with h1 | h1 | h1 | h1
    · rw [hp] at h1; simp [G723, PCMU] at h1
    · rw [hp] at h1; simp [G723, PCMA] at h1
    · rw [hp] at h1; simp [G723, G729] at h1
    · rw [hp] at h1; simp [G723, GSM] at h1
  · rcases ht with h1 | h1 | h1 | h1
    · rw [hp] at h1; simp [G722, PCMU] at h1
    · rw [hp] at h1; simp [G722, PCMA] at h1
    · rw [hp] at h1; simp [G722, G729] at h1
    · rw [hp] at h1; simp [G722, GSM] at h1

end Verif.Resizer
