import Verif.Rtp.Model

/-!
# C07, C08, C09: RTP header parsing, demultiplexing, modular order
-/

namespace Verif.Rtp

/-! ### Specification: RFC 3550 fixed header, read off the bytes -/

/-- Byte `i` of a datagram (0 beyond the end). -/
def byte (b : List UInt8) (i : Nat) : Nat := (b.getD i 0).toNat

def be16 (b : List UInt8) (i : Nat) : Nat := byte b i * 256 + byte b (i + 1)
def be32 (b : List UInt8) (i : Nat) : Nat :=
  byte b i * 16777216 + byte b (i + 1) * 65536 + byte b (i + 2) * 256 + byte b (i + 3)

/-- Version field: top two bits of the first byte. -/
def version (b : List UInt8) : Nat := byte b 0 / 64
/-- Padding bit. -/
def hasPad (b : List UInt8) : Prop := byte b 0 / 32 % 2 = 1
/-- Extension bit. -/
def hasExt (b : List UInt8) : Prop := byte b 0 / 16 % 2 = 1
/-- Fixed header plus contributing sources. -/
def baseLen (b : List UInt8) : Nat := 12 + 4 * (byte b 0 % 16)

instance (b : List UInt8) : Decidable (hasPad b) := by unfold hasPad; infer_instance
instance (b : List UInt8) : Decidable (hasExt b) := by unfold hasExt; infer_instance

/-- Header length including the extension. -/
def hdrLen (b : List UInt8) : Nat :=
  if hasExt b then baseLen b + 4 + 4 * be16 b (baseLen b + 2) else baseLen b

/-- Number of padding bytes: the last byte of the datagram if the padding bit is set. -/
def padLen (b : List UInt8) : Nat := if hasPad b then byte b (b.length - 1) else 0

/-- A well-formed RTP datagram (RFC 3550, section 5.1 and 5.3.1). -/
def WellFormed (b : List UInt8) : Prop :=
  12 ≤ b.length ∧ version b = 2 ∧ (hasExt b → baseLen b + 4 ≤ b.length) ∧
  hdrLen b + padLen b ≤ b.length ∧ (hasPad b → 1 ≤ padLen b)

instance (b : List UInt8) : Decidable (WellFormed b) := by unfold WellFormed; infer_instance

/-! ### Helper lemmas -/

theorem rd_ok {b : List UInt8} {i : Nat} (h : i < b.length) : rd b i = .ok (byte b i) := by
  unfold rd byte
  rw [List.getElem?_eq_getElem h, List.getD_eq_getElem?_getD, List.getElem?_eq_getElem h]
  rfl

theorem rd16_ok {b : List UInt8} {i : Nat} (h : i + 1 < b.length) : rd16 b i = .ok (be16 b i) := by
  unfold rd16 be16
  rw [rd_ok (by omega : i < b.length), rd_ok h]
  rfl

theorem rd32_ok {b : List UInt8} {i : Nat} (h : i + 3 < b.length) : rd32 b i = .ok (be32 b i) := by
  unfold rd32
  rw [rd16_ok (by omega : i + 1 < b.length), rd16_ok (by omega : i + 2 + 1 < b.length)]
  have e : be16 b i * 65536 + be16 b (i + 2) = be32 b i := by
    unfold be16 be32
    have e1 : i + 2 + 1 = i + 3 := rfl
    rw [e1]
    omega
  rw [← e]
  rfl

theorem byte_lt (b : List UInt8) (i : Nat) : byte b i < 256 := UInt8.toNat_lt _

theorem g723_ok {buf : List UInt8} {off maxlen : Nat} (h : off + maxlen ≤ buf.length) :
    ∀ (k pos samples : Nat), maxlen - pos ≤ k → ∃ r, g723Samples buf off maxlen pos samples = .ok r
  | 0, pos, samples, hk => by
    unfold g723Samples
    rw [dif_neg (by omega)]
    exact ⟨_, rfl⟩
  | k + 1, pos, samples, hk => by
    unfold g723Samples
    split
    · next hp =>
      rw [rd_ok (by omega)]
      simp only
      split
      · exact ⟨_, rfl⟩
      · next n hn =>
        have : 0 < n := by
          unfold g723Len at hn
          split at hn <;> cases hn <;> omega
        exact g723_ok h k (pos + n) (samples + 240) (by omega)
    · exact ⟨_, rfl⟩

theorem calc_ok {buf : List UInt8} {off n : Nat} (h : off + n ≤ buf.length) (codec : Nat) :
    ∃ r, calcSamples codec n buf off = .ok r := by
  unfold calcSamples
  split
  · exact ⟨_, rfl⟩
  split
  · exact ⟨_, rfl⟩
  split
  · exact ⟨_, rfl⟩
  split
  · exact g723_ok h _ _ _ (Nat.le_refl _)
  split <;> exact ⟨_, rfl⟩

/-- The facts established about an accepted packet with header length `off` and `pad` bytes of
padding. -/
def Parsed (b : List UInt8) (off pad : Nat) (i : Info) : Prop :=
  i.dataOffset = off ∧ i.dataSize = b.length - off - pad ∧ i.ts = be32 b 4 ∧ i.seq = be16 b 2 ∧
  i.ssrc = be32 b 8 ∧ i.pt = byte b 1 % 128 ∧ (i.dataSize = 0 → i.nsamples = none) ∧
  (i.dataSize ≠ 0 → calcSamples i.pt i.dataSize b i.dataOffset = .ok i.nsamples) ∧
  (i.appendable = false ↔ i.pt = G729 ∧ i.dataSize % 10 ≠ 0)

theorem parseTail_spec {b : List UInt8} (h12 : 12 ≤ b.length) (off pad : Nat) :
    (b.length < off + pad ∧ parseTail b off pad = .ok (.error .ptooshrtp)) ∨
    (off + pad ≤ b.length ∧ ∃ i, parseTail b off pad = .ok (.ok i) ∧ Parsed b off pad i) := by
  unfold parseTail
  simp only [bind, Except.bind, pure, Except.pure]
  by_cases h : b.length < off + pad
  · rw [if_pos h]; exact .inl ⟨h, rfl⟩
  rw [if_neg h, rd32_ok (by omega : 4 + 3 < b.length), rd16_ok (by omega : 2 + 1 < b.length),
    rd32_ok (by omega : 8 + 3 < b.length), rd_ok (by omega : 1 < b.length)]
  refine .inr ⟨by omega, ?_⟩
  simp only
  by_cases h0 : b.length - off - pad = 0
  · rw [if_pos h0]
    refine ⟨_, rfl, rfl, rfl, rfl, rfl, rfl, rfl, fun _ => rfl, fun hn => absurd h0 hn, ?_⟩
    simp only [h0]
    simp
  · rw [if_neg h0]
    obtain ⟨r, hr⟩ := calc_ok (buf := b) (off := off) (n := b.length - off - pad) (by omega)
      (byte b 1 % 128)
    rw [hr]
    refine ⟨_, rfl, rfl, rfl, rfl, rfl, rfl, rfl, fun hn => absurd hn h0, fun _ => hr, ?_⟩
    simp

theorem parsePad_spec {b : List UInt8} (h12 : 12 ≤ b.length) (off : Nat) (p : Bool) :
    (¬ (off + (if p then byte b (b.length - 1) else 0) ≤ b.length ∧
        (p = true → 1 ≤ byte b (b.length - 1))) ∧ ∃ e, parsePad b off p = .ok (.error e) ∧ e ≠ .isrtcp) ∨
    ((off + (if p then byte b (b.length - 1) else 0) ≤ b.length ∧
        (p = true → 1 ≤ byte b (b.length - 1))) ∧
      ∃ i, parsePad b off p = .ok (.ok i) ∧
        Parsed b off (if p then byte b (b.length - 1) else 0) i) := by
  unfold parsePad
  simp only [bind, Except.bind, pure, Except.pure]
  by_cases h : b.length < off
  · rw [if_pos h]
    exact .inl ⟨fun hh => by omega, _, rfl, by simp⟩
  rw [if_neg h]
  cases p with
  | false =>
    simp only [Bool.false_eq_true, if_false]
    rcases parseTail_spec h12 off 0 with ⟨h1, h2⟩ | ⟨h1, h2⟩
    · omega
    · exact .inr ⟨⟨h1, by simp⟩, h2⟩
  | true =>
    simp only [if_true]
    by_cases he : off = b.length
    · rw [if_pos he]
      exact .inl ⟨fun hh => by have := hh.2 trivial; omega, _, rfl, by simp⟩
    rw [if_neg he, rd_ok (by omega)]
    simp only
    by_cases hz : byte b (b.length - 1) = 0
    · rw [if_pos hz]
      exact .inl ⟨fun hh => by have := hh.2 trivial; omega, _, rfl, by simp⟩
    rw [if_neg hz]
    rcases parseTail_spec h12 off (byte b (b.length - 1)) with ⟨h1, h2⟩ | ⟨h1, h2⟩
    · exact .inl ⟨fun hh => by omega, _, h2, by simp⟩
    · exact .inr ⟨⟨h1, fun _ => by omega⟩, h2⟩

/-- What `parseRaw` computes, in one piece. -/
theorem parseRaw_spec (b : List UInt8) :
    (¬ WellFormed b ∧ ∃ e, parseRaw b = .ok (.error e) ∧ e ≠ .isrtcp) ∨
    (WellFormed b ∧ ∃ i, parseRaw b = .ok (.ok i) ∧ Parsed b (hdrLen b) (padLen b) i) := by
  unfold parseRaw
  simp only [bind, Except.bind, pure, Except.pure]
  by_cases h12 : b.length < 12
  · rw [if_pos h12]
    exact .inl ⟨fun hw => absurd hw.1 (by omega), _, rfl, by simp⟩
  rw [if_neg h12, rd_ok (by omega : 0 < b.length)]
  simp only
  by_cases hv : byte b 0 / 64 ≠ 2
  · rw [if_pos hv]
    exact .inl ⟨fun hw => absurd hw.2.1 hv, _, rfl, by simp⟩
  rw [if_neg hv]
  have hv' : version b = 2 := Classical.byContradiction hv
  have hb : 12 + byte b 0 % 16 * 4 = baseLen b := by unfold baseLen; omega
  have hpl : padLen b = if decide (byte b 0 / 32 % 2 = 1) = true then byte b (b.length - 1) else 0 := by
    unfold padLen hasPad
    by_cases hp : byte b 0 / 32 % 2 = 1 <;> simp [hp]
  have hpi : (hasPad b → 1 ≤ padLen b) ↔
      (decide (byte b 0 / 32 % 2 = 1) = true → 1 ≤ byte b (b.length - 1)) := by
    unfold padLen hasPad
    by_cases hp : byte b 0 / 32 % 2 = 1 <;> simp [hp]
  rw [hb]
  by_cases hx : byte b 0 / 16 % 2 = 1
  · have hE : hasExt b := hx
    rw [if_pos (by simpa using hx)]
    by_cases hs : b.length < baseLen b + 4
    · rw [if_pos hs]
      exact .inl ⟨fun hw => by have := hw.2.2.1 hE; omega, _, rfl, by simp⟩
    rw [if_neg hs, rd16_ok (by omega)]
    simp only
    have hh : baseLen b + (4 + be16 b (baseLen b + 2) * 4) = hdrLen b := by
      unfold hdrLen; rw [if_pos hE]; omega
    rw [hh]
    rcases parsePad_spec (by omega : 12 ≤ b.length) (hdrLen b) (decide (byte b 0 / 32 % 2 = 1)) with h | h
    · refine .inl ⟨fun hw => h.1 ?_, h.2⟩
      rw [← hpl, ← hpi]
      exact ⟨hw.2.2.2.1, hw.2.2.2.2⟩
    · rw [← hpl, ← hpi] at h
      exact .inr ⟨⟨by omega, hv', fun _ => by omega, h.1.1, h.1.2⟩, h.2⟩
  · have hE : ¬ hasExt b := hx
    rw [if_neg (by simpa using hx)]
    have hh : baseLen b = hdrLen b := by unfold hdrLen; rw [if_neg hE]
    rw [hh]
    rcases parsePad_spec (by omega : 12 ≤ b.length) (hdrLen b) (decide (byte b 0 / 32 % 2 = 1)) with h | h
    · refine .inl ⟨fun hw => h.1 ?_, h.2⟩
      rw [← hpl, ← hpi]
      exact ⟨hw.2.2.2.1, hw.2.2.2.2⟩
    · rw [← hpl, ← hpi] at h
      exact .inr ⟨⟨by omega, hv', fun hc => absurd hc hE, h.1.1, h.1.2⟩, h.2⟩

theorem isRtcp_ok (b : List UInt8) :
    isRtcp b = .ok (decide (2 ≤ b.length ∧ version b = 2 ∧ 200 ≤ byte b 1 ∧ byte b 1 ≤ 213)) := by
  unfold isRtcp
  simp only [bind, Except.bind, pure, Except.pure]
  by_cases h : b.length < 2
  · rw [if_pos h]; congr 1; symm; simp; omega
  · rw [if_neg h, rd_ok (by omega), rd_ok (by omega)]
    have := byte_lt b 0
    have e : byte b 0 / 64 % 4 = version b := by unfold version; omega
    simp only [e]
    congr 1
    have h2 : 2 ≤ b.length := by omega
    simp [h2, Bool.and_assoc]

theorem isStun_ok (b : List UInt8) :
    isStun b = .ok (decide (20 ≤ b.length ∧ be32 b 4 = 0x2112A442)) := by
  unfold isStun
  simp only [bind, Except.bind, pure, Except.pure]
  by_cases h : b.length < 20
  · rw [if_pos h]; congr 1; symm; simp; omega
  · rw [if_neg h, rd32_ok (by omega)]
    have h2 : 20 ≤ b.length := by omega
    simp [h2]

theorem isDtls_ok (b : List UInt8) :
    isDtls b = .ok (decide (13 ≤ b.length ∧ 20 ≤ byte b 0 ∧ byte b 0 ≤ 63)) := by
  unfold isDtls
  simp only [bind, Except.bind, pure, Except.pure]
  by_cases h : b.length < 13
  · rw [if_pos h]; congr 1; symm; simp; omega
  · rw [if_neg h, rd_ok (by omega)]
    have h2 : 13 ≤ b.length := by omega
    have e1 : (19 < byte b 0) = (20 ≤ byte b 0) := rfl
    have e2 : (byte b 0 < 64) = (byte b 0 ≤ 63) := by simp only [eq_iff_iff]; omega
    simp only [h2, e1, e2, true_and]
    congr 1
    simp

/-! ### C07 -/

/-- A classification as RTCP, by the bytes. -/
def LooksRtcp (b : List UInt8) : Prop :=
  2 ≤ b.length ∧ version b = 2 ∧ 200 ≤ byte b 1 ∧ byte b 1 ≤ 213

instance (b : List UInt8) : Decidable (LooksRtcp b) := by unfold LooksRtcp; infer_instance

theorem parse_spec (b : List UInt8) :
    ((LooksRtcp b ∨ ¬ WellFormed b) ∧ ∃ e, parse b = .ok (.error e)) ∨
    (¬ LooksRtcp b ∧ WellFormed b ∧ ∃ i, parse b = .ok (.ok i) ∧ Parsed b (hdrLen b) (padLen b) i) := by
  unfold parse
  simp only [bind, Except.bind, pure, Except.pure]
  rw [isRtcp_ok]
  simp only
  by_cases h : LooksRtcp b
  · rw [if_pos (by exact decide_eq_true h)]
    exact .inl ⟨.inl h, _, rfl⟩
  · rw [if_neg (by intro hc; exact h (of_decide_eq_true hc))]
    rcases parseRaw_spec b with ⟨h1, e, h2, _⟩ | ⟨h1, h2⟩
    · exact .inl ⟨.inr h1, e, h2⟩
    · exact .inr ⟨h, h1, h2⟩

/-- **C07**.  For every byte string: the parser never reads outside of the packet; it accepts
exactly the well-formed RTP packets that are not RTCP; and for an accepted packet the
datagram is header ++ payload ++ padding, where the header has the length announced by its CSRC
count and extension, the payload is at `dataOffset` with `dataSize` bytes, the padding has the
announced length, and the extracted fields are the big-endian header fields. -/
theorem C07_parser_partitions_packet (b : List UInt8) :
    (∃ r, parse b = .ok r) ∧
    ((∃ i, parse b = .ok (.ok i)) ↔ WellFormed b ∧ ¬ LooksRtcp b) ∧
    ∀ i, parse b = .ok (.ok i) →
      ∃ hdr payload pad, b = hdr ++ payload ++ pad ∧
        hdr.length = i.dataOffset ∧ i.dataOffset = hdrLen b ∧
        payload.length = i.dataSize ∧ pad.length = padLen b ∧
        i.ts = be32 b 4 ∧ i.seq = be16 b 2 ∧ i.ssrc = be32 b 8 ∧ i.pt = byte b 1 % 128 := by
  rcases parse_spec b with ⟨h1, e, h2⟩ | ⟨h0, h1, i, h2, h3⟩
  · refine ⟨⟨_, h2⟩, ⟨fun ⟨i, hi⟩ => ?_, fun ⟨ha, hb⟩ => ?_⟩, fun i hi => ?_⟩
    · rw [h2] at hi; simp at hi
    · rcases h1 with h1 | h1
      · exact absurd h1 hb
      · exact absurd ha h1
    · rw [h2] at hi; simp at hi
  · refine ⟨⟨_, h2⟩, ⟨fun _ => ⟨h1, h0⟩, fun _ => ⟨i, h2⟩⟩, fun j hj => ?_⟩
    rw [h2] at hj
    simp only [Except.ok.injEq] at hj
    subst hj
    obtain ⟨a1, a2, a3, a4, a5, a6, -⟩ := h3
    have hl := h1.2.2.2.1
    refine ⟨b.take (hdrLen b), (b.drop (hdrLen b)).take (b.length - hdrLen b - padLen b),
      (b.drop (hdrLen b)).drop (b.length - hdrLen b - padLen b), ?_, ?_, a1, ?_, ?_, a3, a4, a5, a6⟩
    · rw [List.append_assoc, List.take_append_drop, List.take_append_drop]
    · rw [List.length_take, a1]; omega
    · rw [List.length_take, List.length_drop, a2]; omega
    · rw [List.length_drop, List.length_drop]; omega

/-- A packet with one CSRC, a two-word extension, four payload bytes and three bytes of padding. -/
def samplePkt : List UInt8 :=
  [0xB1, 0x80, 0x12, 0x34, 0, 0, 1, 0, 0xde, 0xad, 0xbe, 0xef,
   1, 2, 3, 4, 0xbe, 0xde, 0, 2, 9, 9, 9, 9, 8, 8, 8, 8, 0x55, 0x56, 0x57, 0x58, 0, 0, 3]

example : (parse samplePkt).toOption.map Except.toOption = some (some
    { dataSize := 4, dataOffset := 28, nsamples := some 4, ts := 256, seq := 0x1234,
      ssrc := 0xdeadbeef, appendable := true, pt := 0 }) := by decide
example : WellFormed samplePkt ∧ ¬ LooksRtcp samplePkt := by decide

/-! ### C08 -/

/-- **C08** is false of the code as stated: STUN is recognised by its magic cookie alone, which
sits where RTP has its timestamp; an RTP packet with that timestamp is classified as STUN too.
(rtp_packet.c:187-196; RFC 5764 section 5.1.2 demultiplexes on the first byte.) -/
theorem C08_rtp_taken_for_stun_counterexample :
    ∃ b, (∃ i, parse b = .ok (.ok i)) ∧ isStun b = .ok true :=
  ⟨[0x80, 0, 0, 1, 0x21, 0x12, 0xA4, 0x42, 1, 2, 3, 4, 9, 9, 9, 9, 9, 9, 9, 9],
    ((C07_parser_partitions_packet _).2.1).mpr (by decide), by rw [isStun_ok]; exact congrArg _ (by decide)⟩

/-- **C08**, the part that holds: no classifier reads outside of the datagram; no datagram is
both RTCP and RTP, RTP and DTLS, or RTCP and DTLS; and the only datagrams that are both RTP and
STUN are those whose timestamp equals the magic cookie.
Missing from the full claim: exclusion of STUN on that one timestamp value. -/
theorem C08_demux_unambiguous_partial (b : List UInt8) :
    (∃ r, isRtcp b = .ok r) ∧ (∃ r, isStun b = .ok r) ∧ (∃ r, isDtls b = .ok r) ∧
    ¬ (isRtcp b = .ok true ∧ ∃ i, parse b = .ok (.ok i)) ∧
    ¬ (isDtls b = .ok true ∧ ∃ i, parse b = .ok (.ok i)) ∧
    ¬ (isDtls b = .ok true ∧ isRtcp b = .ok true) ∧
    (∀ i, parse b = .ok (.ok i) → isStun b = .ok true → i.ts = 0x2112A442) := by
  have hp := C07_parser_partitions_packet b
  refine ⟨⟨_, isRtcp_ok b⟩, ⟨_, isStun_ok b⟩, ⟨_, isDtls_ok b⟩, ?_, ?_, ?_, ?_⟩
  · rintro ⟨h1, h2⟩
    have h3 := (hp.2.1.mp h2).2
    rw [isRtcp_ok] at h1
    simp only [Except.ok.injEq, decide_eq_true_eq] at h1
    exact h3 h1
  · rintro ⟨h1, h2⟩
    have h3 := (hp.2.1.mp h2).1.2.1
    rw [isDtls_ok] at h1
    simp only [Except.ok.injEq, decide_eq_true_eq] at h1
    unfold version at h3
    omega
  · rintro ⟨h1, h2⟩
    rw [isDtls_ok] at h1
    rw [isRtcp_ok] at h2
    simp only [Except.ok.injEq, decide_eq_true_eq] at h1 h2
    unfold version at h2
    omega
  · intro i hi h1
    obtain ⟨_, _, _, _, _, _, _, _, h3, _⟩ := hp.2.2 i hi
    rw [isStun_ok] at h1
    simp only [Except.ok.injEq, decide_eq_true_eq] at h1
    rw [h3]; exact h1.2

example : isRtcp [0x80, 200] = .ok true ∧ (∃ r, isRtcp [0x80] = .ok r) := by
  rw [isRtcp_ok]; exact ⟨congrArg _ (by decide), _, isRtcp_ok _⟩
example : isDtls (0x16 :: List.replicate 12 0) = .ok true := by
  rw [isDtls_ok]; exact congrArg _ (by decide)

/-! ### C09 -/

/-- Specification: positions on an unbounded time line; a 32-bit timestamp is the position
modulo 2^32. -/
def wrap32 (n : Nat) : BitVec 32 := BitVec.ofNat 32 n

/-- Sequence numbers are positions modulo 2^16. -/
def wrap16 (n : Nat) : Nat := n % 65536

/-- **C09**.  Wherever the counters wrap, comparison of wrapped timestamps agrees with the order of
the unwrapped positions as long as these are less than 2^31 apart (so it is a strict order on
every such window), and the sequence distance is the forward distance for positions less than
2^16 apart: zero exactly for equal sequence numbers, and one for neighbours, also
across the wrap.  On the whole ring, the comparison is irreflexive and asymmetric. -/
theorem C09_modular_order (m n : Nat) :
    (m < n + 2 ^ 31 → n < m + 2 ^ 31 → (tsLess (wrap32 m) (wrap32 n) = true ↔ m < n)) ∧
    (m ≤ n → n < m + 65536 → seqDist (wrap16 m) (wrap16 n) = n - m) ∧
    (seqDist (wrap16 m) (wrap16 n) = 0 ↔ wrap16 m = wrap16 n) ∧
    seqDist (wrap16 m) (wrap16 (m + 1)) = 1 ∧
    tsLess (wrap32 m) (wrap32 m) = false ∧
    (tsLess (wrap32 m) (wrap32 n) = true → tsLess (wrap32 n) (wrap32 m) = false) := by
  refine ⟨fun h1 h2 => ?_, fun h1 h2 => ?_, ?_, ?_, ?_, ?_⟩
  · unfold tsLess wrap32
    rw [decide_eq_true_eq, BitVec.toNat_sub, BitVec.toNat_ofNat, BitVec.toNat_ofNat]
    omega
  · unfold seqDist wrap16
    split <;> omega
  · unfold seqDist wrap16
    split <;> omega
  · unfold seqDist wrap16
    split <;> omega
  · unfold tsLess wrap32
    rw [decide_eq_false_iff_not, BitVec.toNat_sub, BitVec.toNat_ofNat]
    omega
  · unfold tsLess wrap32
    rw [decide_eq_true_eq, decide_eq_false_iff_not, BitVec.toNat_sub, BitVec.toNat_sub,
      BitVec.toNat_ofNat, BitVec.toNat_ofNat]
    omega

/-- Every timestamp is a wrapped position, so the theorem speaks about all of them. -/
theorem wrap32_surj (t : BitVec 32) : wrap32 t.toNat = t := by simp [wrap32]

example : tsLess 0xffffff60#32 0x10#32 = true ∧ seqDist 65535 0 = 1 := by decide

/-! ### C55 -/

/-- Two packets that agree on the first two bytes and from byte 8 (resp. everywhere but in a field
that lies in bytes 2..8). -/
def Same (b b' : List UInt8) : Prop :=
  b'.length = b.length ∧ ∀ k, (k < 2 ∨ 8 ≤ k) → b'[k]? = b[k]?

theorem Same.byte {b b' : List UInt8} (h : Same b b') {k : Nat} (hk : k < 2 ∨ 8 ≤ k) :
    byte b' k = byte b k := by
  unfold Rtp.byte
  rw [List.getD_eq_getElem?_getD, List.getD_eq_getElem?_getD, h.2 k hk]

theorem Same.g723 {b b' : List UInt8} (h : Same b b') {off maxlen : Nat} (ho : 8 ≤ off) :
    ∀ (k pos samples : Nat), maxlen - pos ≤ k →
      g723Samples b' off maxlen pos samples = g723Samples b off maxlen pos samples
  | 0, pos, samples, hk => by
    unfold g723Samples
    rw [dif_neg (by omega), dif_neg (by omega)]
  | k + 1, pos, samples, hk => by
    unfold g723Samples
    have hr : rd b' (off + pos) = rd b (off + pos) := by unfold rd; rw [h.2 _ (by omega)]
    rw [hr]
    split
    · next hp =>
      split
      · rfl
      · split
        · rfl
        · next n hn =>
          have : 0 < n := by
            unfold g723Len at hn
            split at hn <;> cases hn <;> omega
          exact Same.g723 h ho k (pos + n) (samples + 240) (by omega)
    · rfl

theorem Same.calc {b b' : List UInt8} (h : Same b b') {off : Nat} (ho : 8 ≤ off) (c n : Nat) :
    calcSamples c n b' off = calcSamples c n b off := by
  unfold calcSamples
  rw [Same.g723 h ho _ _ _ (Nat.le_refl _)]

theorem Same.parse {b b' : List UInt8} (h : Same b b') {i : Info} (hp : parse b = .ok (.ok i)) :
    Rtp.parse b' = .ok (.ok { i with seq := be16 b' 2, ts := be32 b' 4 }) := by
  rcases parse_spec b with ⟨-, e, h2⟩ | ⟨h0, h1, j, h2, h3⟩
  · rw [h2] at hp; simp at hp
  rw [h2] at hp
  simp only [Except.ok.injEq] at hp
  subst hp
  have hb0 : Rtp.byte b' 0 = Rtp.byte b 0 := h.byte (by omega)
  have hb1 : Rtp.byte b' 1 = Rtp.byte b 1 := h.byte (by omega)
  have hbl : baseLen b' = baseLen b := by unfold baseLen; rw [hb0]
  have hb12 : 12 ≤ baseLen b := by unfold baseLen; omega
  have he : be16 b' (baseLen b + 2) = be16 b (baseLen b + 2) := by
    unfold be16; rw [h.byte (by omega), h.byte (by omega)]
  have hss : be32 b' 8 = be32 b 8 := by
    unfold be32
    rw [h.byte (by omega), h.byte (by omega), h.byte (by omega), h.byte (by omega)]
  have hhl : hdrLen b' = hdrLen b := by
    have e : hasExt b' ↔ hasExt b := by unfold hasExt; rw [hb0]
    unfold hdrLen; simp only [e, hbl, he]
  have h12 := h1.1
  have hpl : padLen b' = padLen b := by
    have e : hasPad b' ↔ hasPad b := by unfold hasPad; rw [hb0]
    unfold padLen; simp only [e, h.1]; rw [h.byte (by omega)]
  have hw : WellFormed b' := by
    unfold WellFormed version hasExt hasPad
    rw [h.1, hb0, hbl, hhl, hpl]
    exact h1
  have hr : ¬ LooksRtcp b' := by
    unfold LooksRtcp version
    rw [h.1, hb0, hb1]
    exact h0
  have hh8 : 8 ≤ hdrLen b := by unfold hdrLen; split <;> omega
  rcases parse_spec b' with ⟨hc, -⟩ | ⟨-, -, j', h2', h3'⟩
  · rcases hc with hc | hc
    · exact absurd hc hr
    · exact absurd hw hc
  rw [h2']
  rw [hhl, hpl] at h3'
  obtain ⟨a1, a2, a3, a4, a5, a6, a7, a8, a9⟩ := h3
  obtain ⟨c1, c2, c3, c4, c5, c6, c7, c8, c9⟩ := h3'
  rw [h.1] at c2
  have d2 : j'.dataSize = j.dataSize := by rw [c2, a2]
  have d6 : j'.pt = j.pt := by rw [c6, a6, hb1]
  have d9 : j'.appendable = j.appendable := by
    rw [d2, d6, ← a9] at c9
    cases h1 : j'.appendable <;> cases h2 : j.appendable <;> simp_all
  have dn : j'.nsamples = j.nsamples := by
    by_cases hz : j.dataSize = 0
    · rw [c7 (by omega), a7 hz]
    · have h4 := c8 (by omega)
      rw [d6, d2, c1, h.calc hh8, ← a1, a8 hz] at h4
      simpa using h4.symm
  congr 2
  cases j' ; cases j
  simp only at *
  simp only [Info.mk.injEq]
  exact ⟨d2, by rw [c1, a1], dn, c3, c4, by rw [c5, a5, hss], d9, d6⟩

theorem byte_poke (b : List UInt8) (i v k : Nat) (hi : i < b.length) :
    byte (poke b i v) k = if k = i then v % 256 else byte b k := by
  unfold byte poke
  rw [List.getD_eq_getElem?_getD, List.getD_eq_getElem?_getD, List.getElem?_set]
  by_cases h : i = k
  · subst h
    simp [hi]
  · simp [h, Ne.symm h]

theorem length_poke (b : List UInt8) (i v : Nat) : (poke b i v).length = b.length := by
  simp [poke]

theorem getElem?_poke (b : List UInt8) (i v k : Nat) (h : k ≠ i) : (poke b i v)[k]? = b[k]? := by
  unfold poke
  rw [List.getElem?_set]
  simp [Ne.symm h]

/-- **C55**.  Rewriting sequence number and timestamp of a parsed packet changes nothing else: the
packet keeps its length and every byte outside of the rewritten field, it still parses, and
parsing it yields exactly the parsed header that was updated alongside. -/
theorem C55_rewrite_then_parse (b : List UInt8) (i : Info) (h : parse b = .ok (.ok i))
    (seq ts : Nat) (hs : seq < 65536) (ht : ts < 4294967296) :
    parse (setSeq b i seq).1 = .ok (.ok (setSeq b i seq).2) ∧
    parse (setTs b i ts).1 = .ok (.ok (setTs b i ts).2) ∧
    (setSeq b i seq).2 = { i with seq := seq } ∧ (setTs b i ts).2 = { i with ts := ts } ∧
    (setSeq b i seq).1.length = b.length ∧ (setTs b i ts).1.length = b.length ∧
    (∀ k, k ≠ 2 → k ≠ 3 → (setSeq b i seq).1[k]? = b[k]?) ∧
    (∀ k, (k < 4 ∨ 8 ≤ k) → (setTs b i ts).1[k]? = b[k]?) := by
  have h12 : 12 ≤ b.length := (((C07_parser_partitions_packet b).2.1).mp ⟨i, h⟩).1.1
  have hS : ∀ k, k ≠ 2 → k ≠ 3 → (setSeq b i seq).1[k]? = b[k]? := by
    intro k h2 h3
    simp only [setSeq]
    rw [getElem?_poke _ _ _ _ h3, getElem?_poke _ _ _ _ h2]
  have hT : ∀ k, (k < 4 ∨ 8 ≤ k) → (setTs b i ts).1[k]? = b[k]? := by
    intro k hk
    simp only [setTs]
    rw [getElem?_poke _ _ _ _ (by omega), getElem?_poke _ _ _ _ (by omega),
      getElem?_poke _ _ _ _ (by omega), getElem?_poke _ _ _ _ (by omega)]
  have lS : (setSeq b i seq).1.length = b.length := by simp [setSeq, length_poke]
  have lT : (setTs b i ts).1.length = b.length := by simp [setTs, length_poke]
  have its : i.ts = be32 b 4 ∧ i.seq = be16 b 2 := by
    obtain ⟨_, _, _, _, _, _, _, _, h3, h4, _⟩ := (C07_parser_partitions_packet b).2.2 i h
    exact ⟨h3, h4⟩
  refine ⟨?_, ?_, rfl, rfl, lS, lT, hS, hT⟩
  · rw [Same.parse ⟨lS, fun k hk => hS k (by omega) (by omega)⟩ h]
    have e1 : be16 (setSeq b i seq).1 2 = seq := by
      simp only [setSeq, be16]
      rw [byte_poke _ _ _ _ (by rw [length_poke]; omega), byte_poke _ _ _ _ (by omega),
        byte_poke _ _ _ _ (by rw [length_poke]; omega)]
      simp only [Nat.reduceAdd, Nat.reduceEqDiff, if_true, if_false]
      omega
    have e2 : be32 (setSeq b i seq).1 4 = i.ts := by
      rw [its.1]
      simp only [be32, byte]
      simp only [List.getD_eq_getElem?_getD]
      rw [hS _ (by omega) (by omega), hS _ (by omega) (by omega), hS _ (by omega) (by omega),
        hS _ (by omega) (by omega)]
    rw [e1, e2]
    rfl
  · rw [Same.parse ⟨lT, fun k hk => hT k (by omega)⟩ h]
    have e1 : be16 (setTs b i ts).1 2 = i.seq := by
      rw [its.2]
      simp only [be16, byte]
      simp only [List.getD_eq_getElem?_getD]
      rw [hT _ (by omega), hT _ (by omega)]
    have e2 : be32 (setTs b i ts).1 4 = ts := by
      simp only [setTs, be32, byte_poke, length_poke, show (4:Nat) < b.length by omega,
        show (5:Nat) < b.length by omega, show (6:Nat) < b.length by omega,
        show (7:Nat) < b.length by omega]
      simp only [Nat.reduceAdd, Nat.reduceEqDiff, if_true, if_false]
      omega
    rw [e1, e2]
    rfl

example : (parse (setTs samplePkt ((parse samplePkt).toOption.get!.toOption.get!) 0xfffffff0).1).toOption.map
    (fun r => r.toOption.map Info.ts) = some (some 0xfffffff0) := by decide


end Verif.Rtp
