import Verif.Resizer.Run

/-!
# C10: the packet resizer

The claim in full: for every sequence of calls the audio sent, followed by the audio still
buffered, is the accepted audio in timestamp order, every sent packet has the requested
packetisation time, fits into the buffer and is correctly described by its header.

What holds for every history is `C10_audio_conserved_partial` (no fault, nothing lost, nothing
duplicated) and `C10_packet_shape_partial`; the order holds for one RTP stream
(`C10_one_stream_in_order_partial`).  The full claim is false in three situations, shown by the
`_counterexample` theorems below: padding, G.722 and a change of the SSRC.
-/

namespace Verif.Resizer

open Verif.Rtp (PCMU PCMA GSM G723 G722 G729 hasPad)

/-- **C10**, for every history of calls on a new resizer: no out of bounds access and no failed
assertion; the bytes sent and the bytes still buffered are exactly the bytes accepted.  For
G.711, G.729 and GSM the same is true of the bytes paired with their play-out timestamps, so that
repacketising does not move audio in time. -/
theorem C10_audio_conserved_partial (ptime : Nat) (ops : List Op) (hok : ∀ o ∈ ops, o.ok) :
    ∃ s evs, run (new ptime) ops = .ok (s, evs) ∧
      (bytesOf (emitted evs) ++ bytesOf s.q).Perm (bytesOf (accepted evs)) ∧
      ((∀ x ∈ accepted evs, Timed x) →
        (stampsOf (emitted evs) ++ stampsOf s.q).Perm (stampsOf (accepted evs))) := by
  obtain ⟨s, evs, h1, -, h3, h4⟩ := run_spec ops (new ptime) (new_ok ptime) hok
  exact ⟨s, evs, h1, h3, h4⟩

/-- **C10**, one RTP stream (one SSRC, all timestamps within half of the timestamp space): what is
sent, followed by what is buffered, is the accepted audio in timestamp order; with the play-out
timestamps for G.711, G.729 and GSM. -/
theorem C10_one_stream_in_order_partial (base ssrc ptime : Nat) (ops : List Op)
    (hok : ∀ o ∈ ops, o.ok) (h1 : OneStream base ssrc ops) :
    ∃ s evs, run (new ptime) ops = .ok (s, evs) ∧
      bytesOf (emitted evs) ++ bytesOf s.q = bytesOf (inTsOrder base (accepted evs)) ∧
      ((∀ x ∈ inTsOrder base (accepted evs), Timed x) →
        stampsOf (emitted evs) ++ stampsOf s.q = stampsOf (inTsOrder base (accepted evs))) := by
  obtain ⟨s, evs, hr, -, -, -⟩ := run_spec ops (new ptime) (new_ok ptime) hok
  refine ⟨s, evs, hr, ?_⟩
  have h0 : OI base ssrc (new ptime) [] [] [] [] [] [] [] :=
    ⟨rfl, List.Pairwise.nil, fun x hx => absurd hx List.not_mem_nil,
      fun x hx => absurd hx List.not_mem_nil, fun _ => ⟨rfl, rfl, rfl, rfl⟩,
      fun t ht => absurd ht (by simp [new, setPtime]), .inl rfl, rfl, fun _ => rfl⟩
  obtain ⟨E, R, d, ds, hO⟩ := run_oi ops (new ptime) [] [] [] [] [] [] [] (new_ok ptime) h0 hok h1 s evs hr
  obtain ⟨t, hH⟩ := hO.head
  obtain ⟨f1, f2⟩ := hH.flat
  have ho := hO.ord
  have hem := hO.em
  have hems := hO.emS
  simp only [List.nil_append] at ho hem hems
  refine ⟨?_, fun hT => ?_⟩
  · rw [hem, List.append_assoc, f1, ← bytesOf_append, ho]
  · rw [← ho] at hT
    rw [hems hT, List.append_assoc, f2 (fun x hx => hT x (by simp [hx])), ← stampsOf_append, ho]

/-- **C10**: which packets are accepted.  In one RTP stream, a packet of known duration is taken
over unless it starts before the end of the audio sent last; then it is dropped. -/
theorem C10_only_late_packets_dropped (base ssrc ptime : Nat) (ops : List Op)
    (hok : ∀ o ∈ ops, o.ok) (h1 : OneStream base ssrc ops)
    {s : St} {evs : List Ev} (hr : run (new ptime) ops = .ok (s, evs))
    (d junk : List UInt8) (now : Nat) (hd : d.length + junk.length = cap)
    {i : Rtp.Info} (hp : Rtp.parse d = .ok (.ok i)) {n : Nat} (hn : i.nsamples = some n)
    (hs : i.ssrc = ssrc) :
    (∃ s', enqueue s d junk now = .ok (s', .taken (mkPkt d junk i n)) ∧
      ∀ r, (emitted evs).getLast? = some r → tsl i.ts (u32 (r.ts + r.ns)) = false) ∨
    (∃ s' r, enqueue s d junk now = .ok (s', .late) ∧ s'.q = s.q ∧
      (emitted evs).getLast? = some r ∧ tsl i.ts (u32 (r.ts + r.ns)) = true) := by
  have hS := run_sok (new_ok ptime) hok hr
  obtain ⟨l1, l2⟩ := run_last (base := base) (ssrc := ssrc) ops (new ptime) (new_ok ptime) (.inl rfl) hok h1 s evs hr
  obtain ⟨s', o, g1, -, -, g4⟩ := enqueue_spec hS (now := now) hd
  rcases g4 with ⟨rfl, rfl⟩ | ⟨i', n', c1, c2, c3, c4, c5⟩
  · exfalso
    unfold enqueue at g1
    simp only [hp, hn] at g1
    split at g1 <;> simp at g1
  · rw [hp] at c1
    simp only [Except.ok.injEq] at c1
    subst c1
    rw [hn] at c2
    cases c2
    rw [hs] at c4
    have hls := c4 l2
    rw [l1] at hls
    rcases c5 with ⟨rfl, c6, t, ht, ht2⟩ | ⟨rfl, c6, c7⟩
    · right
      rw [hls] at ht
      unfold endOf at ht
      cases hg : (emitted evs).getLast? with
      | none => rw [hg] at ht; simp [new, setPtime] at ht
      | some r =>
        rw [hg] at ht
        simp only [Option.some.injEq] at ht
        exact ⟨s', r, g1, c6, rfl, by rw [ht]; exact ht2⟩
    · left
      refine ⟨s', g1, fun r hgr => c7 _ ?_⟩
      rw [hls]; unfold endOf; rw [hgr]

theorem step_sizes {s s' : St} {o : Op} {ev : Ev} (h : step s o = .ok (s', ev)) (n : Nat) (h1 : s.outN = n * 8)
    (h2 : s.maxBuf = max 320 (n * 16)) :
    s'.outN = lastPtime n [o] * 8 ∧ s'.maxBuf = max 320 (lastPtime n [o] * 16) := by
  cases o with
  | ptime m =>
    simp only [step, Except.ok.injEq, Prod.mk.injEq] at h
    rw [← h.1]
    refine ⟨rfl, ?_⟩
    show (if m * 8 * 2 < 320 then 320 else m * 8 * 2) = max 320 (m * 16)
    split <;> omega
  | enq d j now =>
    have key : ∀ r, enqueue s d j now = .ok (s', r) → s'.outN = s.outN ∧ s'.maxBuf = s.maxBuf := by
      intro r hr
      have hsw : ∀ x, (switchSsrc s x).outN = s.outN ∧ (switchSsrc s x).maxBuf = s.maxBuf := by
        intro x
        unfold switchSsrc
        split
        · exact ⟨rfl, rfl⟩
        · split <;> exact ⟨rfl, rfl⟩
      unfold enqueue at hr
      split at hr
      · cases hr
      · cases hr; exact ⟨rfl, rfl⟩
      · split at hr
        · cases hr; exact ⟨rfl, rfl⟩
        · simp only at hr
          split at hr
          · cases hr; exact hsw _
          · cases hr; exact hsw _
    have : s'.outN = s.outN ∧ s'.maxBuf = s.maxBuf := by
      simp only [step] at h
      split at h
      · cases h
      · next s2 p2 he => cases h; exact key _ he
      · next s2 r2 hne he => cases h; exact key _ he
    rw [this.1, this.2]
    exact ⟨h1, h2⟩
  | get dt a =>
    have key : ∀ r, get s dt a = .ok (s', r) → s'.outN = s.outN ∧ s'.maxBuf = s.maxBuf := by
      intro r hr
      unfold get at hr
      split at hr
      · cases hr; exact ⟨rfl, rfl⟩
      · split at hr
        · cases hr; exact ⟨rfl, rfl⟩
        · split at hr
          · cases hr
          · cases hr; exact ⟨rfl, rfl⟩
          · cases hr; exact ⟨rfl, rfl⟩
    have : s'.outN = s.outN ∧ s'.maxBuf = s.maxBuf := by
      simp only [step] at h
      split at h
      · cases h
      · next s2 p2 he => cases h; exact key _ he
      · next s2 he => cases h; exact key _ he
    rw [this.1, this.2]
    exact ⟨h1, h2⟩

theorem run_sizes : ∀ {ops : List Op} {s s' : St} {evs : List Ev} (_ : run s ops = .ok (s', evs)) (n : Nat)
    (_ : s.outN = n * 8) (_ : s.maxBuf = max 320 (n * 16)),
    s'.outN = lastPtime n ops * 8 ∧ s'.maxBuf = max 320 (lastPtime n ops * 16)
  | [], s, s', evs, h, n, h1, h2 => by
    simp only [run, Except.ok.injEq, Prod.mk.injEq] at h
    rw [← h.1]; exact ⟨h1, h2⟩
  | o :: os, s, s', evs, h, n, h1, h2 => by
    simp only [run] at h
    split at h
    · cases h
    · next s1 ev hs =>
      obtain ⟨a, b⟩ := step_sizes hs n h1 h2
      split at h
      · cases h
      · next s2 evs2 hr =>
        cases h
        have := run_sizes hr _ a b
        cases o <;> exact this

/-- **C10**: whenever the buffered audio reaches the packetisation time (and memory is available)
a packet is sent; nothing is sent only if nothing is buffered, or too little is buffered and the
oldest packet may still wait: for two packets of that time, or 40 ms if that is longer (8 samples are
one millisecond). -/
theorem C10_get_sends_when_full (ptime : Nat) (ops : List Op) (hok : ∀ o ∈ ops, o.ok)
    {s : St} {evs : List Ev} (hr : run (new ptime) ops = .ok (s, evs)) (dt : Nat) (alloc : Bool)
    {s' : St} (hg : get s dt alloc = .ok (s', none)) :
    s' = s ∧ (s.q = [] ∨ alloc = false ∨
      (s.q.map Pkt.ns).sum < 8 * lastPtime ptime ops ∧ ∃ p, s.q.head? = some p ∧
        tsl (u32 (dt + s.tsdelta.getD 0)) (u32 (p.ts + max 320 (16 * lastPtime ptime ops))) = true) := by
  have hz := run_sizes hr ptime rfl (by
    show (if ptime * 8 * 2 < 320 then 320 else ptime * 8 * 2) = _
    split <;> omega)
  rw [Nat.mul_comm 8, Nat.mul_comm 16, ← hz.1, ← hz.2]
  have hS := run_sok (new_ok ptime) hok hr
  have ht := hS.total
  unfold get at hg
  cases hq : s.q with
  | nil => rw [hq] at hg; simp only [Except.ok.injEq, Prod.mk.injEq] at hg; exact ⟨hg.1.symm, .inl rfl⟩
  | cons p q =>
    simp only [hq] at hg
    split at hg
    · next hc =>
      simp only [Except.ok.injEq, Prod.mk.injEq] at hg
      refine ⟨hg.1.symm, .inr (.inr ⟨?_, p, rfl, hc.2⟩)⟩
      have h1 := hc.1
      rw [ht, hq] at h1
      unfold sumNs at h1
      omega
    · split at hg
      · cases hg
      · next hcol =>
        simp only [Except.ok.injEq, Prod.mk.injEq] at hg
        refine ⟨hg.1.symm, .inr (.inl ?_)⟩
        unfold collect at hcol
        split at hcol
        · split at hcol
          · cases hcol
          · cases hcol
          · split at hcol
            · assumption
            · split at hcol
              · cases hcol
              · split at hcol <;> cases hcol
        · split at hcol
          · split at hcol <;> cases hcol
          · cases hcol
      · next hcol => simp at hg

/-- **C10**: shape of a packet sent after any history.  It fits into the buffer; it starts with the
first buffered sample (timestamp, payload type and SSRC of the oldest packet); it is never longer
than the packetisation time rounded up to whole frames; it is shorter only if nothing more is
buffered, the following audio is not contiguous or of another type, the buffer is full, or the
last frame must not be followed by another one (G.729 comfort noise). -/
theorem C10_packet_shape_partial (ptime : Nat) (ops : List Op) (hok : ∀ o ∈ ops, o.ok)
    {s : St} {evs : List Ev} (hr : run (new ptime) ops = .ok (s, evs)) (dt : Nat) (alloc : Bool)
    {s' : St} {r : Pkt} (hg : get s dt alloc = .ok (s', some r)) :
    ∃ p q, s.q = p :: q ∧ r.ts = p.ts ∧ r.pt = p.pt ∧ r.ssrc = p.ssrc ∧ r.wire.length = r.size ∧
      r.size ≤ 8192 ∧ r.ns ≤ targetOf s.outN p.pt ∧
      (r.ns < targetOf s.outN p.pt →
        r.app = false ∨ s'.q = [] ∨ ∃ x l, s'.q = x :: l ∧
          (u32 (r.ts + r.ns) ≠ x.ts ∨ r.pt ≠ x.pt ∨ r.size + x.ds > 8192)) := by
  have hS := run_sok (new_ok ptime) hok hr
  obtain ⟨s1, o, g1, g2, g3, g4⟩ := get_spec hS dt alloc
  rw [hg] at g1
  simp only [Except.ok.injEq, Prod.mk.injEq] at g1
  obtain ⟨rfl, rfl⟩ := g1
  rcases g4 with ⟨h, -⟩ | ⟨p, q, r', b, st, k, c1, c2, c3, c4, c5, c6, c7, c8, c9, c10, c11, c12, c13, c14, c15⟩
  · cases h
  · cases c2
    refine ⟨p, q, c1, c11, c12, ?_, ?_, c3.szc, c14, c15⟩
    · have hQ := hS.q p (by rw [c1]; simp)
      have e1 := hQ.2.ssrc
      have e2 := c3.hok.ssrc
      show r'.ssrc = p.ssrc
      rw [← e1, ← e2, c13]
    · unfold Pkt.wire
      rw [List.length_take, List.length_append]
      have h1 := c3.len
      have h2 := c3.szc
      show min r'.size ((setSeq r' k).hdr.length + r'.body.length) = r'.size
      have : (setSeq r' k).hdr.length = r'.hdr.length := by simp [setSeq, Rtp.length_poke]
      rw [this]
      omega

/-- **C10**: a packet sent without padding is correctly described by its own header: parsing the
datagram yields its timestamp, sequence number, SSRC, payload type, and exactly its payload. -/
theorem C10_wire_partial (ptime : Nat) (ops : List Op) (hok : ∀ o ∈ ops, o.ok)
    {s : St} {evs : List Ev} (hr : run (new ptime) ops = .ok (s, evs)) (dt : Nat) (alloc : Bool)
    {s' : St} {r : Pkt} (hg : get s dt alloc = .ok (s', some r)) (hpad : ¬ hasPad r.hdr) :
    ∃ i, Rtp.parse r.wire = .ok (.ok i) ∧ i.seq = r.seq ∧ i.ts = r.ts ∧ i.ssrc = r.ssrc ∧
      i.pt = r.pt ∧ (r.wire.drop i.dataOffset).take i.dataSize = r.payload := by
  have hS := run_sok (new_ok ptime) hok hr
  obtain ⟨s1, o, g1, g2, g3, g4⟩ := get_spec hS dt alloc
  rw [hg] at g1
  simp only [Except.ok.injEq, Prod.mk.injEq] at g1
  obtain ⟨rfl, rfl⟩ := g1
  rcases g4 with ⟨h, -⟩ | ⟨p, q, r', b, st, k, c1, c2, c3, c4, -⟩
  · cases h
  · cases c2
    have hl : (setSeq r' k).hdr.length = r'.hdr.length := by simp [setSeq, Rtp.length_poke]
    refine wire_parse ⟨?_, ?_, ?_, c3.szc, c3.tsb, setSeq_hok c3.hok c3.h12 c4, c3.known⟩ hpad
    · rw [hl]; exact c3.len
    · rw [hl]; exact c3.h12
    · rw [hl]; exact c3.sz

/-- **C10**: the packets sent by a resizer are numbered consecutively, whatever is received. -/
theorem C10_consecutive_sequence (ptime : Nat) (ops : List Op) (hok : ∀ o ∈ ops, o.ok)
    {s : St} {evs : List Ev} (hr : run (new ptime) ops = .ok (s, evs)) :
    ∃ k, ∀ (i : Nat) (h : i < (emitted evs).length), (emitted evs)[i].seq = (k + i) % 65536 := by
  obtain ⟨k, hk, hc⟩ := (run_seq ops (new ptime) (new_ok ptime) hok s evs hr).2 rfl
  exact ⟨k, consecutive_get hk hc⟩

/-! ### A concrete stream -/

/-- Big-endian bytes. -/
def be (n k : Nat) : List UInt8 := (List.range k).map fun i => UInt8.ofNat (n / 256 ^ (k - 1 - i) % 256)

/-- An RTP datagram: first byte, payload type, sequence number, timestamp, SSRC, the rest. -/
def dg (b0 pt seq ts ssrc : Nat) (rest : List UInt8) : List UInt8 :=
  UInt8.ofNat b0 :: UInt8.ofNat pt :: be seq 2 ++ be ts 4 ++ be ssrc 4 ++ rest

/-- Reception of a datagram into a zeroed buffer. -/
def rx (d : List UInt8) (now : Nat) : Op := .enq d (List.replicate (cap - d.length) 0) now

/-- Three 5 ms packets of G.711, of which the second and third arrive in the wrong order, repacked
to 10 ms. -/
def sample : List Op :=
  [rx (dg 128 0 7 1000 1 (List.replicate 40 1)) 0, rx (dg 128 0 9 1080 1 (List.replicate 40 3)) 0,
   rx (dg 128 0 8 1040 1 (List.replicate 40 2)) 0, .get 0 true, .get 2000 true]

theorem sample_ok : ∀ o ∈ sample, o.ok := by decide +kernel

theorem sample_run : (run (new 10) sample).toOption.map (fun x => (emitted x.2).map
      (fun p => (p.ts, p.seq, p.payload))) =
    some [(1000, 7, List.replicate 40 1 ++ List.replicate 40 2),
      (1080, 8, List.replicate 40 3)] := by decide +kernel

/-- The sample is one stream, so all theorems above apply to it. -/
example : OneStream 1000 1 sample := by
  intro d j now h i hp n hn
  have key : ∀ o ∈ sample, ∀ d j now, o = Op.enq d j now →
      (match Rtp.parse d with
       | .ok (.ok i) => decide (i.ssrc = 1 ∧ rel 1000 i.ts + i.nsamples.getD 0 < 2147483648)
       | _ => true) = true := by
    intro o ho d j now he
    simp only [sample, List.mem_cons, List.not_mem_nil, or_false] at ho
    rcases ho with rfl | rfl | rfl | rfl | rfl <;> cases he <;> decide +kernel
  have := key _ h d j now rfl
  rw [hp] at this
  simpa [hn] using this

/-! ### Where the full claim fails -/

/-- **C10** is false for padded packets: two valid RTP packets, the first one with four bytes of
padding, are merged into a packet that is not valid RTP any more (the padding bit is kept but the
padding is overwritten by audio, and the length counts it). -/
theorem C10_padding_counterexample :
    ∃ ops : List Op, (∀ o ∈ ops, o.ok) ∧
      (∀ d j now, Op.enq d j now ∈ ops → ∃ i, Rtp.parse d = .ok (.ok i)) ∧
      ∃ s evs r, run (new 10) ops = .ok (s, evs) ∧ emitted evs = [r] ∧
        r.payload = List.replicate 40 1 ++ List.replicate 40 2 ∧
        Rtp.parse r.wire = .ok (.error .ips) := by
  let d1 := dg 160 0 7 1000 1 (List.replicate 40 1 ++ [0, 0, 0, 4])
  let d2 := dg 128 0 8 1040 1 (List.replicate 40 2)
  refine ⟨[rx d1 0, rx d2 0, .get 0 true], by decide +kernel, ?_, ?_⟩
  · intro d j now h
    simp only [List.mem_cons, List.not_mem_nil, or_false, rx, Op.enq.injEq, reduceCtorEq] at h
    have : (match Rtp.parse d with | .ok (.ok _) => true | _ => false) = true := by
      rcases h with ⟨rfl, -, -⟩ | ⟨rfl, -, -⟩ <;> decide +kernel
    revert this
    split
    · next i hi => exact fun _ => ⟨i, hi⟩
    · intro hc; cases hc
  · have key : (match run (new 10) [rx d1 0, rx d2 0, .get 0 true] with
      | .ok (_, evs) => (match emitted evs with
        | [r] => decide (r.payload = List.replicate 40 1 ++ List.replicate 40 2) &&
          (match Rtp.parse r.wire with | .ok (.error .ips) => true | _ => false)
        | _ => false)
      | .error _ => false) = true := by decide +kernel
    revert key
    split
    · next s evs h =>
      split
      · next r hr =>
        intro key
        simp only [Bool.and_eq_true, decide_eq_true_eq] at key
        refine ⟨s, evs, r, h, hr, key.1, ?_⟩
        have k2 := key.2
        revert k2
        split
        · next hh => exact fun _ => hh
        · intro hc; cases hc
      · intro hc; cases hc
    · intro hc; cases hc

/-- **C10** is false for G.722 (RFC 3551: one byte per timestamp unit): a packet of 160 bytes at
timestamp 1000 is sent as 40 bytes at 1000 followed by 120 bytes at 1080, so that the 41st byte,
due at 1040, is played at 1080 and the two packets overlap in time. -/
theorem C10_g722_counterexample :
    let ops := [rx (dg 128 9 7 1000 1 (List.replicate 160 1)) 0, .get 0 true, .get 0 true]
    (∀ o ∈ ops, o.ok) ∧
    (run (new 10) ops).toOption.map (fun x => (emitted x.2).map (fun p => (p.ts, p.payload.length))) =
      some [(1000, 40), (1080, 120)] := by
  refine ⟨by decide +kernel, by decide +kernel⟩

/-- **C10**: the order is not kept when the SSRC changes.  While the second half of a packet of
the old source is waiting, a packet of the new source with an earlier timestamp is sent between
the two halves, although both halves were accepted before. -/
theorem C10_ssrc_change_counterexample :
    let ops := [rx (dg 128 0 7 1000 1 (List.replicate 160 1)) 0, .get 0 true,
      rx (dg 128 0 70 500 2 (List.replicate 80 2)) 0, .get 0 true, .get 0 true]
    (∀ o ∈ ops, o.ok) ∧
    (run (new 10) ops).toOption.map (fun x => (emitted x.2).map (fun p => (p.ssrc, p.ts, p.payload))) =
      some [(1, 1000, List.replicate 80 1), (2, 500, List.replicate 80 2),
        (1, 1080, List.replicate 80 1)] := by
  refine ⟨by decide +kernel, by decide +kernel⟩

end Verif.Resizer
