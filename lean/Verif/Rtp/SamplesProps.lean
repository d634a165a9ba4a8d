import Verif.Rtp.Props

/-!
# C07: the duration attributed to a packet

The specification uses the payload formats of RFC 3551 and none of the functions of the model.
-/

namespace Verif.Rtp

/-- A G.723.1 payload read frame by frame (RFC 3551, 4.5.3): the two low bits of the first byte of a frame give its
length, 24, 20 or 4 bytes; 3 is reserved.  The last frame may be cut short.  `some k`: there are `k` frames; `none`:
there is a frame of unknown length. -/
inductive Frames723 : List UInt8 → Option Nat → Prop
  | nil : Frames723 [] (some 0)
  | hi {b l r} (h : b.toNat % 4 = 0) (hr : Frames723 (l.drop 23) r) : Frames723 (b :: l) (r.map (· + 1))
  | lo {b l r} (h : b.toNat % 4 = 1) (hr : Frames723 (l.drop 19) r) : Frames723 (b :: l) (r.map (· + 1))
  | sid {b l r} (h : b.toNat % 4 = 2) (hr : Frames723 (l.drop 3) r) : Frames723 (b :: l) (r.map (· + 1))
  | bad {b l} (h : b.toNat % 4 = 3) : Frames723 (b :: l) none

/-- The number of samples (timestamp units) of a payload; `none` if not known. -/
def Duration (pt : Nat) (pl : List UInt8) (n : Option Nat) : Prop :=
  match pt with
  | 0 | 8 | 9 => n = some pl.length
  -- any number of 10-byte frames of 10 ms and perhaps a shorter one at the end
  | 18 => ∃ k, n = some (80 * k) ∧ 10 * k < pl.length + 10 ∧ pl.length ≤ 10 * k
  -- 33-byte frames of 20 ms
  | 3 => ∃ k, n = some (160 * k) ∧ 33 * k ≤ pl.length ∧ pl.length < 33 * k + 33
  | 4 => ∃ k, Frames723 pl k ∧ n = k.map (· * 240)
  | _ => n = none

theorem g723_frames {buf : List UInt8} {off maxlen : Nat} (h : off + maxlen ≤ buf.length) :
    ∀ (k pos samples : Nat), maxlen - pos ≤ k → ∃ r, Frames723 (((buf.drop off).take maxlen).drop pos) r ∧
      g723Samples buf off maxlen pos samples = .ok (r.map (fun j => samples + j * 240))
  | 0, pos, samples, hk => by
    unfold g723Samples
    rw [dif_neg (by omega), List.drop_eq_nil_of_le (by rw [List.length_take, List.length_drop]; omega)]
    exact ⟨_, .nil, by simp⟩
  | k + 1, pos, samples, hk => by
    unfold g723Samples
    by_cases hp : pos < maxlen
    · rw [dif_pos hp, rd_ok (by omega)]
      have hl : pos < ((buf.drop off).take maxlen).length := by rw [List.length_take, List.length_drop]; omega
      have hb : byte buf (off + pos) = (((buf.drop off).take maxlen)[pos]'hl).toNat := by
        rw [List.getElem_take, List.getElem_drop]
        unfold byte
        rw [List.getD_eq_getElem?_getD, List.getElem?_eq_getElem (by omega)]; rfl
      rw [List.drop_eq_getElem_cons hl]
      simp only
      have next : ∀ m, 0 < m → ∃ r, Frames723 ((((buf.drop off).take maxlen).drop (pos + 1)).drop (m - 1)) r ∧
          g723Samples buf off maxlen (pos + m) (samples + 240) = .ok ((r.map (· + 1)).map (fun j => samples + j * 240)) := by
        intro m hm
        obtain ⟨r, e1, e2⟩ := g723_frames h k (pos + m) (samples + 240) (by omega)
        refine ⟨r, ?_, ?_⟩
        · rw [List.drop_drop]
          have : pos + 1 + (m - 1) = pos + m := by omega
          rw [this]; exact e1
        · rw [e2, Option.map_map]
          congr 2
          funext j
          simp only [Function.comp]
          rw [Nat.add_mul]; omega
      have h4 : byte buf (off + pos) % 4 = 0 ∨ byte buf (off + pos) % 4 = 1 ∨ byte buf (off + pos) % 4 = 2 ∨
          byte buf (off + pos) % 4 = 3 := by omega
      rcases h4 with h4 | h4 | h4 | h4
      · obtain ⟨r, e1, e2⟩ := next 24 (by omega)
        refine ⟨_, .hi (by rw [← hb]; exact h4) e1, ?_⟩
        have hg : g723Len (byte buf (off + pos)) = some 24 := by simp [g723Len, h4]
        split
        · next hn => rw [hg] at hn; cases hn
        · next n hn => rw [hg] at hn; cases hn; exact e2
      · obtain ⟨r, e1, e2⟩ := next 20 (by omega)
        refine ⟨_, .lo (by rw [← hb]; exact h4) e1, ?_⟩
        have hg : g723Len (byte buf (off + pos)) = some 20 := by simp [g723Len, h4]
        split
        · next hn => rw [hg] at hn; cases hn
        · next n hn => rw [hg] at hn; cases hn; exact e2
      · obtain ⟨r, e1, e2⟩ := next 4 (by omega)
        refine ⟨_, .sid (by rw [← hb]; exact h4) e1, ?_⟩
        have hg : g723Len (byte buf (off + pos)) = some 4 := by simp [g723Len, h4]
        split
        · next hn => rw [hg] at hn; cases hn
        · next n hn => rw [hg] at hn; cases hn; exact e2
      · refine ⟨none, .bad (by rw [← hb]; exact h4), ?_⟩
        have hg : g723Len (byte buf (off + pos)) = none := by simp [g723Len, h4]
        split
        · rfl
        · next n hn => rw [hg] at hn; cases hn
    · rw [dif_neg hp, List.drop_eq_nil_of_le (by rw [List.length_take, List.length_drop]; omega)]
      exact ⟨_, .nil, by simp⟩

/-- **C07**: the duration of an accepted packet with a payload is the one of its payload format. -/
theorem C07_duration (b : List UInt8) (i : Info) (h : parse b = .ok (.ok i)) (hne : i.dataSize ≠ 0) :
    Duration i.pt ((b.drop i.dataOffset).take i.dataSize) i.nsamples := by
  rcases parse_spec b with ⟨_, e, h2⟩ | ⟨_, h1, j, h2, h3⟩
  · rw [h] at h2; cases h2
  · rw [h] at h2
    simp only [Except.ok.injEq] at h2
    subst h2
    obtain ⟨a1, a2, -, -, -, -, -, a8, -⟩ := h3
    have hc := a8 hne
    have hw := h1.2.2.2.1
    have hin : i.dataOffset + i.dataSize ≤ b.length := by omega
    have hlen : ((b.drop i.dataOffset).take i.dataSize).length = i.dataSize := by
      rw [List.length_take, List.length_drop]; omega
    unfold calcSamples PCMU PCMA G729 GSM G723 G722 at hc
    unfold Duration
    split at hc
    · next hp =>
      simp only [Except.ok.injEq] at hc
      rcases hp with hp | hp <;> rw [hp] <;> simp only [hlen] <;> exact hc.symm
    split at hc
    · next hp =>
      simp only [Except.ok.injEq] at hc
      rw [hp]
      simp only [hlen]
      by_cases hm : i.dataSize % 10 = 0
      · rw [if_pos hm] at hc
        exact ⟨i.dataSize / 10, by rw [← hc]; congr 1; omega, by omega, by omega⟩
      · rw [if_neg hm] at hc
        exact ⟨i.dataSize / 10 + 1, by rw [← hc]; congr 1; omega, by omega, by omega⟩
    split at hc
    · next hp =>
      simp only [Except.ok.injEq] at hc
      rw [hp]
      simp only [hlen]
      exact ⟨i.dataSize / 33, by rw [← hc], by omega, by omega⟩
    split at hc
    · next hp =>
      rw [hp]
      simp only
      obtain ⟨r, e1, e2⟩ := g723_frames hin _ 0 0 (Nat.le_refl _)
      rw [e2] at hc
      simp only [Except.ok.injEq] at hc
      exact ⟨r, by simpa using e1, by rw [← hc]; congr 1; funext j; omega⟩
    split at hc
    · next hp =>
      simp only [Except.ok.injEq] at hc
      rw [hp]
      simp only [hlen]
      exact hc.symm
    · simp only [Except.ok.injEq] at hc
      split <;> first | omega | exact hc.symm

/-- Not vacuous: a G.729 frame followed by a two-byte silence descriptor lasts 20 ms. -/
example : Duration 18 (List.replicate 12 0) (some 160) := ⟨2, rfl, by decide, by decide⟩
/-- Two G.723.1 silence descriptors. -/
example : Duration 4 [2, 7, 7, 7, 2, 7, 7, 7] (some 480) := by
  refine ⟨some 2, ?_, rfl⟩
  have h3 : Frames723 [2, 7, 7, 7] (some 1) := Frames723.sid (r := some 0) (l := [7, 7, 7]) (by decide) .nil
  exact Frames723.sid (r := some 1) (l := [7, 7, 7, 2, 7, 7, 7]) (by decide) h3

end Verif.Rtp
