import Verif.Eaud.Decoder
import Verif.G711.Props

/-!
# C48: decoding stays inside its buffers
-/

namespace Verif.Eaud
open Verif.G711 (Sample)

variable {T K : Type}

/-! ## What is asked -/

/-- The libraries make as many samples of a frame as they should. -/
structure Lib.Ok (l : Lib K) : Prop where
  g729 : ∀ k b, (l.dec729 k b).1.length = 80 ∧ ∀ x ∈ (l.dec729 k b).1, Sample x
  g722 : ∀ k b, (l.dec722 k b).1.length = b.length ∧ ∀ x ∈ (l.dec722 k b).1, Sample x
  gsm : ∀ k b, (l.decGsm k b).1.length = 160 ∧ ∀ x ∈ (l.decGsm k b).1, Sample x

/-- Payloads of whole frames: GSM, if decoded, of 33 bytes (or less than a frame); G.729, if decoded by bcg729, not of
frames of 15 bytes. -/
structure Whole (l : Lib K) (p : Packet T) : Prop where
  gsm : p.info.pt = Rtp.GSM → l.gsm = true → p.payload.length % 33 = 0 ∨ p.payload.length < 33
  g729 : p.info.pt = Rtp.G729 → l.g729 = true → l.bcg = true → fsize729 p.payload.length ≠ some 15
  size : p.payload.length < 4294967296

/-- The conversions to integers that can take place are defined: `R s ps` holds of the values of `sticks` and of the
packets left.  What the time stamps say is used only if they are ahead of the times of arrival. -/
structure Sound (fp : Fp T) (st : T) (R : Nat → List (Packet T) → Prop) : Prop where
  resync : ∀ s p ps, R s (p :: ps) → fp.ahead (u32 (p.info.ts + 4294967296 - s) / 8000) p.time st = true →
    ∃ s', fp.resync p.info.ts p.time st = some s' ∧ R s' (p :: ps)
  half : ∀ s p ps, R s (p :: ps) → ∀ d, fp.late p.time st d = true → ∃ t, fp.half p.time st d = some t ∧ 0 < t
  next : ∀ s p ps, R s (p :: ps) → R s ps

def Defined (fp : Fp T) (st : T) (s : Nat) (ps : List (Packet T)) : Prop := ∃ R, Sound fp st R ∧ R s ps

theorem Defined.sound (fp : Fp T) (st : T) : Sound fp st (Defined fp st) where
  resync := fun _ _ _ ⟨R, h, hr⟩ ha => by
    obtain ⟨s', e, hr'⟩ := h.resync _ _ _ hr ha
    exact ⟨s', e, R, h, hr'⟩
  half := fun _ _ _ ⟨_, h, hr⟩ => h.half _ _ _ hr
  next := fun _ _ _ ⟨R, h, hr⟩ => ⟨R, h, h.next _ _ _ hr⟩

/-- Codecs that silence can be made for. -/
def Known (l : Lib K) (pt : Nat) : Prop :=
  pt = Rtp.PCMU ∨ pt = Rtp.PCMA ∨ pt = Rtp.G722 ∨ pt = Rtp.GSM ∨ pt = Rtp.G729 ∧ l.g729 = true

/-- The state of a decoder between calls. -/
structure DInv (l : Lib K) (d : Dec T K) : Prop where
  buf : d.obuf.length = 4096
  smp : ∀ x ∈ d.obuf, Sample x
  pos : d.obp + d.oblen ≤ 4096
  lpt : Known l d.lpt

/-! ## Lemmas -/

theorem sample_zero : Sample 0 := ⟨by decide, by decide⟩

theorem put_ok {mem xs : List Int} {off : Nat} (h : off + xs.length ≤ mem.length) :
    ∃ m, put mem off xs = .ok m ∧ m.length = mem.length ∧ (m.drop off).take xs.length = xs ∧ (m.take off = mem.take off) ∧
      ∀ P : Int → Prop, (∀ x ∈ mem, P x) → (∀ x ∈ xs, P x) → ∀ x ∈ m, P x := by
  refine ⟨mem.take off ++ xs ++ mem.drop (off + xs.length), by unfold put; rw [if_pos h], ?_, ?_, ?_, ?_⟩
  · simp; omega
  · rw [List.append_assoc, List.drop_append_of_le_length (by simp; omega), List.drop_of_length_le (by simp)]
    simp
  · rw [List.append_assoc, List.take_append_of_le_length (by simp; omega), List.take_take, Nat.min_self]
  · intro P h1 h2 x hx
    rcases List.mem_append.1 hx with hx | hx
    · rcases List.mem_append.1 hx with hx | hx
      · exact h1 x (List.mem_of_mem_take hx)
      · exact h2 x hx
    · exact h1 x (List.mem_of_mem_drop hx)

theorem frames_ok {dec : K → List UInt8 → Except Fault (List Int × K)} {fsize ticks : Nat} (ht : 0 < ticks) (hf : 0 < fsize) (inp : List UInt8)
    (hdec : ∀ k b, b.length = fsize → ∃ r, dec k b = .ok r ∧ r.1.length = ticks ∧ ∀ x ∈ r.1, Sample x) (hin : inp.length < 4294967296) :
    ∀ (n pos ibytes obytes : Nat) (k : K) (mem : List Int), 8193 - obytes ≤ n → pos + ibytes = inp.length → ibytes % fsize = 0 →
      mem.length = 4096 → (∀ x ∈ mem, Sample x) → obytes % 2 = 0 → obytes ≤ 8192 → 2 * ticks ≤ 8192 →
      ∃ o k' m, frames dec fsize ticks ht inp pos ibytes obytes k mem = .ok (o, k', m) ∧ m.length = 4096 ∧ (∀ x ∈ m, Sample x) ∧
        o ≤ 8192 ∧ o % 2 = 0 ∧ obytes ≤ o := by
  intro n
  induction n with
  | zero => intro pos ibytes obytes k mem h; omega
  | succ n ih =>
    intro pos ibytes obytes k mem hn hp hm hl hs he ho h2
    rw [frames]
    split
    · rename_i hc
      have hfs : fsize ≤ ibytes := Nat.le_of_dvd hc.1 (Nat.dvd_of_mod_eq_zero hm)
      rw [if_neg (by omega)]
      obtain ⟨r, e1, e2, e3⟩ := hdec k ((inp.drop pos).take fsize) (by simp; omega)
      rw [e1]
      simp only
      obtain ⟨m, p1, p2, -, -, p5⟩ := put_ok (mem := mem) (xs := r.1) (off := obytes / 2) (by omega)
      rw [p1]
      simp only
      have hu : u32 (ibytes + 4294967296 - fsize) = ibytes - fsize := by unfold u32; omega
      rw [hu]
      have hm' : (ibytes - fsize) % fsize = 0 := Nat.mod_eq_zero_of_dvd (Nat.dvd_sub (Nat.dvd_of_mod_eq_zero hm) (Nat.dvd_refl _))
      obtain ⟨o, k', m', q1, q2, q3, q4, q5, q6⟩ := ih (pos + fsize) (ibytes - fsize) (obytes + 2 * ticks) r.2 m (by omega) (by omega) hm'
        (by omega) (p5 _ hs e3) (by omega) (by omega) h2
      exact ⟨o, k', m', q1, q2, q3, q4, q5, by omega⟩
    · exact ⟨obytes, k, mem, rfl, hl, hs, ho, he, Nat.le_refl _⟩

/-- What a call that fills the buffer gives. -/
structure Filled (l : Lib K) (d d' : Dec T K) (j : Int) : Prop where
  buf : d'.obuf.length = 4096
  smp : ∀ x ∈ d'.obuf, Sample x
  lpt : d'.lpt = d.lpt
  stime : d'.stime = d.stime
  sticks : d'.sticks = d.sticks
  nosync : d'.nosync = d.nosync
  obp : d'.obp = d.obp
  oblen : d'.oblen = d.oblen
  le : j ≤ 8192
  even : 0 < j → j.toNat % 2 = 0

theorem flat_ok {l : Lib K} {d : Dec T K} (h : DInv l d) (f : List UInt8 → List Int × Dec T K) (b : List UInt8)
    (hf : ∀ b, (f b).1.length = b.length ∧ ∀ x ∈ (f b).1, Sample x)
    (hd : ∀ b, (f b).2.lpt = d.lpt ∧ (f b).2.stime = d.stime ∧ (f b).2.sticks = d.sticks ∧ (f b).2.nosync = d.nosync ∧ (f b).2.obp = d.obp ∧ (f b).2.oblen = d.oblen) :
    ∃ d' j, flat f d b = .ok (d', j) ∧ Filled l d d' j := by
  unfold flat
  simp only
  generalize hn : (if 8192 < b.length * 2 then 4096 else b.length) = n
  have hn' : n ≤ 4096 ∧ n ≤ b.length := by split at hn <;> omega
  obtain ⟨m, p1, p2, -, -, p5⟩ := put_ok (mem := d.obuf) (xs := (f (b.take n)).1) (off := 0) (by
    rw [(hf _).1, h.buf]; simp; omega)
  rw [p1]
  obtain ⟨a1, a2, a6, a3, a4, a5⟩ := hd (b.take n)
  exact ⟨_, _, rfl, ⟨p2.trans h.buf, p5 _ h.smp (hf _).2, a1, a2, a6, a3, a4, a5, by omega, fun _ => by omega⟩⟩

theorem same_ok {l : Lib K} {d : Dec T K} (h : DInv l d) (t : Nat) {j : Int} (hj : j ≤ 0) : Filled l d { d with tries := t } j :=
  ⟨h.buf, h.smp, rfl, rfl, rfl, rfl, rfl, rfl, by omega, fun h => by omega⟩

theorem decodeFrame_ok {l : Lib K} {d : Dec T K} (hl : l.Ok) (h : DInv l d) {p : Packet T} (hp : Whole l p) :
    ∃ d' j, decodeFrame l d p = .ok (d', j) ∧ Filled l d d' j ∧ (0 < j → Known l p.info.pt) := by
  unfold decodeFrame
  simp only
  split
  · rename_i h1
    obtain ⟨d', j, e, k⟩ := flat_ok h (fun b => (b.map G711.decU, d)) p.payload
      (fun b => ⟨by simp, fun x hx => by
        obtain ⟨c, -, rfl⟩ := List.mem_map.1 hx
        exact (G711.C49_decode_inside.2.2 c).1⟩) (fun b => ⟨rfl, rfl, rfl, rfl, rfl, rfl⟩)
    exact ⟨d', j, e, k, fun _ => .inl h1⟩
  split
  · rename_i _ h1
    obtain ⟨d', j, e, k⟩ := flat_ok h (fun b => (b.map G711.decA, d)) p.payload
      (fun b => ⟨by simp, fun x hx => by
        obtain ⟨c, -, rfl⟩ := List.mem_map.1 hx
        exact (G711.C49_decode_inside.2.2 c).2⟩) (fun b => ⟨rfl, rfl, rfl, rfl, rfl, rfl⟩)
    exact ⟨d', j, e, k, fun _ => .inr (.inl h1)⟩
  split
  · rename_i _ _ h1
    cases hfs : fsize729 p.payload.length with
    | none => exact ⟨_, _, rfl, same_ok h d.tries (by omega), fun h => by omega⟩
    | some fs =>
      simp only
      rcases getCtx l d.tries d.c729 with ⟨_ | k, t⟩
      · exact ⟨_, _, rfl, same_ok h t (by omega), fun h => by omega⟩
      · simp only
        have hfs' : 0 < fs ∧ p.payload.length % fs = 0 ∧ (l.bcg = true → fs ≤ 10) := by
          have h15 := hp.g729 h1.1 h1.2
          unfold fsize729 at hfs h15
          split at hfs
          · cases hfs; exact ⟨by omega, by assumption, fun _ => by omega⟩
          · rename_i a1
            rw [if_neg a1] at h15
            split at hfs
            · cases hfs; exact ⟨by omega, by assumption, fun _ => by omega⟩
            · rename_i a2
              rw [if_neg a2] at h15
              split at hfs
              · rename_i a3
                rw [if_pos a3] at h15
                cases hfs; exact ⟨by omega, by assumption, fun hb => absurd rfl (h15 hb)⟩
              · split at hfs
                · cases hfs; exact ⟨by omega, by assumption, fun _ => by omega⟩
                · cases hfs
        obtain ⟨o, k', m, e, q1, q2, q3, q4, q5⟩ := frames_ok (dec := decode729 l) (by decide : 0 < 80) hfs'.1 p.payload
          (fun k b hb => ⟨l.dec729 k (some b), by unfold decode729; rw [if_neg (fun hh => by have := hfs'.2.2 hh.1; omega)], hl.g729 _ _⟩)
          hp.size 8193 0 p.payload.length 0 k d.obuf (by omega) (by omega) hfs'.2.1 h.buf h.smp rfl (by omega) (by omega)
        rw [e]
        exact ⟨_, _, rfl, ⟨q1, q2, rfl, rfl, rfl, rfl, rfl, rfl, by omega, fun _ => by omega⟩, fun _ => .inr (.inr (.inr (.inr h1)))⟩
  split
  · rename_i _ _ _ h1
    rcases getCtx l d.tries d.c722 with ⟨_ | k, t⟩
    · exact ⟨_, _, rfl, same_ok h t (by omega), fun h => by omega⟩
    · simp only
      obtain ⟨d', j, e, q⟩ := flat_ok h (fun b => ((l.dec722 k b).1, { d with c722 := some (l.dec722 k b).2, tries := t })) p.payload
        (fun b => hl.g722 k b) (fun b => ⟨rfl, rfl, rfl, rfl, rfl, rfl⟩)
      exact ⟨d', j, e, q, fun _ => .inr (.inr (.inl h1.1))⟩
  split
  · rename_i _ _ _ _ h1
    rcases getCtx l d.tries d.cgsm with ⟨_ | k, t⟩
    · exact ⟨_, _, rfl, same_ok h t (by omega), fun h => by omega⟩
    · simp only
      split
      · exact ⟨_, _, rfl, ⟨h.buf, h.smp, rfl, rfl, rfl, rfl, rfl, rfl, by omega, fun h => by omega⟩, fun h => by omega⟩
      · rename_i h33
        have hw := hp.gsm h1.1 h1.2
        obtain ⟨o, k', m, e, q1, q2, q3, q4, q5⟩ := frames_ok (dec := fun k b => .ok (l.decGsm k b)) (by decide : 0 < 160) (by decide : 0 < 33) p.payload
          (fun k b _ => ⟨l.decGsm k b, rfl, hl.gsm _ _⟩)
          hp.size 8193 0 p.payload.length 0 k d.obuf (by omega) (by omega) (by omega) h.buf h.smp rfl (by omega) (by omega)
        rw [e]
        exact ⟨_, _, rfl, ⟨q1, q2, rfl, rfl, rfl, rfl, rfl, rfl, by omega, fun _ => by omega⟩, fun _ => .inr (.inr (.inr (.inl h1.1)))⟩
  split
  · exact ⟨_, _, rfl, same_ok h d.tries (by omega), fun h => by omega⟩
  · exact ⟨_, _, rfl, same_ok h d.tries (by omega), fun h => by omega⟩

theorem zeros_ok {l : Lib K} {d : Dec T K} (h : DInv l d) (t n : Nat) (hn : n ≤ 4096) :
    ∃ d', zeros { d with tries := t } 0 n (n * 2) = .ok (d', ((n * 2 : Nat) : Int)) ∧ Filled l d d' ((n * 2 : Nat) : Int) := by
  obtain ⟨m, p1, p2, -, -, p5⟩ := put_ok (mem := d.obuf) (xs := List.replicate n 0) (off := 0) (by rw [h.buf]; simp; omega)
  unfold zeros
  simp only
  rw [p1]
  exact ⟨_, rfl, ⟨p2.trans h.buf, p5 _ h.smp (fun x hx => by rw [List.eq_of_mem_replicate hx]; exact sample_zero), rfl, rfl, rfl, rfl, rfl, rfl,
    by omega, fun _ => by omega⟩⟩

theorem silence_ok {l : Lib K} {d : Dec T K} (hb : l.g729 = true → l.bcg = true) (h : DInv l d) (n : Nat) (hn : n ≤ 4096) :
    ∃ d', silence l d n = .ok (d', ((n * 2 : Nat) : Int)) ∧ Filled l d d' ((n * 2 : Nat) : Int) := by
  have hz := zeros_ok h d.tries n hn
  unfold silence
  split
  · exact hz
  · rename_i hne
    have h1 : d.lpt = Rtp.G729 ∧ l.g729 = true := by
      rcases h.lpt with e | e | e | e | e
      · exact absurd (.inl e) hne
      · exact absurd (.inr (.inl e)) hne
      · exact absurd (.inr (.inr (.inr (.inl e)))) hne
      · exact absurd (.inr (.inr (.inr (.inr e)))) hne
      · exact e
    rw [if_pos h1, if_pos (hb h1.2)]
    exact hz

/-- What a call gives. -/
structure Step (l : Lib K) (d d' : Dec T K) (o : Out) : Prop where
  inv : DInv l d'
  sub : ∃ a, d.pp = a ++ d'.pp
  stime : d'.stime = d.stime
  out : o ≠ .error
  smp : ∀ x, o = .sample x → Sample x
  eof : o = .eof → d'.pp = [] ∧ d'.oblen = 0
  nosync : d'.nosync = d.nosync
  skip : o = .skip → d.nosync = true

theorem emit_ok {l : Lib K} {d : Dec T K} (h : DInv l d) (hn : d.oblen ≠ 0) :
    ∃ d' x, emit d = .ok (d', .sample x) ∧ DInv l d' ∧ Sample x ∧ d'.pp = d.pp ∧ d'.stime = d.stime ∧ d'.nosync = d.nosync ∧ d'.sticks = d.sticks := by
  have hp := h.pos
  have hlt : d.obp < d.obuf.length := by rw [h.buf]; omega
  unfold emit
  rw [List.getElem?_eq_getElem hlt]
  refine ⟨_, _, rfl, ⟨h.buf, h.smp, ?_, h.lpt⟩, h.smp _ (List.getElem_mem hlt), rfl, rfl, rfl, rfl⟩
  change d.obp + 1 + u32 (d.oblen + 4294967295) ≤ 4096
  unfold u32
  omega

theorem gap_ok {l : Lib K} {d : Dec T K} (hb : l.g729 = true → l.bcg = true) (h : DInv l d) (adv : Bool) {t : Nat} (h0 : 0 < t) (ht : t ≤ 4000) :
    ∃ d' o, gap l d adv t = .ok (d', o) ∧ Step l d d' o ∧ d'.pp = d.pp ∧ d'.sticks = d.sticks := by
  unfold gap
  simp only
  split
  · rename_i hns
    exact ⟨_, _, rfl, ⟨⟨h.buf, h.smp, h.pos, h.lpt⟩, ⟨[], rfl⟩, rfl, by simp, (fun x hx => by cases hx), (fun hx => by cases hx), rfl, fun _ => hns⟩, rfl, rfl⟩
  · obtain ⟨d1, e, f⟩ := silence_ok hb h t (by omega)
    have hpp : d1.pp = d.pp := by
      revert e
      unfold silence zeros
      intro e
      split at e
      · split at e <;> cases e
        rfl
      · split at e
        · split at e
          · split at e <;> cases e
            rfl
          · exfalso
            rename_i hg hbc
            exact hbc (hb hg.2)
        · simp at e
          omega
    rw [e]
    simp only
    rw [if_neg (by omega)]
    have hinv : DInv l { d1 with nticks := if adv then u32 (d.nticks + t) else d.nticks, dticks := d1.dticks + t, oblen := ((t * 2 : Nat) : Int).toNat / 2, obp := 0 } :=
      ⟨f.buf, f.smp, by simp only; omega, by simp only; rw [f.lpt]; exact h.lpt⟩
    obtain ⟨d2, x, e1, e2, e3, e4, e5, e6, e7⟩ := emit_ok hinv (by simp only; omega)
    exact ⟨d2, .sample x, e1, ⟨e2, ⟨[], by rw [e4]; exact hpp.symm⟩, e5.trans f.stime, by simp, (fun y hy => by cases hy; exact e3), (fun hx => by cases hx), e6.trans f.nosync, fun hx => by cases hx⟩, e4.trans hpp, e7.trans f.sticks⟩

theorem trust_ok {fp : Fp T} {l : Lib K} {d : Dec T K} (h : DInv l d) {p : Packet T} {ps : List (Packet T)} {st : T} (hd : Defined fp st d.sticks (p :: ps)) :
    ∃ d', Defined fp st d'.sticks (p :: ps) ∧ trust fp d p st = .ok d' ∧ DInv l d' ∧ d'.pp = d.pp ∧ d'.stime = d.stime ∧ d'.nosync = d.nosync ∧ d'.dticks = d.dticks := by
  unfold trust
  split
  · rename_i ha
    obtain ⟨s, hs, hd'⟩ := (Defined.sound fp st).resync _ _ _ hd ha
    rw [hs]
    exact ⟨{ d with nticks := p.info.ts, sticks := s }, hd', rfl, ⟨h.buf, h.smp, h.pos, h.lpt⟩, rfl, rfl, rfl, rfl⟩
  · exact ⟨d, hd, rfl, h, rfl, rfl, rfl, rfl⟩

theorem refill_ok {fp : Fp T} {l : Lib K} (hl : l.Ok) (hb : l.g729 = true → l.bcg = true) {st : T} : ∀ (ps : List (Packet T)) (d : Dec T K),
    DInv l d → (ps ≠ [] → d.stime = some st) → (∀ p ∈ ps, Whole l p) → Defined fp st d.sticks ps → d.oblen = 0 → d.pp = ps →
    ∃ d' o, refill fp l ps d = .ok (d', o) ∧ Step l d d' o ∧ Defined fp st d'.sticks d'.pp
  | [], d, h, _, _, hdf, h0, hpp => ⟨_, _, rfl, ⟨⟨h.buf, h.smp, h.pos, h.lpt⟩, ⟨[], by simp [hpp]⟩, rfl, by simp, (fun x hx => by cases hx), fun _ => ⟨rfl, h0⟩, rfl, fun hx => by cases hx⟩, hdf⟩
  | p :: ps, d, h, hst, hps, hdf, h0, hpp => by
    have hw := hps p (by simp)
    rw [refill, hst (by simp)]
    simp only
    obtain ⟨d1, df1, e1, i1, p1, s1, n1, t1⟩ := trust_ok (fp := fp) (d := { d with pp := p :: ps, stime := some st }) ⟨h.buf, h.smp, h.pos, h.lpt⟩ hdf
    have s1 : d1.stime = d.stime := s1.trans (hst (by simp)).symm
    rw [e1]
    simp only
    have wrap : ∀ {d2 : Dec T K} {o : Out}, Step l d1 d2 o → Step l d d2 o := fun s =>
      ⟨s.inv, by rw [hpp, ← show d1.pp = p :: ps from p1]; exact s.sub, s.stime.trans s1, s.out, s.smp, s.eof, s.nosync.trans n1, fun hx => n1 ▸ s.skip hx⟩
    split
    · obtain ⟨d2, o, e2, s2, q2, k2⟩ := gap_ok hb i1 true (t := min (p.info.ts - d1.nticks) 4000) (by omega) (by omega)
      exact ⟨d2, o, e2, wrap s2, by rw [k2, q2, show d1.pp = p :: ps from p1]; exact df1⟩
    split
    · rename_i hlate
      obtain ⟨t, ht, ht0⟩ := (Defined.sound fp st).half _ _ _ df1 _ hlate
      rw [ht]
      simp only
      obtain ⟨d2, o, e2, s2, q2, k2⟩ := gap_ok hb i1 false (t := min t 4000) (by omega) (by omega)
      exact ⟨d2, o, e2, wrap s2, by rw [k2, q2, show d1.pp = p :: ps from p1]; exact df1⟩
    · obtain ⟨d2, j, e2, f2, k2⟩ := decodeFrame_ok hl i1 hw
      rw [e2]
      simp only
      have hst2 : d2.stime = d.stime := f2.stime.trans s1
      have hns2 : d2.nosync = d.nosync := f2.nosync.trans n1
      have i1p := i1.pos
      split
      · obtain ⟨d3, o, e3, s3, df3⟩ := refill_ok hl hb ps { d2 with pp := ps }
          ⟨f2.buf, f2.smp, by simp only [f2.obp, f2.oblen]; exact i1p, by simp only [f2.lpt]; exact i1.lpt⟩
          (fun _ => by simp only; rw [hst2]; exact hst (by simp)) (fun q hq => hps q (by simp [hq]))
          (by simp only [f2.sticks]; exact (Defined.sound fp st).next _ _ _ df1)
          (by
            simp only [f2.oblen]
            revert e1; unfold trust; intro e1
            split at e1
            · split at e1 <;> cases e1
              exact h0
            · cases e1; exact h0) rfl
        refine ⟨d3, o, e3, ⟨s3.inv, ?_, s3.stime.trans hst2, s3.out, s3.smp, s3.eof, s3.nosync.trans hns2, fun hx => hns2 ▸ s3.skip hx⟩, df3⟩
        obtain ⟨a, ha⟩ := s3.sub
        exact ⟨p :: a, by rw [hpp, List.cons_append, ← ha]⟩
      · have hle := f2.le
        have hev := f2.even (by omega)
        obtain ⟨d3, x, e3, i3, x3, p3, s3, n3, k3⟩ := emit_ok (l := l) (d := { d2 with lpt := p.info.pt, pp := ps, oblen := j.toNat / 2, obp := 0 })
          ⟨f2.buf, f2.smp, by simp only; omega, k2 (by omega)⟩ (by simp only; omega)
        exact ⟨d3, _, e3, ⟨i3, ⟨[p], by rw [hpp, p3]; rfl⟩, s3.trans hst2, by simp, (fun y hy => by cases hy; exact x3), (fun hx => by cases hx), n3.trans hns2, fun hx => by cases hx⟩, by
          rw [k3, p3]; simp only [f2.sticks]; exact (Defined.sound fp st).next _ _ _ df1⟩

/-! ## The property -/

theorem get_ok {fp : Fp T} {l : Lib K} (hl : l.Ok) (hb : l.g729 = true → l.bcg = true) {st : T} {d : Dec T K} (h : DInv l d)
    (hst : d.pp ≠ [] → d.stime = some st) (hps : ∀ p ∈ d.pp, Whole l p) (hdf : Defined fp st d.sticks d.pp) :
    ∃ d' o, get fp l d = .ok (d', o) ∧ Step l d d' o ∧ Defined fp st d'.sticks d'.pp := by
  unfold get
  split
  · exact refill_ok hl hb _ d h hst hps hdf (by assumption) rfl
  · rename_i h0
    obtain ⟨d3, x, e3, i3, x3, p3, s3, n3, k3⟩ := emit_ok h h0
    exact ⟨d3, _, e3, ⟨i3, ⟨[], by rw [p3]; rfl⟩, s3, by simp, (fun y hy => by cases hy; exact x3), (fun hx => by cases hx), n3, fun hx => by cases hx⟩, by rw [k3, p3]; exact hdf⟩

theorem new_inv (l : Lib K) (sp : List (Packet T)) (nosync : Bool) : DInv l (Dec.new sp nosync : Dec T K) := by
  have hz : ∀ x ∈ List.replicate 4096 (0 : Int), Sample x := fun x hx => by rw [List.eq_of_mem_replicate hx]; exact sample_zero
  cases sp with
  | nil => exact ⟨List.length_replicate .., hz, by change 0 + 0 ≤ 4096; omega, .inl rfl⟩
  | cons p ps => exact ⟨List.length_replicate .., hz, by change 0 + 0 ≤ 4096; omega, .inl rfl⟩

/-- What can be had.  For all packets of whole frames, whatever their sizes, codecs, numbers, time stamps and times (as far
as the conversions are defined): any number of calls reads within the payloads and writes within the buffer, none returns
an error, samples are sixteen bit numbers.  Without G.729 or with bcg729. -/
theorem C48_safe_partial (fp : Fp T) (l : Lib K) (hl : l.Ok) (hb : l.g729 = true → l.bcg = true) (sp : List (Packet T)) (nosync : Bool)
    (hps : ∀ p ∈ sp, Whole l p) (hdf : ∀ q, sp.head? = some q → Defined fp q.time q.info.ts sp) (n : Nat) :
    ∃ d os, gets fp l n (Dec.new sp nosync) = .ok (d, os) ∧ os.length = n ∧
      ∀ o ∈ os, o ≠ .error ∧ (o = .skip → nosync = true) ∧ ∀ x, o = .sample x → Sample x := by
  cases sp with
  | nil =>
    have : ∀ n, gets fp l n (Dec.new [] nosync : Dec T K) = .ok (Dec.new [] nosync, List.replicate n .eof) := by
      intro n
      induction n with
      | zero => rfl
      | succ n ih =>
        rw [gets]
        change (match gets fp l n (Dec.new [] nosync) with
          | .error f => .error f
          | .ok (d, xs) => .ok (d, Out.eof :: xs) : Except Fault _) = _
        rw [ih]
        rfl
    refine ⟨_, _, this n, by simp, fun o ho => ?_⟩
    rw [List.eq_of_mem_replicate ho]
    exact ⟨by simp, by simp, by simp⟩
  | cons p ps =>
    have main : ∀ (n : Nat) (d : Dec T K), DInv l d → d.stime = some p.time → (∀ q ∈ d.pp, Whole l q) → Defined fp p.time d.sticks d.pp →
        ∃ d' os, gets fp l n d = .ok (d', os) ∧ os.length = n ∧
          ∀ o ∈ os, o ≠ .error ∧ (o = .skip → d.nosync = true) ∧ ∀ x, o = .sample x → Sample x := by
      intro n
      induction n with
      | zero => intro d _ _ _ _; exact ⟨d, [], rfl, rfl, by simp⟩
      | succ n ih =>
        intro d h1 h2 h3 h4
        obtain ⟨d1, o, e1, s1, df1⟩ := get_ok (fp := fp) hl hb h1 (fun _ => h2) h3 h4
        obtain ⟨a, ha⟩ := s1.sub
        obtain ⟨d2, os, e2, l2, o2⟩ := ih d1 s1.inv (s1.stime.trans h2) (fun q hq => h3 q (by rw [ha]; simp [hq])) df1
        refine ⟨d2, o :: os, by rw [gets, e1]; simp only; rw [e2], by simp [l2], fun x hx => ?_⟩
        rcases List.mem_cons.1 hx with rfl | hx
        · exact ⟨s1.out, s1.skip, s1.smp⟩
        · have := o2 x hx
          rw [s1.nosync] at this
          exact this
    obtain ⟨d, os, h1, h2, h3⟩ := main n (Dec.new (p :: ps) nosync) (new_inv _ _ _) rfl hps (hdf p rfl)
    exact ⟨d, os, h1, h2, h3⟩

end Verif.Eaud
