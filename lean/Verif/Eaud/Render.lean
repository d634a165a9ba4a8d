import Verif.Eaud.DecProps
import Mathlib.Tactic.Linarith
import Mathlib.Tactic.NormNum

/-!
# What is decoded, and where decoding goes wrong (C48)
-/

namespace Verif.Eaud
open Verif.G711 (Sample)

variable {T K : Type}

/-- The samples of a packet (`C49_standard` says how `decU` and `decA` relate to what G.711 says). -/
def samples (p : Packet T) : List Int := p.payload.map (if p.info.pt = Rtp.PCMU then G711.decU else G711.decA)

/-- What should be heard: at each time the samples of the packet that has the time stamp, silence if there is none. -/
def render : Nat → List (Packet T) → List Int
  | _, [] => []
  | n, p :: ps => List.replicate (p.info.ts - n) 0 ++ samples p ++ render (p.info.ts + p.payload.length) ps

/-- A stream of PCMU and PCMA packets of at most half a second each that do not overlap.  By its time of arrival a packet is
never `ahead` of its time stamp (by more than one second) and never `late` (by more than a fifth of a second). -/
def Timely (fp : Fp T) (t0 : T) (ts0 : Nat) : Nat → List (Packet T) → Prop
  | _, [] => True
  | n, p :: ps => n ≤ p.info.ts ∧ p.info.ts + p.payload.length < 4294967296 ∧ (p.info.pt = Rtp.PCMU ∨ p.info.pt = Rtp.PCMA) ∧
      0 < p.payload.length ∧ p.payload.length ≤ 4096 ∧ fp.ahead ((p.info.ts - ts0) / 8000) p.time t0 = false ∧
      fp.late p.time t0 (p.info.ts - ts0) = false ∧ Timely fp t0 ts0 (p.info.ts + p.payload.length) ps

/-- Between packets. -/
structure Ready (t0 : T) (ts0 n : Nat) (ps : List (Packet T)) (d : Dec T K) : Prop where
  pp : d.pp = ps
  oblen : d.oblen = 0
  nticks : d.nticks = n
  sticks : d.sticks = ts0
  dticks : d.dticks = n - ts0
  lpt : d.lpt = Rtp.PCMU ∨ d.lpt = Rtp.PCMA
  stime : d.stime = some t0
  nosync : d.nosync = false
  buf : d.obuf.length = 4096
  le : ts0 ≤ n

theorem gets_add (fp : Fp T) (l : Lib K) : ∀ (a b : Nat) (d d1 d2 : Dec T K) (xs ys : List Out), gets fp l a d = .ok (d1, xs) →
    gets fp l b d1 = .ok (d2, ys) → gets fp l (a + b) d = .ok (d2, xs ++ ys)
  | 0, b, d, d1, d2, xs, ys, h1, h2 => by
    cases h1
    rw [Nat.zero_add, h2]; rfl
  | a + 1, b, d, d1, d2, xs, ys, h1, h2 => by
    rw [gets] at h1
    rw [show a + 1 + b = (a + b) + 1 by omega, gets]
    cases hg : get fp l d with
    | error f => rw [hg] at h1; cases h1
    | ok r =>
      obtain ⟨d', x⟩ := r
      rw [hg] at h1
      simp only at h1 ⊢
      cases hgs : gets fp l a d' with
      | error f => rw [hgs] at h1; cases h1
      | ok r =>
        obtain ⟨d'', xs'⟩ := r
        rw [hgs] at h1
        cases h1
        rw [gets_add fp l a b d' d1 d2 xs' ys hgs h2]
        rfl

/-- A full buffer is given out. -/
theorem drain (fp : Fp T) (l : Lib K) : ∀ (xs : List Int) (d : Dec T K), d.oblen = xs.length → d.oblen < 4294967296 →
    (d.obuf.drop d.obp).take xs.length = xs → gets fp l xs.length d = .ok ({ d with obp := d.obp + xs.length, oblen := 0 }, xs.map .sample)
  | [], d, h, _, _ => by
    simp only [List.length_nil] at h
    simp only [List.length_nil, gets, List.map_nil, Nat.add_zero]
    rw [← h]
  | x :: xs, d, h, hlt, hx => by
    have hx0 : d.obuf[d.obp]? = some x := by
      have := congrArg (·[0]?) hx
      simpa using this
    have hxs : (d.obuf.drop (d.obp + 1)).take xs.length = xs := by
      have := congrArg List.tail hx
      rw [List.length_cons, List.tail_cons] at this
      rw [← this, List.length_tail, List.length_take]
      rw [← List.drop_one, List.drop_take, List.drop_drop, Nat.add_sub_cancel]
      have hl := congrArg List.length hx
      rw [List.length_take] at hl
      simp only [List.length_cons] at hl
      congr 1
      simp only [List.length_drop] at hl ⊢
      omega
    rw [List.length_cons, gets, get, if_neg (by rw [h]; simp), emit, hx0]
    simp only
    have hl : u32 (d.oblen + 4294967295) = xs.length := by
      rw [h]; simp only [List.length_cons] at h ⊢; unfold u32; omega
    have := drain fp l xs { d with oblen := u32 (d.oblen + 4294967295), obp := d.obp + 1 } hl (by
      change u32 _ < _
      rw [hl]; rw [h, List.length_cons] at hlt; omega) hxs
    rw [this]
    simp only [List.map_cons]
    rw [show d.obp + 1 + xs.length = d.obp + (xs.length + 1) by omega]

theorem gets_same (fp : Fp T) (l : Lib K) {d d' : Dec T K} {n : Nat} (hn : 0 < n) (h : get fp l d = emit d') (h0 : d'.oblen ≠ 0) :
    gets fp l n d = gets fp l n d' := by
  obtain ⟨n, rfl⟩ : ∃ m, n = m + 1 := ⟨n - 1, by omega⟩
  rw [gets, gets, h, get, if_neg h0]

theorem trust_same {fp : Fp T} {t0 : T} {ts0 n : Nat} {p : Packet T} {ps : List (Packet T)} {d : Dec T K} (h : Ready t0 ts0 n (p :: ps) d)
    (hn : ts0 ≤ p.info.ts) (h32 : p.info.ts < 4294967296) (ha : fp.ahead ((p.info.ts - ts0) / 8000) p.time t0 = false) :
    trust fp { d with pp := p :: ps } p t0 = .ok d := by
  unfold trust
  have : u32 (p.info.ts + 4294967296 - d.sticks) = p.info.ts - ts0 := by rw [h.sticks]; unfold u32; omega
  simp only
  rw [this, ha, if_neg (by simp), ← h.pp]

theorem refill_eq (fp : Fp T) (l : Lib K) {t0 : T} {ts0 n : Nat} {p : Packet T} {ps : List (Packet T)} {d : Dec T K} (h : Ready t0 ts0 n (p :: ps) d)
    (hn : ts0 ≤ p.info.ts) (h32 : p.info.ts < 4294967296) (ha : fp.ahead ((p.info.ts - ts0) / 8000) p.time t0 = false) :
    get fp l d = if d.nticks < p.info.ts then gap l d true (min (p.info.ts - d.nticks) 4000)
        else if fp.late p.time t0 d.dticks then
          match fp.half p.time t0 d.dticks with
          | none => .error .ub
          | some t => gap l d false (min t 4000)
        else
          match decodeFrame l d p with
          | .error f => .error f
          | .ok (d, j) =>
            if j ≤ 0 then refill fp l ps { d with pp := ps }
            else emit { d with lpt := p.info.pt, pp := ps, oblen := j.toNat / 2, obp := 0 } := by
  have ht := trust_same h hn h32 ha
  have hs := h.stime
  rw [get, if_pos h.oblen, h.pp, refill]
  split
  · rename_i hnone; rw [hs] at hnone; cases hnone
  · rename_i st hst
    rw [hs] at hst
    cases hst
    rw [ht]
    rfl

/-- A gap is filled. -/
theorem fill_gap (fp : Fp T) (l : Lib K) {t0 : T} {ts0 : Nat} {p : Packet T} {ps : List (Packet T)} (h32 : p.info.ts < 4294967296)
    (ha : fp.ahead ((p.info.ts - ts0) / 8000) p.time t0 = false) : ∀ (g n : Nat) (d : Dec T K), Ready t0 ts0 n (p :: ps) d → n + g = p.info.ts →
    ∃ d', gets fp l g d = .ok (d', (List.replicate g 0).map .sample) ∧ Ready t0 ts0 p.info.ts (p :: ps) d' := by
  intro g
  induction g using Nat.strong_induction_on with
  | _ g ih =>
    intro n d h hg
    by_cases h0 : g = 0
    · subst h0
      exact ⟨d, rfl, by rw [← hg]; exact h⟩
    have hle := h.le
    have e := refill_eq fp l h (by omega) h32 ha
    rw [if_pos (by rw [h.nticks]; omega), h.nticks] at e
    generalize ht : min (p.info.ts - n) 4000 = t at e
    obtain ⟨m, p1, p2, p3, -, -⟩ := put_ok (mem := d.obuf) (xs := List.replicate t 0) (off := 0) (by rw [h.buf]; simp; omega)
    have hsil : silence l d t = .ok ({ d with obuf := m }, ((t * 2 : Nat) : Int)) := by
      unfold silence
      rw [if_pos (by rcases h.lpt with h | h <;> simp [h])]
      unfold zeros
      rw [p1]
    unfold gap at e
    simp only [h.nosync, Bool.false_eq_true, if_false, if_true] at e
    rw [hsil] at e
    simp only at e
    rw [if_neg (by omega)] at e
    have hj : (((t * 2 : Nat) : Int)).toNat / 2 = t := by omega
    rw [hj] at e
    have e2 := gets_same (n := t) fp l (by omega) e (by simp only; omega)
    have e3 := drain fp l (List.replicate t 0) (d := { d with obuf := m, nticks := u32 (d.nticks + t), dticks := d.dticks + t, oblen := t, obp := 0 })
      (by simp) (by simp only; omega) (by simpa using p3)
    rw [List.length_replicate] at e3
    rw [← e2] at e3
    have hr : Ready t0 ts0 (n + t) (p :: ps) { d with obuf := m, nticks := u32 (d.nticks + t), dticks := d.dticks + t, oblen := 0, obp := 0 + t } :=
      ⟨h.pp, rfl, (by simp only [h.nticks]; unfold u32; omega), h.sticks,
      (by simp only [h.dticks]; omega), h.lpt, h.stime, h.nosync, p2.trans h.buf, by omega⟩
    obtain ⟨d', q1, q2⟩ := ih (g - t) (by omega) (n + t) _ hr (by omega)
    refine ⟨d', ?_, q2⟩
    have := gets_add fp l t (g - t) d _ d' _ _ e3 q1
    rw [show t + (g - t) = g by omega] at this
    rw [this, ← List.map_append, List.replicate_append_replicate, show t + (g - t) = g by omega]

/-- A packet is decoded. -/
theorem play_packet (fp : Fp T) (l : Lib K) {t0 : T} {ts0 : Nat} {p : Packet T} {ps : List (Packet T)} {d : Dec T K}
    (h : Ready t0 ts0 p.info.ts (p :: ps) d) (h32 : p.info.ts + p.payload.length < 4294967296) (hpt : p.info.pt = Rtp.PCMU ∨ p.info.pt = Rtp.PCMA)
    (h0 : 0 < p.payload.length) (h1 : p.payload.length ≤ 4096) (ha : fp.ahead ((p.info.ts - ts0) / 8000) p.time t0 = false)
    (hlt : fp.late p.time t0 (p.info.ts - ts0) = false) :
    ∃ d', gets fp l p.payload.length d = .ok (d', (samples p).map .sample) ∧ Ready t0 ts0 (p.info.ts + p.payload.length) ps d' := by
  have hle := h.le
  have e := refill_eq fp l h (by omega) (by omega) ha
  rw [if_neg (by rw [h.nticks]; omega), h.dticks, hlt, if_neg (by simp)] at e
  have hsl : (samples p).length = p.payload.length := by simp [samples]
  obtain ⟨m, p1, p2, p3, -, -⟩ := put_ok (mem := d.obuf) (xs := samples p) (off := 0) (by rw [h.buf, hsl]; omega)
  have hdec : decodeFrame l d p = .ok ({ d with obuf := m, nticks := u32 (d.nticks + p.payload.length), dticks := d.dticks + p.payload.length },
      ((p.payload.length * 2 : Nat) : Int)) := by
    unfold decodeFrame flat
    have hif : (if 8192 < p.payload.length * 2 then 4096 else p.payload.length) = p.payload.length := by rw [if_neg (by omega)]
    have htk : p.payload.take p.payload.length = p.payload := List.take_length
    rcases hpt with hpt | hpt
    · simp only [hpt, if_true, hif, htk]
      have : p.payload.map G711.decU = samples p := by
        unfold samples
        rw [if_pos hpt]
      rw [this, p1]
      rfl
    · have hne : ¬ Rtp.PCMA = Rtp.PCMU := by decide
      simp only [hpt, if_true, hif, htk, hne, if_false]
      have : p.payload.map G711.decA = samples p := by
        unfold samples
        rw [hpt, if_neg hne]
      rw [this, p1]
      rfl
  rw [hdec] at e
  simp only at e
  rw [if_neg (by omega)] at e
  have hj : (((p.payload.length * 2 : Nat) : Int)).toNat / 2 = p.payload.length := by omega
  rw [hj] at e
  have e2 := gets_same (n := p.payload.length) fp l (by omega) e (by simp only; omega)
  have e3 := drain fp l (samples p) (d := { d with obuf := m, nticks := u32 (d.nticks + p.payload.length), dticks := d.dticks + p.payload.length, lpt := p.info.pt, pp := ps, oblen := p.payload.length, obp := 0 }) hsl.symm (by simp only; omega) (by simpa using p3)
  rw [hsl, ← e2] at e3
  exact ⟨_, e3, ⟨rfl, rfl, (by simp only [h.nticks]; unfold u32; omega), h.sticks, (by simp only [h.dticks]; omega), hpt, h.stime, h.nosync,
    p2.trans h.buf, by omega⟩⟩

theorem play_all (fp : Fp T) (l : Lib K) {t0 : T} {ts0 : Nat} : ∀ (ps : List (Packet T)) (n : Nat) (d : Dec T K), Ready t0 ts0 n ps d →
    Timely fp t0 ts0 n ps → ∃ d' n', gets fp l (render n ps).length d = .ok (d', (render n ps).map .sample) ∧ Ready t0 ts0 n' [] d'
  | [], n, d, h, _ => ⟨d, n, rfl, h⟩
  | p :: ps, n, d, h, ht => by
    obtain ⟨a1, a2, a3, a4, a5, a6, a7, a8⟩ := ht
    obtain ⟨d1, e1, r1⟩ := fill_gap fp l (by omega) a6 (p.info.ts - n) n d h (by omega)
    obtain ⟨d2, e2, r2⟩ := play_packet fp l r1 a2 a3 a4 a5 a6 a7
    obtain ⟨d3, n3, e3, r3⟩ := play_all fp l ps _ d2 r2 a8
    refine ⟨d3, n3, ?_, r3⟩
    have := gets_add fp l _ _ d _ _ _ _ (gets_add fp l _ _ d _ _ _ _ e1 e2) e3
    rw [render]
    simp only [List.length_append, List.length_replicate, List.map_append]
    rw [show (samples p).length = p.payload.length by simp [samples]]
    exact this

theorem eof_all (fp : Fp T) (l : Lib K) {t0 : T} {ts0 n' : Nat} : ∀ (k : Nat) (d : Dec T K), Ready t0 ts0 n' [] d →
    ∃ d', gets fp l k d = .ok (d', List.replicate k .eof)
  | 0, d, _ => ⟨d, rfl⟩
  | k + 1, d, h => by
    have e : get fp l d = .ok (d, .eof) := by
      rw [get, if_pos h.oblen, h.pp, refill, ← h.pp]
    obtain ⟨d', e'⟩ := eof_all fp l k d h
    exact ⟨d', by rw [gets, e]; simp only; rw [e']; rfl⟩

/-- Such a stream is decoded so that every packet is at the place its time stamp says, silence between them,
and after that the end is reported.  Where a packet is ahead, late, overlaps or is too long, only `C48_safe_partial` is
said. -/
theorem C48_timeline_partial (fp : Fp T) (l : Lib K) (p : Packet T) (ps : List (Packet T)) (h : Timely fp p.time p.info.ts p.info.ts (p :: ps)) (k : Nat) :
    ∃ d, gets fp l ((render p.info.ts (p :: ps)).length + k) (Dec.new (p :: ps) false) =
      .ok (d, (render p.info.ts (p :: ps)).map .sample ++ List.replicate k .eof) := by
  obtain ⟨d1, n1, e1, r1⟩ := play_all fp l (p :: ps) p.info.ts (Dec.new (p :: ps) false)
    ⟨rfl, rfl, rfl, rfl, (Nat.sub_self _).symm, .inl rfl, rfl, rfl, List.length_replicate .., Nat.le_refl _⟩ h
  obtain ⟨d2, e2⟩ := eof_all fp l k d1 r1
  exact ⟨d2, gets_add fp l _ _ _ _ _ _ _ e1 e2⟩

end Verif.Eaud
