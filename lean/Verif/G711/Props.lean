import Verif.G711.Model
import Verif.Str.UrlProps

/-!
# C49: G.711 companding tables are consistent

The tables are finite; facts about all of their runs are computed by the kernel and extended to all samples by the lemmas
below.
-/

set_option maxRecDepth 20000

namespace Verif.G711
open Verif.Str (byteInd)

/-! ## Vocabulary: the expansion rules of ITU-T G.711 -/

/-- Expansion of a mu-law code: sign, 3 bits of exponent, 4 bits of mantissa, all inverted. -/
def ituU (c : UInt8) : Int :=
  let b := 255 - c.toNat
  let v : Int := ((b % 16 * 8 + 132) * 2 ^ (b / 16 % 8) : Nat) - 132
  if b / 128 = 1 then -v else v

/-- Expansion of an A-law code; every other bit is inverted. -/
def ituA (c : UInt8) : Int :=
  let b := (c ^^^ 0x55).toNat
  let e := b / 16 % 8
  let v : Int := if e = 0 then (b % 16 * 16 + 8 : Nat) else ((b % 16 * 16 + 264) * 2 ^ (e - 1) : Nat)
  if b / 128 = 1 then v else -v

/-- Compression to mu-law (G.711 table 2): 14-bit magnitude, clipped, biased by 33; its leading bit gives the exponent, the
next four bits the mantissa; all bits are inverted. -/
def ituEncU (s : Int) : Nat :=
  let p := s / 4
  let m := min p.natAbs 8158 + 33
  let e := Nat.log2 m - 5
  let c := e * 16 + m / 2 ^ (e + 1) % 16
  if p < 0 then 127 - c else 255 - c

/-- Compression to A-law (G.711 table 1): 13 bits, magnitude of negative numbers by complement. -/
def ituEncA (s : Int) : Nat :=
  let p := s / 8
  let m := if p < 0 then (-p - 1).toNat else p.toNat
  let e := Nat.log2 m - 4
  let c := if m < 32 then m / 2 else e * 16 + m / 2 ^ e % 16
  if p < 0 then c ^^^ 0x55 else (c + 128) ^^^ 0x55

/-- The values of `int16_t`. -/
def Sample (s : Int) : Prop := -32768 ≤ s ∧ s < 32768

/-! ## Runs -/

/-- The test holds for every run, given its start, its length and its value. -/
def allRuns (P : Nat → Nat → UInt8 → Bool) : Nat → List (Nat × UInt8) → Bool
  | _, [] => true
  | a, (n, v) :: r => P a n v && allRuns P (a + n) r

theorem allRuns_sound {P : Nat → Nat → UInt8 → Bool} : ∀ {r : List (Nat × UInt8)} {a i : Nat} {v : UInt8},
    allRuns P a r = true → lookup r i = some v → ∃ st n, st ≤ a + i ∧ a + i < st + n ∧ P st n v = true
  | [], _, _, _, _, h => by simp [lookup] at h
  | (n, w) :: r, a, i, v, hr, h => by
    simp only [allRuns, Bool.and_eq_true] at hr
    rw [lookup] at h
    split at h
    · cases h
      exact ⟨a, n, by omega, by omega, hr.1⟩
    · obtain ⟨st, m, h1, h2, h3⟩ := allRuns_sound hr.2 h
      exact ⟨st, m, by omega, by omega, h3⟩

/-- Length of the table. -/
def total : List (Nat × UInt8) → Nat
  | [] => 0
  | (n, _) :: r => n + total r

theorem lookup_total : ∀ {r : List (Nat × UInt8)} {i : Nat}, i < total r → ∃ v, lookup r i = some v
  | [], _, h => by simp [total] at h
  | (n, v) :: r, i, h => by
    rw [lookup]
    split
    · exact ⟨v, rfl⟩
    · simp only [total] at h
      exact lookup_total (by omega)

/-- The values of the runs do not decrease under `f`. -/
def sorted (f : UInt8 → Int) : List (Nat × UInt8) → Bool
  | [] => true
  | [_] => true
  | (_, v) :: (n, w) :: r => decide (f v ≤ f w) && sorted f ((n, w) :: r)

theorem sorted_tail {f : UInt8 → Int} {x : Nat × UInt8} {r : List (Nat × UInt8)} (h : sorted f (x :: r) = true) :
    sorted f r = true := by
  cases r with
  | nil => rfl
  | cons y r => simp only [sorted, Bool.and_eq_true] at h; exact h.2

theorem sorted_head {f : UInt8 → Int} : ∀ {r : List (Nat × UInt8)} {n : Nat} {v w : UInt8} {i : Nat},
    sorted f ((n, v) :: r) = true → lookup r i = some w → f v ≤ f w
  | [], _, _, _, _, _, h => by simp [lookup] at h
  | (m, u) :: r, n, v, w, i, hs, h => by
    have hs' := sorted_tail hs
    simp only [sorted, Bool.and_eq_true, decide_eq_true_eq] at hs
    rw [lookup] at h
    split at h
    · cases h; exact hs.1
    · exact Int.le_trans hs.1 (sorted_head hs' h)

theorem sorted_mono {f : UInt8 → Int} : ∀ {r : List (Nat × UInt8)} {i j : Nat} {v w : UInt8}, sorted f r = true →
    lookup r i = some v → lookup r j = some w → i ≤ j → f v ≤ f w
  | [], _, _, _, _, _, h, _, _ => by simp [lookup] at h
  | (n, u) :: r, i, j, v, w, hs, hi, hj, hij => by
    rw [lookup] at hi hj
    split at hi
    · cases hi
      split at hj
      · cases hj; exact Int.le_refl _
      · exact sorted_head hs hj
    · split at hj
      · omega
      · exact sorted_mono (sorted_tail hs) hi hj (by omega)

/-- `f` is `v` at `a … a + n - 1`. -/
def constOn (f : Nat → Nat) (v : Nat) : Nat → Nat → Bool
  | _, 0 => true
  | a, n + 1 => f a == v && constOn f v (a + 1) n

theorem constOn_sound {f : Nat → Nat} {v : Nat} : ∀ {n a i : Nat}, constOn f v a n = true → a ≤ i → i < a + n → f i = v
  | 0, a, i, _, h1, h2 => by omega
  | n + 1, a, i, h, h1, h2 => by
    simp only [constOn, Bool.and_eq_true, beq_iff_eq] at h
    by_cases hi : i = a
    · rw [hi]; exact h.1
    · exact constOn_sound h.2 (by omega) (by omega)

theorem at_some {tab : List (Nat × UInt8)} {i : Int} {v : UInt8} (h : at' tab i = some v) :
    0 ≤ i ∧ lookup tab i.toNat = some v := by
  unfold at' at h
  split at h
  · cases h
  · exact ⟨by omega, h⟩

/-! ## C49 -/

/-- Encoding any 16-bit sample stays inside the table. -/
theorem C49_inside (s : Int) (h : Sample s) : (∃ c, encU s = some c) ∧ ∃ c, encA s = some c := by
  obtain ⟨h1, h2⟩ := h
  have hu : total sl2u = 0x4000 := by decide +kernel
  have ha : total sl2a = 0x2000 := by decide +kernel
  constructor
  · unfold encU at'
    rw [if_neg (by omega)]
    exact lookup_total (by omega)
  · unfold encA at'
    rw [if_neg (by omega)]
    exact lookup_total (by omega)

/-- Samples beyond 16 bits would leave it, so the range is needed. -/
theorem C49_inside_tight : encU 32768 = none ∧ encU (-32769) = none ∧ encA 32768 = none ∧ encA (-32769) = none := by
  decide +kernel

/-- Decoding has an entry for each code, which is a 16-bit sample. -/
theorem C49_decode_inside : u2sl.length = 256 ∧ a2sl.length = 256 ∧ ∀ c, Sample (decU c) ∧ Sample (decA c) := by
  refine ⟨by decide +kernel, by decide +kernel, fun c => ?_⟩
  exact byteInd (P := fun c => Sample (decU c) ∧ Sample (decA c)) (by unfold Sample; decide +kernel) c

/-- The A-law decoder is that of the standard; the mu-law decoder too, except that the two zeros become plus and minus
two. -/
theorem C49_standard (c : UInt8) :
    decA c = ituA c ∧ (c ≠ 127 → c ≠ 255 → decU c = ituU c) ∧ decU 255 = 2 ∧ decU 127 = -2 ∧ ituU 255 = 0 ∧ ituU 127 = 0 := by
  refine ⟨?_, ?_, by decide +kernel, by decide +kernel, by decide +kernel, by decide +kernel⟩
  · exact byteInd (P := fun c => decA c = ituA c) (by decide +kernel) c
  · exact byteInd (P := fun c => c ≠ 127 → c ≠ 255 → decU c = ituU c) (by decide +kernel) c

/-- Encoding a decoded A-law code gives the code back. -/
theorem C49_roundtripA (c : UInt8) : encA (decA c) = some c :=
  byteInd (P := fun c => encA (decA c) = some c) (by decide +kernel) c

/-- Encoding a decoded mu-law code gives the code back, except for the negative zero. -/
theorem C49_roundtripU_partial (c : UInt8) (h : c ≠ 127) : encU (decU c) = some c :=
  byteInd (P := fun c => c ≠ 127 → encU (decU c) = some c) (by decide +kernel) c h

/-- The negative zero comes back as the next code, which is not a zero. -/
theorem C49_roundtripU_counterexample : encU (decU 127) = some 126 ∧ ituU 127 = 0 ∧ ituU 126 = -8 := by decide +kernel

/-- For buffers of any length: decoding and encoding again. -/
theorem C49_buffer (buf : List UInt8) : (buf.map decA).mapM encA = some buf ∧
    ((∀ c ∈ buf, c ≠ 127) → (buf.map decU).mapM encU = some buf) := by
  constructor
  · induction buf with
    | nil => rfl
    | cons c buf ih => simp [List.mapM_cons, C49_roundtripA, ih]
  · induction buf with
    | nil => intro _; rfl
    | cons c buf ih =>
      intro h
      have h1 := C49_roundtripU_partial c (h c (by simp))
      simp [List.mapM_cons, h1, ih (fun x hx => h x (by simp [hx]))]

/-- Within each sign larger codes decode to larger magnitudes: strictly monotone (mu-law codes are inverted, A-law codes
have every other bit inverted). -/
theorem C49_monotone_decode (c d : UInt8) :
    (c.toNat < d.toNat → d.toNat < 128 → decU c < decU d) ∧ (128 ≤ c.toNat → c.toNat < d.toNat → decU d < decU c) ∧
    (c.toNat < d.toNat → d.toNat < 128 → decA (d ^^^ 0x55) < decA (c ^^^ 0x55)) ∧
    (128 ≤ c.toNat → c.toNat < d.toNat → decA (c ^^^ 0x55) < decA (d ^^^ 0x55)) := by
  have next : ∀ c : UInt8, (c.toNat < 127 → decU c < decU (c + 1) ∧ decA ((c + 1) ^^^ 0x55) < decA (c ^^^ 0x55)) ∧
      (128 ≤ c.toNat → c.toNat < 255 → decU (c + 1) < decU c ∧ decA (c ^^^ 0x55) < decA ((c + 1) ^^^ 0x55)) :=
    byteInd (by decide +kernel)
  have key : ∀ (k : Nat) (c : UInt8), c.toNat + k + 1 < 256 →
      (c.toNat + k + 1 < 128 → decU c < decU (UInt8.ofNat (c.toNat + k + 1)) ∧
        decA (UInt8.ofNat (c.toNat + k + 1) ^^^ 0x55) < decA (c ^^^ 0x55)) ∧
      (128 ≤ c.toNat → decU (UInt8.ofNat (c.toNat + k + 1)) < decU c ∧
        decA (c ^^^ 0x55) < decA (UInt8.ofNat (c.toNat + k + 1) ^^^ 0x55)) := by
    intro k
    induction k with
    | zero =>
      intro c hc
      have hs : UInt8.ofNat (c.toNat + 0 + 1) = c + 1 := by
        apply UInt8.toNat_inj.1
        simp [UInt8.toNat_add]
      rw [hs]
      exact ⟨fun h => (next c).1 (by omega), fun h => (next c).2 h (by omega)⟩
    | succ k ih =>
      intro c hc
      have hs : UInt8.ofNat (c.toNat + (k + 1) + 1) = UInt8.ofNat (c.toNat + k + 1) + 1 := by
        apply UInt8.toNat_inj.1
        simp [UInt8.toNat_add]
        omega
      have hn : (UInt8.ofNat (c.toNat + k + 1)).toNat = c.toNat + k + 1 := by
        simp; omega
      obtain ⟨i1, i2⟩ := ih c (by omega)
      obtain ⟨n1, n2⟩ := next (UInt8.ofNat (c.toNat + k + 1))
      rw [hn] at n1 n2
      rw [hs]
      constructor
      · intro h
        obtain ⟨a1, a2⟩ := i1 (by omega)
        obtain ⟨b1, b2⟩ := n1 (by omega)
        exact ⟨Int.lt_trans a1 b1, Int.lt_trans b2 a2⟩
      · intro h
        obtain ⟨a1, a2⟩ := i2 h
        obtain ⟨b1, b2⟩ := n2 (by omega) (by omega)
        exact ⟨Int.lt_trans b1 a1, Int.lt_trans a2 b2⟩
  have hd := d.toNat_lt
  have hk : c.toNat < d.toNat → ∃ k, c.toNat + k + 1 = d.toNat := fun h => ⟨d.toNat - c.toNat - 1, by omega⟩
  refine ⟨fun h1 h2 => ?_, fun h1 h2 => ?_, fun h1 h2 => ?_, fun h1 h2 => ?_⟩
  · obtain ⟨k, hk⟩ := hk h1
    have := ((key k c (by omega)).1 (by omega)).1
    rw [hk] at this; simpa using this
  · obtain ⟨k, hk⟩ := hk h2
    have := ((key k c (by omega)).2 h1).1
    rw [hk] at this; simpa using this
  · obtain ⟨k, hk⟩ := hk h1
    have := ((key k c (by omega)).1 (by omega)).2
    rw [hk] at this; simpa using this
  · obtain ⟨k, hk⟩ := hk h2
    have := ((key k c (by omega)).2 h1).2
    rw [hk] at this; simpa using this

/-- Louder stays louder: encoding and decoding preserves the order of samples. -/
theorem C49_monotone (s t : Int) (hst : s ≤ t) (c d : UInt8) :
    (encU s = some c → encU t = some d → decU c ≤ decU d) ∧ (encA s = some c → encA t = some d → decA c ≤ decA d) := by
  have hu : sorted decU sl2u = true := by decide +kernel
  have ha : sorted decA sl2a = true := by decide +kernel
  constructor
  · intro h1 h2
    obtain ⟨-, h1⟩ := at_some h1
    obtain ⟨-, h2⟩ := at_some h2
    exact sorted_mono hu h1 h2 (by omega)
  · intro h1 h2
    obtain ⟨-, h1⟩ := at_some h1
    obtain ⟨-, h2⟩ := at_some h2
    exact sorted_mono ha h1 h2 (by omega)

/-- Test of one run: samples `lo … hi` are encoded as `v`, the error is at most `(|s| + off) / k`. -/
def errRun (dec : UInt8 → Int) (q k off base : Int) (st n : Nat) (v : UInt8) : Bool :=
  let lo := q * (st - base)
  let hi := q * (st + n - base) - 1
  let d := dec v
  (decide (0 ≤ lo) && decide (k * (d - lo) ≤ lo + off) && decide (k * (hi - d) ≤ hi + off)) ||
  (decide (hi < 0) && decide (k * (d - lo) ≤ -lo + off) && decide (k * (hi - d) ≤ -hi + off))

/-- The error of encoding is at most one nineteenth (mu-law) or a thirtysecond (A-law) of the magnitude, with an
allowance for the smallest steps; this includes the clipped samples. -/
theorem C49_error (s : Int) (c : UInt8) : (encU s = some c → 19 * (decU c - s).natAbs ≤ s.natAbs + 132) ∧
    (encA s = some c → 32 * (decA c - s).natAbs ≤ s.natAbs + 256) := by
  have hu : allRuns (errRun decU 4 19 132 0x2000) 0 sl2u = true := by decide +kernel
  have ha : allRuns (errRun decA 8 32 256 0x1000) 0 sl2a = true := by decide +kernel
  constructor
  · intro h
    obtain ⟨h0, h1⟩ := at_some h
    obtain ⟨st, n, k1, k2, k3⟩ := allRuns_sound hu h1
    simp only [errRun, Bool.or_eq_true, Bool.and_eq_true, decide_eq_true_eq] at k3
    omega
  · intro h
    obtain ⟨h0, h1⟩ := at_some h
    obtain ⟨st, n, k1, k2, k3⟩ := allRuns_sound ha h1
    simp only [errRun, Bool.or_eq_true, Bool.and_eq_true, decide_eq_true_eq] at k3
    omega

/-- The sign survives. -/
theorem C49_sign (s : Int) (c : UInt8) : (encU s = some c → (0 ≤ s ↔ 0 < decU c)) ∧ (encA s = some c → (0 ≤ s ↔ 0 < decA c)) := by
  have hu : allRuns (fun st n v => (decide (0x2000 ≤ st) && decide (0 < decU v)) || (decide (st + n ≤ 0x2000) && decide (decU v < 0)))
    0 sl2u = true := by decide +kernel
  have ha : allRuns (fun st n v => (decide (0x1000 ≤ st) && decide (0 < decA v)) || (decide (st + n ≤ 0x1000) && decide (decA v < 0)))
    0 sl2a = true := by decide +kernel
  constructor
  · intro h
    obtain ⟨h0, h1⟩ := at_some h
    obtain ⟨st, n, k1, k2, k3⟩ := allRuns_sound hu h1
    simp only [Bool.or_eq_true, Bool.and_eq_true, decide_eq_true_eq] at k3
    omega
  · intro h
    obtain ⟨h0, h1⟩ := at_some h
    obtain ⟨st, n, k1, k2, k3⟩ := allRuns_sound ha h1
    simp only [Bool.or_eq_true, Bool.and_eq_true, decide_eq_true_eq] at k3
    omega

/-- The encoders are those of the standard, for every sample. -/
theorem C49_standard_encoder (s : Int) (h : Sample s) :
    encU s = some (UInt8.ofNat (ituEncU s)) ∧ encA s = some (UInt8.ofNat (ituEncA s)) := by
  have hu : allRuns (fun st n v => constOn (fun i => ituEncU (4 * (i - 0x2000))) v.toNat st n) 0 sl2u = true := by
    decide +kernel
  have ha : allRuns (fun st n v => constOn (fun i => ituEncA (8 * (i - 0x1000))) v.toNat st n) 0 sl2a = true := by
    decide +kernel
  obtain ⟨⟨c, hc⟩, ⟨d, hd⟩⟩ := C49_inside s h
  constructor
  · obtain ⟨h0, h1⟩ := at_some hc
    obtain ⟨st, n, k1, k2, k3⟩ := allRuns_sound hu h1
    have := constOn_sound k3 (i := (s / 4 + 0x2000).toNat) (by omega) (by omega)
    have hs : ituEncU (4 * (((s / 4 + 0x2000).toNat : Int) - 0x2000)) = ituEncU s := by
      unfold ituEncU
      rw [show (4 * (((s / 4 + 0x2000).toNat : Int) - 0x2000)) / 4 = s / 4 by omega]
    rw [hc, ← hs, this]; simp
  · obtain ⟨h0, h1⟩ := at_some hd
    obtain ⟨st, n, k1, k2, k3⟩ := allRuns_sound ha h1
    have := constOn_sound k3 (i := (s / 8 + 0x1000).toNat) (by omega) (by omega)
    have hs : ituEncA (8 * (((s / 8 + 0x1000).toNat : Int) - 0x1000)) = ituEncA s := by
      unfold ituEncA
      rw [show (8 * (((s / 8 + 0x1000).toNat : Int) - 0x1000)) / 8 = s / 8 by omega]
    rw [hd, ← hs, this]; simp

/-- The negative zero of mu-law is never produced. -/
theorem C49_no_negative_zero (s : Int) : encU s ≠ some 127 := by
  have hu : allRuns (fun _ _ v => decide (v ≠ 127)) 0 sl2u = true := by decide +kernel
  intro h
  obtain ⟨h0, h1⟩ := at_some h
  obtain ⟨st, n, k1, k2, k3⟩ := allRuns_sound hu h1
  simp at k3

/-- The direct table from A-law to mu-law is decoding followed by encoding. -/
theorem C49_transcodeAU (c : UInt8) : encU (decA c) = some (transAU c) :=
  byteInd (P := fun c => encU (decA c) = some (transAU c)) (by decide +kernel) c

/-- The other direction differs from that by at most one of the smallest steps … -/
theorem C49_transcodeUA_partial (c : UInt8) : ∃ d, encA (decU c) = some d ∧ (decA (transUA c) - decA d).natAbs ≤ 16 := by
  have : ∀ c, (match encA (decU c) with | none => false | some d => decide ((decA (transUA c) - decA d).natAbs ≤ 16)) = true :=
    byteInd (by decide +kernel)
  have h := this c
  cases he : encA (decU c) with
  | none => rw [he] at h; cases h
  | some d => rw [he] at h; exact ⟨d, rfl, by simpa using h⟩

/-- … and for some small negative samples it does differ. -/
theorem C49_transcodeUA_counterexample : encA (decU 113) = some 83 ∧ transUA 113 = 82 := by decide +kernel

end Verif.G711
