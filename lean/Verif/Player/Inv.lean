import Verif.Player.Spec

/-!
# The state of a player after so many packets
-/

namespace Verif.Player

theorem frames_of {p t : Nat} (ht : 0 < t) : frames (p : Int) t = (p + (t - 1)) / t := by
  unfold frames
  have h1 : ((p : Int) / (t : Int)).toNat = p / t := by
    rw [← Int.natCast_ediv, Int.toNat_natCast]
  have h2 : ((p : Int) % (t : Int) ≠ 0) ↔ p % t ≠ 0 := by
    rw [← Int.natCast_emod]; omega
  rw [h1]
  have hp := Nat.div_add_mod p t
  have hlt := Nat.mod_lt p ht
  by_cases h : p % t = 0
  · rw [if_neg (fun x => (h2.1 x) h), Nat.add_zero]
    symm
    rw [Nat.div_eq_iff ht]
    rw [h] at hp
    have : p = p / t * t := by rw [Nat.mul_comm]; omega
    constructor <;> omega
  · rw [if_pos (h2.2 h)]
    symm
    rw [Nat.div_eq_iff ht]
    have : p = p / t * t + p % t := by rw [Nat.mul_comm]; omega
    have e2 : (p / t + 1) * t = p / t * t + t := by rw [Nat.add_mul, Nat.one_mul]
    constructor <;> omega

theorem codec_spec {c p n : Nat} (h : Codec.bytes c p = some n) :
    ∃ b t, frame c = some (b, t) ∧ 0 < t ∧ 0 < b ∧ b * frames (p : Int) t = n ∧ t * frames (p : Int) t = Codec.ms c p := by
  unfold Codec.bytes at h
  split at h <;> (try cases h)
  · exact ⟨8, 1, rfl, by decide, by decide, by rw [frames_of (by decide)]; simp, by rw [frames_of (by decide)]; simp [Codec.ms]⟩
  · exact ⟨8, 1, rfl, by decide, by decide, by rw [frames_of (by decide)]; simp, by rw [frames_of (by decide)]; simp [Codec.ms]⟩
  · exact ⟨8, 1, rfl, by decide, by decide, by rw [frames_of (by decide)]; simp, by rw [frames_of (by decide)]; simp [Codec.ms]⟩
  · exact ⟨10, 10, rfl, by decide, by decide, by rw [frames_of (by decide)], by rw [frames_of (by decide)]; rfl⟩
  · exact ⟨24, 30, rfl, by decide, by decide, by rw [frames_of (by decide)], by rw [frames_of (by decide)]; rfl⟩
  · exact ⟨33, 20, rfl, by decide, by decide, by rw [frames_of (by decide)], by rw [frames_of (by decide)]; rfl⟩

theorem codec_bounds {c p n : Nat} (h : Codec.bytes c p = some n) (h0 : 0 < p) (hp : p ≤ 999) :
    0 < n ∧ n ≤ 7992 ∧ 0 < Codec.ms c p ∧ Codec.ms c p ≤ 1020 ∧ c < 128 := by
  unfold Codec.bytes at h
  split at h <;> (try cases h) <;> simp only [Codec.ms] <;> omega

/-- What is the same all the time. -/
structure Par where
  f : List UInt8
  codec : Nat
  n : Nat
  ms : Nat
  times : Int
  seq : Nat
  ts : Nat
  ssrc : Nat
  ptime : Int
  btime : ℚ

def Par.m (a : Par) : Nat := pieces a.f a.n

def place (a : Par) (k : Nat) : Nat := if k = 0 then 0 else ((k - 1) % a.m + 1) * a.n

def left (a : Par) (k : Nat) : Int :=
  let l : Int := if a.times > 0 then a.times - 1 else a.times
  if l = -1 then -1 else l - ((k - 1) / a.m : Nat)

structure Inv (a : Par) (k e : Nat) (s : Srv) : Prop where
  pt : s.pt = a.codec
  mbt : s.mbt = if k = 0 then 1 else 0
  seq : s.seq = (a.seq + k) % 2 ^ 16
  ts : s.ts = (a.ts + k * (8 * a.ms)) % 2 ^ 32
  ssrc : s.ssrc = a.ssrc % 2 ^ 32
  pos : s.pos = place a k
  loop : s.loop = left a k
  dts : s.dts = (k + e) * a.ms
  ptime : s.ptime = a.ptime
  started : s.started = true
  btime : s.btime = a.btime
  prev : k = 0 ∨ More a.times a.m (k - 1)

theorem byte_toNat (n : Nat) : (byte n).toNat = n % 256 := by
  unfold byte
  simp

theorem four_bytes (x : Nat) (h : x < 2 ^ 32) :
    ((x / 16777216 % 256 * 256 + x / 65536 % 256) * 256 + x / 256 % 256) * 256 + x % 256 = x := by
  have h1 : x / 16777216 = x / 256 / 256 / 256 := by rw [Nat.div_div_eq_div_mul, Nat.div_div_eq_div_mul]
  have h2 : x / 65536 = x / 256 / 256 := by rw [Nat.div_div_eq_div_mul]
  have h3 : x / 16777216 < 256 := by rw [Nat.div_lt_iff_lt_mul (by decide)]; exact h
  rw [h1] at h3
  rw [h1, h2, Nat.mod_eq_of_lt h3]
  generalize hb : x / 256 / 256 = b
  generalize ha : x / 256 = a at hb
  have e1 : b / 256 * 256 + b % 256 = b := by rw [Nat.mul_comm]; exact Nat.div_add_mod b 256
  have e2 : b * 256 + a % 256 = a := by rw [← hb, Nat.mul_comm]; exact Nat.div_add_mod a 256
  have e3 : a * 256 + x % 256 = x := by rw [← ha, Nat.mul_comm]; exact Nat.div_add_mod x 256
  rw [e1, e2, e3]

theorem decode_header (s : Srv) (p : List UInt8) (h1 : s.mbt ≤ 1) (h2 : s.pt < 128) (h3 : s.seq < 2 ^ 16) (h4 : s.ts < 2 ^ 32)
    (h5 : s.ssrc < 2 ^ 32) :
    decode (header s ++ p) = some (Pkt.mk 2 false false 0 (decide (s.mbt = 1)) s.pt s.seq s.ts s.ssrc p) := by
  simp only [header, List.cons_append, List.nil_append, decode, byte_toNat]
  have e1 : (s.mbt * 128 + s.pt) % 256 = s.mbt * 128 + s.pt := by omega
  have e2 : ((s.mbt * 128 + s.pt) / 128 = 1) ↔ s.mbt = 1 := by omega
  have e3 : (s.mbt * 128 + s.pt) % 128 = s.pt := by omega
  have e4 : s.seq / 256 % 256 * 256 + s.seq % 256 = s.seq := by omega
  have e5 : ((s.ts / 16777216 % 256 * 256 + s.ts / 65536 % 256) * 256 + s.ts / 256 % 256) * 256 + s.ts % 256 = s.ts := four_bytes _ h4
  have e6 : ((s.ssrc / 16777216 % 256 * 256 + s.ssrc / 65536 % 256) * 256 + s.ssrc / 256 % 256) * 256 + s.ssrc % 256 = s.ssrc := four_bytes _ h5
  rw [e1, e3, e4, e5, e6]
  simp only [e2]
  rfl

theorem readAt_length (f : List UInt8) (pos n : Nat) : (readAt f pos n).length = min n (f.length - pos) := by
  unfold readAt; simp

/-- The place after `k` packets has a whole piece behind it unless it is at the end of a pass. -/
theorem place_spec (a : Par) (hn : 0 < a.n) (hm : 0 < a.m) (k : Nat) :
    (¬ (0 < k ∧ k % a.m = 0) → place a k = k % a.m * a.n ∧ place a k + a.n ≤ a.f.length ∧ place a (k + 1) = place a k + a.n ∧ left a (k + 1) = left a k) ∧
    (0 < k ∧ k % a.m = 0 → place a k = a.m * a.n ∧ a.f.length < place a k + a.n ∧ place a (k + 1) = a.n ∧
      left a (k + 1) = if left a k = -1 ∧ a.times < 0 ∧ ¬ a.times < -1 then -1 else left a k - 1) := by
  have hml : a.m * a.n ≤ a.f.length := Nat.div_mul_le_self _ _
  have hmu : a.f.length < (a.m + 1) * a.n := by
    have := Nat.lt_div_mul_add hn (a := a.f.length)
    rw [Nat.add_mul, Nat.one_mul]; exact this
  have hlt := Nat.mod_lt k hm
  constructor
  · intro h
    have e1 : place a k = k % a.m * a.n := by
      unfold place
      by_cases hk : k = 0
      · subst hk; simp
      · rw [if_neg hk]
        have h0 : k % a.m ≠ 0 := fun e => h ⟨by omega, e⟩
        have : (k - 1) % a.m = k % a.m - 1 := by
          have := Nat.div_add_mod k a.m
          have hk' : k - 1 = a.m * (k / a.m) + (k % a.m - 1) := by omega
          rw [hk', Nat.mul_add_mod, Nat.mod_eq_of_lt (by omega)]
        rw [this]
        congr 1
        omega
    refine ⟨e1, ?_, ?_, ?_⟩
    · rw [e1]
      have : (k % a.m + 1) * a.n ≤ a.m * a.n := Nat.mul_le_mul_right _ (by omega)
      rw [Nat.add_mul, Nat.one_mul] at this
      omega
    · rw [e1]
      unfold place
      rw [if_neg (by omega)]
      rw [Nat.add_sub_cancel, Nat.add_mul, Nat.one_mul]
    · unfold left
      rw [Nat.add_sub_cancel]
      have : k / a.m = (k - 1) / a.m := by
        by_cases hk : k = 0
        · subst hk; rfl
        · have h0 : k % a.m ≠ 0 := fun e => h ⟨by omega, e⟩
          have := Nat.div_add_mod k a.m
          have hk' : k - 1 = (k % a.m - 1) + a.m * (k / a.m) := by omega
          have hz : (k % a.m - 1) / a.m = 0 := Nat.div_eq_of_lt (by omega)
          rw [hk', Nat.add_mul_div_left _ _ hm, hz]
          omega
      rw [this]
  · rintro ⟨hk, h0⟩
    have hd := Nat.div_add_mod k a.m
    rw [h0] at hd
    have hq : 0 < k / a.m := by
      rcases Nat.eq_zero_or_pos (k / a.m) with z | z
      · rw [z] at hd; omega
      · exact z
    have hk' : k - 1 = (a.m - 1) + a.m * (k / a.m - 1) := by
      have : a.m * (k / a.m - 1) + a.m = a.m * (k / a.m) := by
        rw [← Nat.mul_succ]; congr 1; omega
      omega
    have e1 : (k - 1) % a.m = a.m - 1 := by
      rw [hk', Nat.add_mul_mod_self_left, Nat.mod_eq_of_lt (by omega)]
    have e2 : (k - 1) / a.m = k / a.m - 1 := by
      rw [hk', Nat.add_mul_div_left _ _ hm, Nat.div_eq_of_lt (by omega)]
      omega
    have ep : place a k = a.m * a.n := by
      unfold place
      rw [if_neg (by omega), e1]
      congr 1
      omega
    refine ⟨ep, ?_, ?_, ?_⟩
    · rw [ep]; rw [Nat.add_mul, Nat.one_mul] at hmu; exact hmu
    · unfold place
      rw [if_neg (by omega), Nat.add_sub_cancel, h0, Nat.zero_add, Nat.one_mul]
    · unfold left
      rw [Nat.add_sub_cancel, e2]
      simp only
      by_cases ht : a.times > 0
      · rw [if_pos ht, if_neg (by omega), if_neg (by omega), if_neg (by omega)]
        omega
      · rw [if_neg ht]
        by_cases h1 : a.times = -1
        · rw [if_pos h1, if_pos h1, if_pos (by omega)]
        · rw [if_neg h1, if_neg h1, if_neg (by omega)]
          omega

end Verif.Player
