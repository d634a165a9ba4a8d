import Verif.Str.Num
import Mathlib.Tactic.NormNum

/-!
# Decimal numerals as printed by `%u` and `%d`
-/

namespace Verif.Dec

/-- Decimal digits of a number, most significant first. -/
def dec (n : Nat) : List UInt8 :=
  if _h : n < 10 then [UInt8.ofNat (48 + n)] else dec (n / 10) ++ [UInt8.ofNat (48 + n % 10)]
termination_by n
decreasing_by omega

/-- With a sign. -/
def decI (n : Int) : List UInt8 := if n < 0 then 45 :: dec n.natAbs else dec n.natAbs

theorem byte_toNat {k : Nat} (h : k < 10) : (UInt8.ofNat (48 + k)).toNat = 48 + k := by
  rw [UInt8.toNat_ofNat']; omega

theorem dec_val (n : Nat) : Str.digitsVal (dec n) = n := by
  induction n using Nat.strongRecOn with
  | ind n ih =>
    rw [dec]
    by_cases h : n < 10
    · rw [dif_pos h]; simp only [Str.digitsVal, List.foldl]; rw [byte_toNat h]; omega
    · rw [dif_neg h]
      have := ih (n / 10) (by omega)
      simp only [Str.digitsVal, List.foldl_append, List.foldl] at this ⊢
      rw [this, byte_toNat (by omega)]; omega

theorem dec_digit (n : Nat) : ∀ c ∈ dec n, Str.isDigit c = true := by
  induction n using Nat.strongRecOn with
  | ind n ih =>
    intro c hc
    rw [dec] at hc
    by_cases h : n < 10
    · rw [dif_pos h, List.mem_singleton] at hc
      subst hc; simp only [Str.isDigit, decide_eq_true_eq]; rw [byte_toNat h]; omega
    · rw [dif_neg h, List.mem_append, List.mem_singleton] at hc
      rcases hc with hc | hc
      · exact ih _ (by omega) c hc
      · subst hc; simp only [Str.isDigit, decide_eq_true_eq]; rw [byte_toNat (by omega)]; omega

theorem dec_ne_nil (n : Nat) : dec n ≠ [] := by
  rw [dec]; split <;> simp

theorem dec_injective {m n : Nat} (h : dec m = dec n) : m = n := by
  rw [← dec_val m, ← dec_val n, h]

/-- At most `k + 1` digits below ten to the power of `k + 1`. -/
theorem dec_length (k : Nat) : ∀ n, n < 10 ^ (k + 1) → (dec n).length ≤ k + 1 := by
  induction k with
  | zero => intro n h; rw [dec, dif_pos (by simpa using h)]; simp
  | succ k ih =>
    intro n h
    rw [dec]
    by_cases h1 : n < 10
    · rw [dif_pos h1]; simp
    · rw [dif_neg h1]
      have := ih (n / 10) (by rw [Nat.div_lt_iff_lt_mul (by norm_num)]; rw [← Nat.pow_succ]; exact h)
      simp only [List.length_append, List.length_singleton]; omega

end Verif.Dec
