import Verif.Str.Strlcpy

/-!
# C18: bounded string copy
-/

namespace Verif.Str

theorem skipStr_spec (t rest : List UInt8) (src : List UInt8) : ∀ (str : List UInt8) (s : Nat),
    (∀ c ∈ str, c ≠ 0) → src.drop s = str ++ 0 :: rest → skipStr src s = .ok (s + str.length + 1)
  | [], s, _, hs => by
    have hi : s < src.length := by
      rcases Nat.lt_or_ge s src.length with h | h
      · exact h
      · rw [List.drop_eq_nil_of_le h] at hs; cases hs
    rw [List.drop_eq_getElem_cons hi] at hs
    injection hs with h1 h2
    unfold skipStr
    rw [dif_pos hi, if_pos h1]; rfl
  | c :: str, s, hn, hs => by
    have hi : s < src.length := by
      rcases Nat.lt_or_ge s src.length with h | h
      · exact h
      · rw [List.drop_eq_nil_of_le h] at hs; cases hs
    rw [List.drop_eq_getElem_cons hi] at hs
    injection hs with h1 h2
    unfold skipStr
    rw [dif_pos hi, if_neg (by rw [h1]; exact hn c (by simp)),
      skipStr_spec t rest src str (s + 1) (fun x hx => hn x (by simp [hx])) h2]
    simp; omega

theorem lcpLoop_spec (src rest : List UInt8) : ∀ (str : List UInt8) (n : Nat) (a b : List UInt8) (s : Nat),
    (∀ c ∈ str, c ≠ 0) → src.drop s = str ++ 0 :: rest → n + 1 ≤ b.length →
    (str.length ≤ n ∧ lcpLoop src n (a ++ b) a.length s =
        .ok (a ++ str ++ 0 :: b.drop (str.length + 1), a.length + str.length + 1, s + str.length + 1, n + 1 - str.length)) ∨
    (n < str.length ∧ lcpLoop src n (a ++ b) a.length s =
        .ok (a ++ str.take (n + 1) ++ b.drop (n + 1), a.length + (n + 1), s + (n + 1), 0))
  | [], n, a, y :: b, s, hn, hs, hb => by
    have hr : rd src s = .ok 0 := by
      have : src[s]? = some 0 := by
        have := congrArg (·[0]?) hs
        simpa using this
      exact rd_ok this
    left
    refine ⟨by simp, ?_⟩
    unfold lcpLoop
    rw [hr]
    simp only
    rw [wr_append]
    simp
  | c :: str, n, a, y :: b, s, hn, hs, hb => by
    have hc : c ≠ 0 := hn c (by simp)
    have hr : rd src s = .ok c := by
      have : src[s]? = some c := by
        have := congrArg (·[0]?) hs
        simpa using this
      exact rd_ok this
    have hs' : src.drop (s + 1) = str ++ 0 :: rest := by
      have := congrArg (List.drop 1) hs
      simpa [List.drop_drop] using this
    unfold lcpLoop
    rw [hr]
    simp only
    rw [wr_append]
    simp only
    rw [if_neg hc]
    cases n with
    | zero =>
      right
      refine ⟨by simp, ?_⟩
      simp
    | succ n =>
      simp only
      have := lcpLoop_spec src rest str n (a ++ [c]) b (s + 1) (fun x hx => hn x (by simp [hx])) hs'
        (by simpa using hb)
      simp only [List.append_assoc, List.length_append, List.length_cons,
        List.length_nil, Nat.zero_add, List.nil_append, List.cons_append] at this
      rcases this with ⟨h1, h2⟩ | ⟨h1, h2⟩
      · left
        refine ⟨by simp; omega, ?_⟩
        rw [h2]
        simp only [List.length_cons, List.append_assoc, List.cons_append, List.drop_succ_cons]
        congr 3
        · omega
        · congr 1
          · omega
          · omega
      · right
        refine ⟨by simp; omega, ?_⟩
        rw [h2]
        simp only [List.take_succ_cons, List.append_assoc, List.cons_append, List.drop_succ_cons]
        congr 3
        · omega
        · congr 1
          omega
  | [], n, a, [], s, hn, hs, hb => by simp at hb
  | c :: str, n, a, [], s, hn, hs, hb => by simp at hb

/-- **C18**.  For every NUL-terminated source string and every size not exceeding the destination
array: nothing outside of the arrays is accessed; the return value is the length of the source;
with size 0 nothing is written; otherwise the destination starts with the longest prefix of the
source that fits together with the terminating NUL, and all bytes after the NUL are unchanged. -/
theorem C18_strlcpy (str rest dst : List UInt8) (siz : Nat) (hn : ∀ c ∈ str, c ≠ 0) (hs : siz ≤ dst.length) :
    ∃ dst', strlcpy dst (str ++ 0 :: rest) siz = .ok (dst', str.length) ∧
      (siz = 0 → dst' = dst) ∧
      (siz ≠ 0 → dst' = str.take (siz - 1) ++ 0 :: dst.drop (min str.length (siz - 1) + 1)) := by
  unfold strlcpy
  have hsk0 := skipStr_spec [] rest (str ++ 0 :: rest) str 0 hn rfl
  match siz, hs with
  | 0, hs =>
    simp only [hsk0]
    refine ⟨dst, ?_, fun _ => rfl, fun h => absurd rfl h⟩
    simp
  | 1, hs =>
    cases dst with
    | nil => simp at hs
    | cons y b =>
      simp only [hsk0]
      have : wr (y :: b) 0 0 = .ok (0 :: b) := by
        have := wr_append (a := []) (b := b) (x := 0) (y := y)
        simpa using this
      refine ⟨0 :: b, ?_, fun h => (by cases h), fun _ => by simp⟩
      simp [this]
  | n + 2, hs =>
    simp only
    have := lcpLoop_spec (str ++ 0 :: rest) rest str n [] dst 0 hn rfl (by omega)
    simp only [List.nil_append, List.length_nil, Nat.zero_add] at this
    rcases this with ⟨h1, h2⟩ | ⟨h1, h2⟩
    · rw [h2]
      simp only
      rw [if_neg (by omega)]
      refine ⟨str ++ 0 :: dst.drop (str.length + 1), ?_, fun h => (by cases h), fun _ => ?_⟩
      · simp
      · rw [show n + 2 - 1 = n + 1 by omega, List.take_of_length_le (by omega), Nat.min_eq_left (by omega)]
    · rw [h2]
      simp only [if_true]
      have hl : (str.take (n + 1)).length = n + 1 := by rw [List.length_take]; omega
      have hsk := skipStr_spec [] rest (str ++ 0 :: rest) (str.drop (n + 1)) (n + 1)
        (fun c hc => hn c (List.mem_of_mem_drop hc)) (by rw [List.drop_append_of_le_length (by omega)])
      rw [if_pos (by omega)]
      have hw : wr (str.take (n + 1) ++ dst.drop (n + 1)) (n + 1) 0 =
          .ok (str.take (n + 1) ++ 0 :: dst.drop (n + 2)) := by
        have hd : dst.drop (n + 1) = dst[n + 1] :: dst.drop (n + 2) := List.drop_eq_getElem_cons (by omega)
        rw [hd]
        have := wr_append (a := str.take (n + 1)) (b := dst.drop (n + 2)) (x := 0) (y := dst[n + 1])
        rw [hl] at this
        exact this
      simp only [hw, hsk]
      refine ⟨str.take (n + 1) ++ 0 :: dst.drop (n + 2), ?_, fun h => (by cases h), fun _ => ?_⟩
      · congr 2
        rw [List.length_drop]
        omega
      · rw [show n + 2 - 1 = n + 1 by omega, Nat.min_eq_right (by omega)]

/-- **C18**, as used by callers: the copy is complete exactly when the return value is smaller than
the size, and then the destination holds the string. -/
theorem C18_truncation_detectable (str rest dst : List UInt8) (siz : Nat) (hn : ∀ c ∈ str, c ≠ 0)
    (hs : siz ≤ dst.length) :
    ∃ dst' r, strlcpy dst (str ++ 0 :: rest) siz = .ok (dst', r) ∧ dst'.length = dst.length ∧
      (r < siz ↔ (∃ t, dst' = str ++ 0 :: t) ∧ str.length < siz) ∧ dst'.drop siz = dst.drop siz := by
  obtain ⟨dst', h1, h2, h3⟩ := C18_strlcpy str rest dst siz hn hs
  refine ⟨dst', _, h1, ?_⟩
  by_cases h0 : siz = 0
  · rw [h2 h0]
    subst h0
    exact ⟨rfl, by constructor <;> intro h <;> omega, rfl⟩
  · have hd := h3 h0
    refine ⟨?_, ?_, ?_⟩
    · rw [hd]; simp; omega
    · constructor
      · intro h
        refine ⟨⟨dst.drop (min str.length (siz - 1) + 1), ?_⟩, by omega⟩
        rw [hd, List.take_of_length_le (by omega)]
      · intro h; omega
    · rw [hd, List.drop_append, List.drop_eq_nil_of_le (by simp; omega), List.nil_append]
      simp only [List.length_take]
      rw [show siz - min (siz - 1) str.length = siz - min (siz - 1) str.length - 1 + 1 by omega,
        List.drop_succ_cons, List.drop_drop]
      congr 1
      omega

example : (strlcpy [9, 9, 9, 9] [65, 66, 67, 0] 3).toOption = some ([65, 66, 0, 9], 3) := by
  simp [strlcpy, lcpLoop, rd, wr, skipStr, Except.toOption]
example : (strlcpy [9, 9, 9, 9] [65, 0] 4).toOption = some ([65, 0, 9, 9], 1) := by
  simp [strlcpy, lcpLoop, rd, wr, Except.toOption]

end Verif.Str
