import Verif.Str.Num

/-!
# C17: numeric fields

The full claim (accepted exactly when the field is a complete numeral in the permitted range, and
the value delivered is the value denoted) is false for `atoi_safe` and its users, because the
`long` is stored into an `int` without a check (`C17_truncation_counterexample`).  It holds for
numerals whose value is representable in an `int`, and for `strtol_saferange` without restriction.
-/

namespace Verif.Str

/-! ### Specification -/

/-- Value of a numeral, most significant digit first. -/
inductive DigitsDenote : List UInt8 → Nat → Prop
  | one {c : UInt8} {d : Nat} (h : d < 10) (hc : c.toNat = 48 + d) : DigitsDenote [c] d
  | snoc {l : List UInt8} {c : UInt8} {n d : Nat} (hl : DigitsDenote l n) (h : d < 10) (hc : c.toNat = 48 + d) :
      DigitsDenote (l ++ [c]) (10 * n + d)

/-- A complete numeral: white space, an optional sign, digits. -/
inductive Numeral : List UInt8 → Int → Prop
  | plain {ws ds : List UInt8} {n : Nat} (hw : ∀ c ∈ ws, isSpace c = true) (hd : DigitsDenote ds n) : Numeral (ws ++ ds) n
  | plus {ws ds : List UInt8} {n : Nat} (hw : ∀ c ∈ ws, isSpace c = true) (hd : DigitsDenote ds n) : Numeral (ws ++ 43 :: ds) n
  | minus {ws ds : List UInt8} {n : Nat} (hw : ∀ c ∈ ws, isSpace c = true) (hd : DigitsDenote ds n) : Numeral (ws ++ 45 :: ds) (-n)

/-- `p` followed by something that does not start with a digit. -/
def NoDigit (rest : List UInt8) : Prop := ∀ c ∈ rest.head?, isDigit c = false

/-! ### Lemmas -/

theorem digitsVal_snoc (l : List UInt8) (c : UInt8) : digitsVal (l ++ [c]) = 10 * digitsVal l + (c.toNat - 48) := by
  simp [digitsVal]

theorem DigitsDenote.spec {l : List UInt8} {n : Nat} (h : DigitsDenote l n) :
    l ≠ [] ∧ (∀ c ∈ l, isDigit c = true) ∧ digitsVal l = n := by
  induction h with
  | one h hc =>
    refine ⟨by simp, ?_, ?_⟩
    · intro x hx; rw [List.mem_singleton] at hx; subst hx; simp [isDigit]; omega
    · simp [digitsVal]; omega
  | snoc hl h hc ih =>
    refine ⟨by simp, ?_, ?_⟩
    · intro x hx
      rcases List.mem_append.mp hx with hx | hx
      · exact ih.2.1 x hx
      · rw [List.mem_singleton] at hx; subst hx; simp [isDigit]; omega
    · rw [digitsVal_snoc, ih.2.2]; omega

theorem digitsDenote_rev : ∀ (l : List UInt8), l ≠ [] → (∀ c ∈ l, isDigit c = true) →
    DigitsDenote l.reverse (digitsVal l.reverse)
  | [], h, _ => absurd rfl h
  | [c], _, hd => by
    have := hd c (by simp)
    simp only [isDigit, decide_eq_true_eq] at this
    simp only [List.reverse_singleton]
    refine DigitsDenote.one (d := digitsVal [c]) ?_ ?_ <;> simp [digitsVal] <;> omega
  | c :: d :: l, _, hd => by
    have := hd c (by simp)
    simp only [isDigit, decide_eq_true_eq] at this
    have ih := digitsDenote_rev (d :: l) (by simp) (fun x hx => hd x (by simp at hx ⊢; exact .inr hx))
    rw [List.reverse_cons, digitsVal_snoc]
    exact .snoc ih (by omega) (by omega)

theorem digitsDenote_of {l : List UInt8} (h : l ≠ []) (hd : ∀ c ∈ l, isDigit c = true) :
    DigitsDenote l (digitsVal l) := by
  have := digitsDenote_rev l.reverse (by simpa using h) (by simpa using hd)
  rwa [List.reverse_reverse] at this

theorem not_space_of_digit {c : UInt8} (h : isDigit c = true) : isSpace c = false := by
  simp only [isDigit, decide_eq_true_eq] at h
  simp only [isSpace, decide_eq_false_iff_not]
  rintro (rfl | h')
  · simp at h
  · omega

theorem takeWhile_prefix {p : UInt8 → Bool} {a b : List UInt8} (ha : ∀ c ∈ a, p c = true)
    (hb : ∀ c ∈ b.head?, p c = false) : (a ++ b).takeWhile p = a := by
  induction a with
  | nil =>
    cases b with
    | nil => rfl
    | cons c b => have := hb c (by simp); simp [this]
  | cons x a ih =>
    rw [List.cons_append, List.takeWhile_cons, if_pos (ha x (by simp)), ih (fun c hc => ha c (by simp [hc]))]

def clampL (v : Int) : Strtol → Prop := fun r =>
  (longMin ≤ v ∧ v ≤ longMax ∧ r.val = v ∧ r.erange = false) ∨
  (v > longMax ∧ r.val = longMax ∧ r.erange = true) ∨ (v < longMin ∧ r.val = longMin ∧ r.erange = true)

theorem strtol_core {ws sg ds rest : List UInt8} {neg : Bool} (hw : ∀ c ∈ ws, isSpace c = true)
    (hsg : (sg = [] ∧ neg = false) ∨ (sg = [43] ∧ neg = false) ∨ (sg = [45] ∧ neg = true))
    (hne : ds ≠ []) (hd : ∀ c ∈ ds, isDigit c = true) (hr : NoDigit rest) :
    (strtol (ws ++ (sg ++ (ds ++ rest)))).used = ws.length + sg.length + ds.length ∧
      clampL (if neg then -(digitsVal ds : Int) else digitsVal ds) (strtol (ws ++ (sg ++ (ds ++ rest)))) := by
  obtain ⟨d0, ds', rfl⟩ : ∃ d ds', ds = d :: ds' := by
    cases ds with
    | nil => exact absurd rfl hne
    | cons d ds' => exact ⟨d, ds', rfl⟩
  have hd0 := hd d0 (by simp)
  have hns := not_space_of_digit hd0
  have h1 : (ws ++ (sg ++ (d0 :: ds' ++ rest))).takeWhile isSpace = ws := by
    refine takeWhile_prefix hw ?_
    rcases hsg with ⟨rfl, -⟩ | ⟨rfl, -⟩ | ⟨rfl, -⟩
    · simpa using hns
    · simp; decide
    · simp; decide
  have h2 : signOf (sg ++ (d0 :: ds' ++ rest)) = (sg.length, neg) := by
    rcases hsg with ⟨rfl, rfl⟩ | ⟨rfl, rfl⟩ | ⟨rfl, rfl⟩
    · have a1 : d0 ≠ 45 := by rintro rfl; exact absurd hd0 (by decide)
      have a2 : d0 ≠ 43 := by rintro rfl; exact absurd hd0 (by decide)
      simp [signOf, a1, a2]
    · simp [signOf]
    · simp [signOf]
  have h3 : ((d0 :: ds') ++ rest).takeWhile isDigit = d0 :: ds' := takeWhile_prefix hd hr
  unfold strtol
  simp only [h1]
  rw [List.drop_left, h2]
  simp only
  rw [List.drop_append, List.drop_eq_nil_of_le (by omega), List.nil_append,
    show ws.length + sg.length - ws.length = sg.length by omega, List.drop_left, h3, if_neg hne]
  unfold clampL
  generalize (if neg = true then -(digitsVal (d0 :: ds') : Int) else (digitsVal (d0 :: ds') : Int)) = v
  split
  · exact ⟨rfl, .inr (.inl ⟨by assumption, rfl, rfl⟩)⟩
  · split
    · exact ⟨rfl, .inr (.inr ⟨by assumption, rfl, rfl⟩)⟩
    · exact ⟨rfl, .inl ⟨by omega, by omega, rfl, rfl⟩⟩

theorem strtol_numeral {p rest : List UInt8} {v : Int} (hp : Numeral p v) (hr : NoDigit rest) :
    (strtol (p ++ rest)).used = p.length ∧ clampL v (strtol (p ++ rest)) ∧ p ≠ [] := by
  cases hp with
  | plain hw hd =>
    obtain ⟨h1, h2, h3⟩ := hd.spec
    obtain ⟨a, b⟩ := strtol_core (sg := []) (neg := false) hw (.inl ⟨rfl, rfl⟩) h1 h2 hr
    rw [h3] at b
    simp only [List.append_assoc, List.nil_append, List.length_append, List.length_nil] at *
    exact ⟨by omega, b, by simp [h1]⟩
  | plus hw hd =>
    obtain ⟨h1, h2, h3⟩ := hd.spec
    obtain ⟨a, b⟩ := strtol_core (sg := [43]) (neg := false) hw (.inr (.inl ⟨rfl, rfl⟩)) h1 h2 hr
    rw [h3] at b
    simp only [List.append_assoc, List.cons_append, List.nil_append, List.length_append, List.length_cons, List.length_nil] at *
    exact ⟨by omega, b, by simp⟩
  | minus hw hd =>
    obtain ⟨h1, h2, h3⟩ := hd.spec
    obtain ⟨a, b⟩ := strtol_core (sg := [45]) (neg := true) hw (.inr (.inr ⟨rfl, rfl⟩)) h1 h2 hr
    rw [h3] at b
    simp only [List.append_assoc, List.cons_append, List.nil_append, List.length_append, List.length_cons, List.length_nil] at *
    exact ⟨by omega, b, by simp⟩

theorem takeWhile_split (p : UInt8 → Bool) (s : List UInt8) :
    s = s.takeWhile p ++ s.drop (s.takeWhile p).length ∧ (∀ c ∈ s.takeWhile p, p c = true) ∧
      ∀ c ∈ (s.drop (s.takeWhile p).length).head?, p c = false := by
  induction s with
  | nil => simp
  | cons x s ih =>
    rw [List.takeWhile_cons]
    by_cases hx : p x = true
    · rw [if_pos hx]
      simp only [List.length_cons, List.drop_succ_cons, List.cons_append]
      refine ⟨by rw [← ih.1], ?_, ih.2.2⟩
      intro c hc
      rcases List.mem_cons.mp hc with rfl | hc
      · exact hx
      · exact ih.2.1 c hc
    · rw [if_neg hx]
      simp only [Bool.not_eq_true] at hx
      simp [hx]

theorem strtol_prefix {s : List UInt8} (h : (strtol s).used ≠ 0) :
    ∃ p rest v, s = p ++ rest ∧ Numeral p v ∧ NoDigit rest := by
  obtain ⟨w1, w2, w3⟩ := takeWhile_split isSpace s
  generalize hws : s.takeWhile isSpace = ws at *
  generalize hs1 : s.drop ws.length = s1 at *
  unfold strtol at h
  simp only [hws, hs1] at h
  obtain ⟨sg, neg, s2, hsg, hs2, hso⟩ : ∃ sg neg s2,
      ((sg = [] ∧ neg = false) ∨ (sg = [43] ∧ neg = false) ∨ (sg = [45] ∧ neg = true)) ∧
      s1 = sg ++ s2 ∧ signOf s1 = (sg.length, neg) := by
    cases s1 with
    | nil => exact ⟨[], false, [], .inl ⟨rfl, rfl⟩, rfl, rfl⟩
    | cons c l =>
      by_cases h1 : c = 45
      · exact ⟨[45], true, l, .inr (.inr ⟨rfl, rfl⟩), by rw [h1]; rfl, by simp [signOf, h1]⟩
      · by_cases h2 : c = 43
        · exact ⟨[43], false, l, .inr (.inl ⟨rfl, rfl⟩), by rw [h2]; rfl, by simp [signOf, h2]⟩
        · exact ⟨[], false, c :: l, .inl ⟨rfl, rfl⟩, rfl, by simp [signOf, h1, h2]⟩
  rw [hso] at h
  simp only at h
  have hdr : s.drop (ws.length + sg.length) = s2 := by
    rw [← List.drop_drop, hs1, hs2, List.drop_left]
  rw [hdr] at h
  obtain ⟨d1, d2, d3⟩ := takeWhile_split isDigit s2
  generalize hds : s2.takeWhile isDigit = ds at *
  generalize hrest : s2.drop ds.length = rest at *
  by_cases hne : ds = []
  · rw [if_pos hne] at h; exact absurd rfl h
  · have hD := digitsDenote_of hne d2
    rcases hsg with ⟨rfl, -⟩ | ⟨rfl, -⟩ | ⟨rfl, -⟩
    · exact ⟨ws ++ ds, rest, _, by rw [w1, hs2, d1]; simp, .plain w2 hD, d3⟩
    · exact ⟨ws ++ 43 :: ds, rest, _, by rw [w1, hs2, d1]; simp, .plus w2 hD, d3⟩
    · exact ⟨ws ++ 45 :: ds, rest, _, by rw [w1, hs2, d1]; simp, .minus w2 hD, d3⟩

theorem toInt_id {v : Int} (h1 : -2147483648 ≤ v) (h2 : v ≤ 2147483647) : toInt v = v := by
  unfold toInt; omega

/-- A C string contains no NUL. -/
def CStr (s : List UInt8) : Prop := ∀ c ∈ s, c ≠ 0

theorem atoiSafe_iff {s : List UInt8} (hs : CStr s) (r : Int) :
    atoiSafe s = .ok r ↔ ∃ v, Numeral s v ∧ r = toInt (if v > longMax then longMax else if v < longMin then longMin else v) := by
  have key : ∀ v, Numeral s v → atoiSafe s = .ok (toInt (if v > longMax then longMax else if v < longMin then longMin else v)) := by
    intro v hv
    obtain ⟨h1, h2, h3⟩ := strtol_numeral (rest := []) hv (by intro c hc; simp at hc)
    rw [List.append_nil] at h1 h2
    unfold atoiSafe atoiSafeSep
    simp only
    have hl : s.length ≠ 0 := by simpa using h3
    rw [if_neg (by rw [h1]; simp [charAt, List.getD_eq_getElem?_getD, h3])]
    simp only
    congr 2
    rcases h2 with ⟨a, b, c, -⟩ | ⟨a, b, -⟩ | ⟨a, b, -⟩
    · rw [if_neg (by omega), if_neg (by omega), c]
    · rw [if_pos a, b]
    · rw [if_neg (by unfold longMax longMin at *; omega), if_pos a, b]
  constructor
  · intro h
    have hu : (strtol s).used ≠ 0 ∧ charAt s (strtol s).used = 0 := by
      unfold atoiSafe atoiSafeSep at h
      simp only at h
      by_cases hc : (strtol s).used = 0 ∨ charAt s (strtol s).used ≠ 0
      · rw [if_pos hc] at h; cases h
      · simpa using hc
    obtain ⟨p, rest, v, rfl, hp, hr⟩ := strtol_prefix hu.1
    obtain ⟨h1, -, -⟩ := strtol_numeral hp hr
    have : rest = [] := by
      cases rest with
      | nil => rfl
      | cons c l =>
        have h2 := hu.2
        rw [h1] at h2
        simp [charAt] at h2
        exact absurd h2 (hs c (by simp))
    subst this
    rw [List.append_nil] at *
    rw [key v hp] at h
    injection h with h
    exact ⟨v, hp, h.symm⟩
  · rintro ⟨v, hv, rfl⟩
    exact key v hv

/-- **C17**: `strtol_saferange` accepts a string exactly when it starts with a numeral whose value
lies in the permitted range (with `max < min` meaning: no upper bound) and in the range of `long`; the value and the end of the
numeral are delivered exactly. -/
theorem C17_strtol_saferange (s : List UInt8) (min max v : Int) (n : Nat) :
    strtolSaferange s min max = .ok (v, n) ↔
      ∃ p rest, s = p ++ rest ∧ n = p.length ∧ Numeral p v ∧ NoDigit rest ∧
        -9223372036854775808 ≤ v ∧ v ≤ 9223372036854775807 ∧ min ≤ v ∧ (min ≤ max → v ≤ max) := by
  constructor
  · intro h
    unfold strtolSaferange at h
    simp only at h
    split at h
    · cases h
    next h0 =>
    split at h
    · cases h
    next h1 =>
    split at h
    · cases h
    next h2 =>
    simp only [Rv.ok.injEq, Prod.mk.injEq] at h
    obtain ⟨p, rest, v', rfl, hp, hr⟩ := strtol_prefix h0
    obtain ⟨a1, a2, -⟩ := strtol_numeral hp hr
    rcases a2 with ⟨b1, b2, b3, -⟩ | ⟨-, -, b⟩ | ⟨-, -, b⟩
    · rw [b3, a1] at h
      obtain ⟨rfl, rfl⟩ := h
      rw [b3] at h2
      unfold longMin longMax at *
      exact ⟨p, rest, rfl, rfl, hp, hr, b1, b2, by omega, by omega⟩
    · exact absurd b h1
    · exact absurd b h1
  · rintro ⟨p, rest, rfl, rfl, hp, hr, b1, b2, b3, b4⟩
    obtain ⟨a1, a2, a3⟩ := strtol_numeral hp hr
    unfold strtolSaferange
    simp only
    rcases a2 with ⟨c1, c2, c3, c4⟩ | ⟨c, -⟩ | ⟨c, -⟩
    · rw [if_neg (by rw [a1]; simpa using a3), if_neg (by rw [c4]; simp), if_neg (by rw [c3]; omega), c3, a1]
    · unfold longMax at c; omega
    · unfold longMin at c; omega

/-- **C17**, partial: a string is accepted by `atoi_safe` only if it is a complete numeral, and
whenever the value denoted is representable in an `int` it is accepted and delivered exactly;
`atoi_saferange` in addition enforces the range.  (Missing: numerals outside of the range of `int`,
see the counterexample.) -/
theorem C17_atoi_partial (s : List UInt8) (hs : CStr s) :
    (∀ r, atoiSafe s = .ok r → ∃ v, Numeral s v) ∧
    (∀ v, Numeral s v → -2147483648 ≤ v → v ≤ 2147483647 →
      atoiSafe s = .ok v ∧
      ∀ min max, (atoiSaferange s min max = .ok v ↔ min ≤ v ∧ (min ≤ max → v ≤ max)) ∧
        ((¬ (min ≤ v ∧ (min ≤ max → v ≤ max))) → atoiSaferange s min max = .outRange)) ∧
    ((¬ ∃ v, Numeral s v) → ∀ min max, atoiSaferange s min max = .notInt) := by
  refine ⟨?_, ?_, ?_⟩
  · intro r h
    obtain ⟨v, hv, -⟩ := (atoiSafe_iff hs r).mp h
    exact ⟨v, hv⟩
  · intro v hv h1 h2
    have h : atoiSafe s = .ok v := by
      refine (atoiSafe_iff hs v).mpr ⟨v, hv, ?_⟩
      rw [if_neg (by unfold longMax; omega), if_neg (by unfold longMin; omega), toInt_id h1 h2]
    refine ⟨h, fun min max => ?_⟩
    unfold atoiSaferange
    rw [h]
    simp only
    constructor
    · split
      · constructor
        · intro hc; cases hc
        · intro hc; omega
      · exact ⟨fun _ => by omega, fun _ => rfl⟩
    · intro hc
      rw [if_pos (by omega)]
  · intro h min max
    unfold atoiSaferange
    cases ha : atoiSafe s with
    | ok r =>
      obtain ⟨v, hv, -⟩ := (atoiSafe_iff hs r).mp ha
      exact absurd ⟨v, hv⟩ h
    | notInt => rfl
    | outRange => rfl

/-- **C17** is false for larger numbers: "4294967376" is accepted as a port number, with the value
80. -/
theorem C17_truncation_counterexample :
    let s : List UInt8 := [52, 50, 57, 52, 57, 54, 55, 51, 55, 54]
    CStr s ∧ Numeral s 4294967376 ∧ atoiSaferange s 1 65535 = .ok 80 := by
  refine ⟨by unfold CStr; decide, ?_, by decide⟩
  exact Numeral.plain (ws := []) (by simp) (digitsDenote_of (by simp) (by decide))

/-! ### Concrete cases -/

example : atoiSaferange [32, 45, 49, 50] (-20) 20 = .ok (-12) := by decide
example : atoiSaferange [49, 50, 120] (-20) 20 = .notInt := by decide
example : Numeral [32, 45, 49, 50] (-12) :=
  .minus (ws := [32]) (n := 12) (by decide) (digitsDenote_of (by simp) (by decide))
example : strtolSaferange [49, 50, 120] 0 (-1) = .ok (12, 2) := by decide

end Verif.Str
