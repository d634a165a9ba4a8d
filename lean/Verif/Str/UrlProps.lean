import Verif.Str.Url

/-!
# C13: URL quoting

Full claim: unquoting reads no byte past the end of the string.  It is false
(`C13_unquote_overread_counterexample`): an incomplete escape of two characters at the end makes
`url_unquote2` look at the byte after the string.  The decoding is exact whenever that byte is not a
hexadecimal digit, which is so when the string is terminated by a NUL
(`C13_unquote_decodes_partial`).
-/

namespace Verif.Str

/-! ### Specification -/

/-- Value of a hexadecimal digit of either case. -/
def hexOf (c : UInt8) : Option Nat :=
  ['0', '1', '2', '3', '4', '5', '6', '7', '8', '9', 'a', 'b', 'c', 'd', 'e', 'f'].idxOf?
    (Char.ofNat c.toNat).toLower

/-- The hexadecimal digit of a value. -/
def digitOf (n : Nat) : UInt8 :=
  UInt8.ofNat ((['0', '1', '2', '3', '4', '5', '6', '7', '8', '9', 'A', 'B', 'C', 'D', 'E', 'F'].getD n '0').toNat)

/-- `t` is the text denoted by `s`: `+` stands for a blank, `%XY` for the byte with hexadecimal
code `XY` (either case), all others for themselves. -/
inductive Decodes : List UInt8 → List UInt8 → Prop
  | nil : Decodes [] []
  | plain {c s t} (h1 : c ≠ 37) (h2 : c ≠ 43) (h : Decodes s t) : Decodes (c :: s) (c :: t)
  | plus {s t} (h : Decodes s t) : Decodes (43 :: s) (32 :: t)
  | esc {a b x y s t} (ha : hexOf a = some x) (hb : hexOf b = some y) (h : Decodes s t) :
      Decodes (37 :: a :: b :: s) (UInt8.ofNat (16 * x + y) :: t)

/-- A letter, digit, or one of `-_.~` (RFC 3986 "unreserved"). -/
def Unreserved (c : UInt8) : Prop :=
  (Char.ofNat c.toNat).isAlphanum ∨ c = 45 ∨ c = 95 ∨ c = 46 ∨ c = 126

instance (c : UInt8) : Decidable (Unreserved c) := by unfold Unreserved; infer_instance

/-- The percent-encoding of a byte string. -/
def enc (b : List UInt8) : List UInt8 :=
  b.flatMap fun c => if Unreserved c then [c] else [37, digitOf (c.toNat / 16), digitOf (c.toNat % 16)]

theorem byteInd {P : UInt8 → Prop} (h : ∀ n : Fin 256, P (UInt8.ofNat n.val)) (c : UInt8) : P c := by
  have := h ⟨c.toNat, c.toNat_lt⟩
  simpa using this

theorem hexVal_eq (c : UInt8) : hexVal c = hexOf c :=
  byteInd (P := fun c => hexVal c = hexOf c) (by decide +kernel) c

theorem hexDigit_eq {n : Nat} (h : n < 16) : hexDigit n = digitOf n := by
  have : ∀ n : Fin 16, hexDigit n.val = digitOf n.val := by decide
  exact this ⟨n, h⟩

theorem plainQ_iff (c : UInt8) : plainQ c = true ↔ Unreserved c :=
  byteInd (P := fun c => (plainQ c = true ↔ Unreserved c)) (by unfold Unreserved; decide +kernel) c

/-! ### Lemmas -/

theorem hexVal_lt {c : UInt8} {x : Nat} (h : hexVal c = some x) : x < 16 ∧ c.toNat ≤ 127 := by
  unfold hexVal at h
  split at h
  · simp only [Option.some.injEq] at h; omega
  · split at h
    · simp only [Option.some.injEq] at h; omega
    · split at h
      · simp only [Option.some.injEq] at h; omega
      · cases h

theorem hexOf_digitOf {n : Nat} (h : n < 16) : hexOf (digitOf n) = some n := by
  have : ∀ n : Fin 16, hexOf (digitOf n.val) = some n.val := by decide
  exact this ⟨n, h⟩

theorem decodes_enc (b : List UInt8) : Decodes (enc b) b := by
  induction b with
  | nil => exact .nil
  | cons c b ih =>
    unfold enc
    rw [List.flatMap_cons]
    by_cases hp : Unreserved c
    · rw [if_pos hp]
      refine .plain ?_ ?_ ih
      · rintro rfl; exact absurd hp (by decide)
      · rintro rfl; exact absurd hp (by decide)
    · rw [if_neg hp]
      have hc := c.toNat_lt
      have := Decodes.esc (a := digitOf (c.toNat / 16)) (b := digitOf (c.toNat % 16))
        (hexOf_digitOf (by omega)) (hexOf_digitOf (by omega)) ih
      have e : UInt8.ofNat (16 * (c.toNat / 16) + c.toNat % 16) = c := by
        rw [Nat.div_add_mod]; simp
      rw [e] at this
      exact this

/-- Decoding is a function of the string. -/
theorem Decodes.det {s t t' : List UInt8} (h : Decodes s t) (h' : Decodes s t') : t = t' := by
  induction h generalizing t' with
  | nil => cases h'; rfl
  | plain h1 h2 h ih =>
    cases h' with
    | plain _ _ h'' => rw [ih h'']
    | plus => exact absurd rfl h2
    | esc => exact absurd rfl h1
  | plus h ih =>
    cases h' with
    | plain _ h2 _ => exact absurd rfl h2
    | plus h'' => rw [ih h'']
  | esc ha hb h ih =>
    cases h' with
    | plain h1 _ _ => exact absurd rfl h1
    | esc ha' hb' h'' =>
      rw [ha] at ha'; rw [hb] at hb'
      cases ha'; cases hb'
      rw [ih h'']

theorem Decodes.length_le {s t : List UInt8} (h : Decodes s t) : t.length ≤ s.length := by
  induction h with
  | nil => simp
  | plain _ _ _ ih => simp; omega
  | plus _ ih => simp; omega
  | esc _ _ _ ih => simp; omega

theorem rd_drop {a : List UInt8} {i : Nat} {x : UInt8} {l : List UInt8} (h : a.drop i = x :: l) :
    rd a i = .ok x ∧ a.drop (i + 1) = l ∧ i < a.length := by
  have hi : i < a.length := by
    rcases Nat.lt_or_ge i a.length with h' | h'
    · exact h'
    · rw [List.drop_eq_nil_of_le h'] at h; cases h
  rw [List.drop_eq_getElem_cons hi] at h
  injection h with h1 h2
  exact ⟨rd_ok (by rw [List.getElem?_eq_getElem hi, h1]), h2, hi⟩

/-- State of the loop: `s` is still to be decoded, followed by the byte `z`. -/
theorem unqLoop_spec (same : Bool) (z : UInt8) (rest : List UInt8) (hz : hexVal z = none) (len : Nat) :
    ∀ (f : Nat) (s src dst : List UInt8) (cp ocp : Nat) (outlen : Int), s.length ≤ f →
      src.drop cp = s ++ z :: rest → cp + s.length = len → ocp ≤ cp →
      (same = true → dst = src) → ocp + s.length ≤ dst.length →
      ∃ r dst', unqLoop same src dst len cp ocp outlen = .ok (r, dst') ∧ dst'.length = dst.length ∧
        dst'.take ocp = dst.take ocp ∧ dst'.drop (ocp + s.length) = dst.drop (ocp + s.length) ∧
        ((r = none ∧ ¬ ∃ t, Decodes s t) ∨
         ∃ t, Decodes s t ∧ r = some (outlen - (s.length - t.length : Nat)) ∧
          (dst'.drop ocp).take t.length = t)
  | f, [], src, dst, cp, ocp, outlen, hf, hs, hl, ho, hsame, hd => by
    unfold unqLoop
    rw [dif_neg (by simp at hl; omega)]
    exact ⟨_, _, rfl, rfl, rfl, rfl, .inr ⟨[], .nil, by simp, by simp⟩⟩
  | 0, c :: s, src, dst, cp, ocp, outlen, hf, hs, hl, ho, hsame, hd => by simp at hf
  | f + 1, c :: s, src, dst, cp, ocp, outlen, hf, hs, hl, ho, hsame, hd => by
    obtain ⟨r1, r2, r3⟩ := rd_drop hs
    simp only [List.length_cons] at hl hd hf
    have hod : ocp < dst.length := by omega
    have IH : ∀ (k : Nat) (s2 : List UInt8) (v : UInt8) (ol : Int), s2.length ≤ f →
        src.drop (cp + k) = s2 ++ z :: rest → k + s2.length = s.length + 1 → 1 ≤ k →
        ∃ r dst', unqLoop same (if same then dst.set ocp v else src) (dst.set ocp v) len (cp + k) (ocp + 1) ol
            = .ok (r, dst') ∧ dst'.length = dst.length ∧
          dst'.take ocp = dst.take ocp ∧ dst'.drop (ocp + (c :: s).length) = dst.drop (ocp + (c :: s).length) ∧
          ((r = none ∧ ¬ ∃ t, Decodes s2 t) ∨
           ∃ t, Decodes s2 t ∧ r = some (ol - (s2.length - t.length : Nat)) ∧
            (dst'.drop ocp).take (t.length + 1) = v :: t) := by
      intro k s2 v ol h1 h2 h3 h4
      obtain ⟨r, dst', u1, u2, u3, u4, u5⟩ := unqLoop_spec same z rest hz len f s2
        (if same then dst.set ocp v else src) (dst.set ocp v) (cp + k) (ocp + 1) ol h1 (by
          by_cases hsm : same = true
          · rw [if_pos hsm]
            rw [hsame hsm, List.drop_set, if_pos (by omega)]
            exact h2
          · rw [if_neg hsm]; exact h2) (by omega) (by omega)
        (fun hsm => by rw [if_pos hsm]) (by rw [List.length_set]; omega)
      have t1 : dst'.take ocp = dst.take ocp := by
        have := congrArg (List.take ocp) u3
        rw [List.take_take, List.take_take, Nat.min_eq_left (by omega)] at this
        rw [this, List.take_set]
        exact List.set_eq_of_length_le (by simp; omega)
      have t2 : dst'[ocp]? = some v := by
        have := congrArg (·[ocp]?) u3
        simp only [List.getElem?_take, if_pos (Nat.lt_succ_self ocp)] at this
        rw [this, List.getElem?_set_self hod]
      refine ⟨r, dst', u1, by rw [u2, List.length_set], t1, ?_, ?_⟩
      · have := congrArg (List.drop (ocp + (s.length + 1) - (ocp + 1 + s2.length))) u4
        rw [List.drop_drop, List.drop_drop, List.drop_set, if_pos (by omega)] at this
        simp only [List.length_cons]
        rw [show ocp + 1 + s2.length + (ocp + (s.length + 1) - (ocp + 1 + s2.length)) = ocp + (s.length + 1) by omega] at this
        exact this
      · rcases u5 with u5 | ⟨t, v1, v2, v3⟩
        · exact .inl u5
        · refine .inr ⟨t, v1, v2, ?_⟩
          have hlt : ocp < dst'.length := by rw [u2, List.length_set]; exact hod
          rw [List.getElem?_eq_getElem hlt] at t2
          simp only [Option.some.injEq] at t2
          rw [List.drop_eq_getElem_cons hlt, List.take_succ_cons, v3, t2]
    unfold unqLoop
    rw [dif_pos (by omega), r1]
    simp only
    by_cases hc : c = 37
    · rw [if_pos hc]
      subst hc
      cases s with
      | nil =>
        rw [if_pos (by simp at hl; omega)]
        exact ⟨_, _, rfl, rfl, rfl, rfl, .inl ⟨rfl, fun ⟨t, ht⟩ => by
          cases ht with | plain h1 _ _ => exact h1 rfl⟩⟩
      | cons a s =>
        rw [if_neg (by simp at hl; omega)]
        obtain ⟨a1, a2, a3⟩ := rd_drop r2
        rw [a1]
        simp only
        have bad : (¬ ∃ t, Decodes (37 :: a :: s) t) → ∀ P : Except Fault (Option Int × List UInt8), (P = Except.ok (none, dst)) →
            ∃ r dst', P = .ok (r, dst') ∧ dst'.length = dst.length ∧
              dst'.take ocp = dst.take ocp ∧ dst'.drop (ocp + (37 :: a :: s).length) = dst.drop (ocp + (37 :: a :: s).length) ∧
              ((r = none ∧ ¬ ∃ t, Decodes (37 :: a :: s) t) ∨
               ∃ t, Decodes (37 :: a :: s) t ∧ r = some (outlen - ((37 :: a :: s).length - t.length : Nat)) ∧
                (dst'.drop ocp).take t.length = t) :=
          fun h P hP => ⟨_, _, hP, rfl, rfl, rfl, .inl ⟨rfl, h⟩⟩
        by_cases h127 : a.toNat > 127
        · rw [if_pos h127]
          refine bad ?_ _ rfl
          rintro ⟨t, ht⟩
          cases ht with
          | plain h1 _ _ => exact h1 rfl
          | esc ha _ _ => rw [← hexVal_eq] at ha; have := (hexVal_lt ha).2; omega
        · rw [if_neg h127]
          cases s with
          | nil =>
            obtain ⟨b1, -, -⟩ := rd_drop a2
            rw [b1]
            simp only [hz]
            refine bad ?_ _ (by cases hexVal a <;> rfl)
            rintro ⟨t, ht⟩
            cases ht with
            | plain h1 _ _ => exact h1 rfl
          | cons b s =>
            obtain ⟨b1, b2, b3⟩ := rd_drop a2
            rw [b1]
            simp only
            cases hx : hexVal a with
            | none =>
              refine bad ?_ _ rfl
              rintro ⟨t, ht⟩
              cases ht with
              | plain h1 _ _ => exact h1 rfl
              | esc ha _ _ => rw [hexVal_eq, ha] at hx; cases hx
            | some x =>
              cases hy : hexVal b with
              | none =>
                refine bad ?_ _ rfl
                rintro ⟨t, ht⟩
                cases ht with
                | plain h1 _ _ => exact h1 rfl
                | esc _ hb _ => rw [hexVal_eq, hb] at hy; cases hy
              | some y =>
                simp only
                rw [wr_ok hod]
                simp only
                simp only [List.length_cons] at hf hd hl IH
                obtain ⟨r, dst', u1, u2, u3, u4, u5⟩ := IH 3 s (UInt8.ofNat (16 * x + y)) (outlen - 2) (by omega) b2 (by omega) (by omega)
                refine ⟨r, dst', u1, u2, u3, by simp only [List.length_cons]; exact u4, ?_⟩
                rcases u5 with ⟨v1, v2⟩ | ⟨t, v1, v2, v3⟩
                · left
                  refine ⟨v1, ?_⟩
                  rintro ⟨t, ht⟩
                  cases ht with
                  | plain h1 _ _ => exact h1 rfl
                  | esc _ _ h => exact v2 ⟨_, h⟩
                · right
                  have := v1.length_le
                  refine ⟨_, .esc (hexVal_eq a ▸ hx) (hexVal_eq b ▸ hy) v1, ?_, v3⟩
                  rw [v2]
                  simp only [List.length_cons]
                  congr 1
                  omega
    · rw [if_neg hc, wr_ok hod]
      simp only
      obtain ⟨r, dst', u1, u2, u3, u4, u5⟩ := IH 1 s (if c = 43 then 32 else c) outlen (by omega) r2 (by omega) (by omega)
      refine ⟨r, dst', u1, u2, u3, u4, ?_⟩
      rcases u5 with ⟨v1, v2⟩ | ⟨t, v1, v2, v3⟩
      · left
        refine ⟨v1, ?_⟩
        rintro ⟨t, ht⟩
        cases ht with
        | plain _ _ h => exact v2 ⟨_, h⟩
        | plus h => exact v2 ⟨_, h⟩
        | esc => exact hc rfl
      · right
        have := v1.length_le
        refine ⟨(if c = 43 then 32 else c) :: t, ?_, ?_, v3⟩
        · by_cases h43 : c = 43
          · rw [if_pos h43, h43]; exact .plus v1
          · rw [if_neg h43]; exact .plain hc h43 v1
        · rw [v2]
          simp only [List.length_cons]
          congr 1
          omega

theorem quoteLoop_spec (olen : Nat) : ∀ (b dst : List UInt8) (out : Nat), olen ≤ dst.length → out ≤ olen →
    ∃ r dst', quoteLoop olen b dst out = .ok (r, dst') ∧ dst'.length = dst.length ∧
      dst'.take out = dst.take out ∧ dst'.drop olen = dst.drop olen ∧
      ((r = none ∧ olen < out + (enc b).length) ∨
       (r = some (out + (enc b).length) ∧ out + (enc b).length ≤ olen ∧
         (dst'.drop out).take (enc b).length = enc b))
  | [], dst, out, h, ho => ⟨_, _, rfl, rfl, rfl, rfl, .inr ⟨by simp [enc], by simpa [enc] using ho, by simp [enc]⟩⟩
  | c :: cs, dst, out, h, ho => by
    unfold quoteLoop
    by_cases hp : plainQ c = true
    · rw [if_pos hp]
      have he : enc (c :: cs) = c :: enc cs := by
        show List.flatMap _ _ = _
        rw [List.flatMap_cons, if_pos ((plainQ_iff c).mp hp)]; rfl
      rw [he]
      by_cases h0 : olen - out = 0
      · rw [if_pos h0]
        exact ⟨_, _, rfl, rfl, rfl, rfl, .inl ⟨rfl, by simp; omega⟩⟩
      · rw [if_neg h0, wr_ok (by omega)]
        simp only
        obtain ⟨r, dst', u1, u2, u3, u4, u5⟩ := quoteLoop_spec olen cs (dst.set out c) (out + 1)
          (by rw [List.length_set]; exact h) (by omega)
        rw [List.length_set] at u2
        have hlt : out < dst'.length := by omega
        have t1 : dst'.take out = dst.take out := by
          have := congrArg (List.take out) u3
          rw [List.take_take, List.take_take, Nat.min_eq_left (by omega)] at this
          rw [this, List.take_set]
          exact List.set_eq_of_length_le (by simp; omega)
        have t2 : dst'[out]? = some c := by
          have := congrArg (·[out]?) u3
          simp only [List.getElem?_take, if_pos (Nat.lt_succ_self out)] at this
          rw [this, List.getElem?_set_self (by omega)]
        rw [List.getElem?_eq_getElem hlt] at t2
        simp only [Option.some.injEq] at t2
        refine ⟨r, dst', u1, u2, t1, by rw [u4, List.drop_set, if_pos (by omega)], ?_⟩
        rcases u5 with ⟨v1, v2⟩ | ⟨v1, v2, v3⟩
        · exact .inl ⟨v1, by simp; omega⟩
        · refine .inr ⟨by rw [v1]; simp; omega, by simp; omega, ?_⟩
          rw [List.length_cons, List.drop_eq_getElem_cons hlt, List.take_succ_cons, v3, t2]
    · rw [if_neg hp]
      have he : enc (c :: cs) = 37 :: hexDigit (c.toNat / 16) :: hexDigit (c.toNat % 16) :: enc cs := by
        show List.flatMap _ _ = _
        have hl := c.toNat_lt
        rw [List.flatMap_cons, if_neg (fun hc => hp ((plainQ_iff c).mpr hc)), hexDigit_eq (by omega),
          hexDigit_eq (by omega)]; rfl
      rw [he]
      by_cases h0 : olen - out < 3
      · rw [if_pos h0]
        exact ⟨_, _, rfl, rfl, rfl, rfl, .inl ⟨rfl, by simp; omega⟩⟩
      · rw [if_neg h0, wr_ok (by omega)]
        simp only
        rw [wr_ok (by rw [List.length_set]; omega)]
        simp only
        rw [wr_ok (by rw [List.length_set, List.length_set]; omega)]
        simp only
        generalize hx : hexDigit (c.toNat / 16) = x
        generalize hy : hexDigit (c.toNat % 16) = y
        obtain ⟨r, dst', u1, u2, u3, u4, u5⟩ := quoteLoop_spec olen cs
          (((dst.set out 37).set (out + 1) x).set (out + 2) y) (out + 3)
          (by simp; exact h) (by omega)
        simp only [List.length_set] at u2
        have e1 : ∀ k, k < out + 3 → dst'[k]? = (((dst.set out 37).set (out + 1) x).set (out + 2) y)[k]? := by
          intro k hk
          have := congrArg (·[k]?) u3
          simpa only [List.getElem?_take, if_pos hk] using this
        have g0 := e1 out (by omega)
        have g1 := e1 (out + 1) (by omega)
        have g2 := e1 (out + 2) (by omega)
        simp only [List.getElem?_set, List.length_set] at g0 g1 g2
        have l0 : out < dst'.length := by omega
        have l1 : out + 1 < dst'.length := by omega
        have l2 : out + 2 < dst'.length := by omega
        rw [List.getElem?_eq_getElem l0, if_neg (by omega), if_neg (by omega), if_true, if_pos (by omega)] at g0
        rw [List.getElem?_eq_getElem l1, if_neg (by omega), if_true, if_pos (by omega)] at g1
        rw [List.getElem?_eq_getElem l2, if_true, if_pos (by omega)] at g2
        simp only [Option.some.injEq] at g0 g1 g2
        refine ⟨r, dst', u1, u2, ?_, ?_, ?_⟩
        · have := congrArg (List.take out) u3
          rw [List.take_take, List.take_take, Nat.min_eq_left (by omega)] at this
          rw [this, List.take_set, List.take_set, List.take_set,
            List.set_eq_of_length_le (by simp; omega), List.set_eq_of_length_le (by simp; omega),
            List.set_eq_of_length_le (by simp; omega)]
        · rw [u4, List.drop_set, if_pos (by omega), List.drop_set, if_pos (by omega), List.drop_set,
            if_pos (by omega)]
        · rcases u5 with ⟨v1, v2⟩ | ⟨v1, v2, v3⟩
          · exact .inl ⟨v1, by simp; omega⟩
          · refine .inr ⟨by rw [v1]; simp; omega, by simp; omega, ?_⟩
            simp only [List.length_cons]
            rw [List.drop_eq_getElem_cons l0, List.take_succ_cons, List.drop_eq_getElem_cons l1,
              List.take_succ_cons, List.drop_eq_getElem_cons l2, List.take_succ_cons, v3, g0, g1, g2]

/-! ### Properties -/

/-- **C13**, quoting: for every text and every destination of at least the announced size there is no
access outside of the destination, no byte past the announced size changes, and the result is the
percent-encoding exactly when it fits; otherwise failure is reported. -/
theorem C13_quote_within_bounds (b obuf : List UInt8) (olen : Nat) (h : olen ≤ obuf.length) :
    ∃ r obuf', quote b obuf olen = .ok (r, obuf') ∧ obuf'.length = obuf.length ∧
      obuf'.drop olen = obuf.drop olen ∧
      ((r = none ∧ olen < (enc b).length) ∨
       (r = some (enc b).length ∧ (enc b).length ≤ olen ∧ obuf'.take (enc b).length = enc b)) := by
  obtain ⟨r, d, h1, h2, -, h4, h5⟩ := quoteLoop_spec olen b obuf 0 h (Nat.zero_le _)
  simp only [Nat.zero_add, List.drop_zero] at h5
  exact ⟨r, d, h1, h2, h4, h5⟩

/-- **C13**, what the percent-encoding is: unreserved characters stay, all others become `%XX`. -/
theorem C13_encoding_is_percent_encoding (b : List UInt8) :
    (∀ c ∈ enc b, Unreserved c ∨ c = 37) ∧ Decodes (enc b) b := by
  refine ⟨?_, decodes_enc b⟩
  intro c hc
  unfold enc at hc
  rw [List.mem_flatMap] at hc
  obtain ⟨a, -, ha⟩ := hc
  by_cases hp : Unreserved a
  · rw [if_pos hp, List.mem_singleton] at ha
    exact .inl (by rw [ha]; exact hp)
  · rw [if_neg hp] at ha
    have : ∀ n : Fin 16, Unreserved (digitOf n.val) := by decide
    simp only [List.mem_cons, List.not_mem_nil, or_false] at ha
    have hl := a.toNat_lt
    rcases ha with rfl | rfl | rfl
    · exact .inr rfl
    · exact .inl (this ⟨a.toNat / 16, by omega⟩)
    · exact .inl (this ⟨a.toNat % 16, by omega⟩)

/-- **C13**, unquoting, provided that the byte following the string is not a hexadecimal digit:
into another buffer of sufficient size or in place, there is no access outside of the buffers, only the first
`len` bytes of the destination may change, and the string is accepted exactly when it is a valid
encoding; then the returned length and the bytes are those of the decoded text. -/
theorem C13_unquote_decodes_partial (s rest : List UInt8) (z : UInt8) (hz : hexOf z = none) :
    (∀ obuf : List UInt8, s.length ≤ obuf.length →
      ∃ r obuf', unquote2 (s ++ z :: rest) obuf s.length = .ok (r, obuf') ∧
        obuf'.length = obuf.length ∧ obuf'.drop s.length = obuf.drop s.length ∧
        ((r = none ∧ ¬ ∃ t, Decodes s t) ∨
         ∃ t : List UInt8, Decodes s t ∧ r = some (t.length : Int) ∧ obuf'.take t.length = t)) ∧
    (∃ r buf', unquote (s ++ z :: rest) s.length = .ok (r, buf') ∧
        buf'.drop s.length = z :: rest ∧
        ((r = none ∧ ¬ ∃ t, Decodes s t) ∨
         ∃ t : List UInt8, Decodes s t ∧ r = some (t.length : Int) ∧ buf'.take t.length = t)) := by
  refine ⟨fun obuf ho => ?_, ?_⟩
  · obtain ⟨r, d, h1, h2, -, h4, h5⟩ := unqLoop_spec false z rest ((hexVal_eq z).trans hz) s.length s.length s (s ++ z :: rest) obuf 0 0
      s.length (Nat.le_refl _) rfl (by omega) (Nat.le_refl _) (fun h => by cases h) (by omega)
    simp only [Nat.zero_add, List.drop_zero] at h4 h5
    refine ⟨r, d, h1, h2, h4, ?_⟩
    rcases h5 with h5 | ⟨t, v1, v2, v3⟩
    · exact .inl h5
    · refine .inr ⟨t, v1, ?_, v3⟩
      have := v1.length_le
      rw [v2]; congr 1; omega
  · obtain ⟨r, d, h1, h2, -, h4, h5⟩ := unqLoop_spec true z rest ((hexVal_eq z).trans hz) s.length s.length s (s ++ z :: rest) (s ++ z :: rest) 0 0
      s.length (Nat.le_refl _) rfl (by omega) (Nat.le_refl _) (fun _ => rfl) (by simp)
    simp only [Nat.zero_add, List.drop_zero] at h4 h5
    refine ⟨r, d, h1, by rw [h4]; simp, ?_⟩
    rcases h5 with h5 | ⟨t, v1, v2, v3⟩
    · exact .inl h5
    · refine .inr ⟨t, v1, ?_, v3⟩
      have := v1.length_le
      rw [v2]; congr 1; omega

/-- **C13**, round trip: what `url_quote` produced is decoded to the original text, whatever byte
follows it in memory. -/
theorem C13_roundtrip (b obuf obuf' rest dst : List UInt8) (olen n : Nat) (z : UInt8)
    (h : olen ≤ obuf.length) (hz : hexOf z = none)
    (hq : quote b obuf olen = .ok (some n, obuf')) (hd : n ≤ dst.length) :
    ∃ dst', unquote2 (obuf'.take n ++ z :: rest) dst n = .ok (some (b.length : Int), dst') ∧
      dst'.take b.length = b := by
  obtain ⟨r, o, h1, -, -, h4⟩ := C13_quote_within_bounds b obuf olen h
  rw [hq] at h1
  simp only [Except.ok.injEq, Prod.mk.injEq] at h1
  obtain ⟨rfl, rfl⟩ := h1
  rcases h4 with ⟨h4, -⟩ | ⟨h4, h5, h6⟩
  · cases h4
  · cases h4
    rw [h6]
    obtain ⟨r, d, u1, -, -, u4⟩ := (C13_unquote_decodes_partial (enc b) rest z hz).1 dst hd
    rcases u4 with ⟨-, u4⟩ | ⟨t, v1, v2, v3⟩
    · exact absurd ⟨b, decodes_enc b⟩ u4
    · have := v1.det (decodes_enc b)
      subst this
      rw [v2] at u1
      exact ⟨d, u1, v3⟩

/-- **C13** is false as far as reading is concerned: the string `%4` makes `url_unquote2` read the
byte after it.  If the array ends there this is undefined behaviour; if a hexadecimal digit follows
(here: `1`), the invalid string is accepted, and the reported length (0) is not the number of
bytes written (1). -/
theorem C13_unquote_overread_counterexample :
    unquote2 [37, 52] [0, 0] 2 = .error .ub ∧
    unquote2 [37, 52, 49] [0, 0] 2 = .ok (some 0, [65, 0]) ∧ ¬ ∃ t, Decodes [37, 52] t := by
  refine ⟨?_, ?_, ?_⟩
  · simp [unquote2, unqLoop, rd]
  · simp [unquote2, unqLoop, rd, wr, hexVal]
  · rintro ⟨t, ht⟩
    cases ht with
    | plain h1 _ _ => exact h1 rfl

/-! ### Concrete cases -/

example : quote [97, 32, 37] (List.replicate 8 0) 8 = .ok (some 7, [97, 37, 50, 48, 37, 50, 53, 0]) := by rfl
example : quote [97, 32, 37] (List.replicate 8 0) 6 = .ok (none, [97, 37, 50, 48, 0, 0, 0, 0]) := by rfl
example : hexOf 0 = none := by decide
example : Decodes [97, 43, 37, 50, 53] [97, 32, 37] :=
  .plain (by decide) (by decide) (.plus (.esc (x := 2) (y := 5) (by decide) (by decide) .nil))

end Verif.Str
