import Verif.Util.Dec

/-!
# A reader for JSON (RFC 8259) without escapes, fractions, exponents and literals

A text is cut into tokens by `toks`; `Val` is the grammar of values.
-/

namespace Verif.Json

inductive J where
  | num (n : Int)
  | arr (l : List J)
  | obj (l : List (List UInt8 × J))

inductive Tok where
  | lb | rb | ls | rs | comma | colon
  | str (s : List UInt8)
  | num (n : Int)
  deriving DecidableEq, Repr

/-- White space and the structural characters: the tokens they make. -/
def single (c : UInt8) : Option (List Tok) :=
  if c = 32 ∨ c = 10 ∨ c = 13 ∨ c = 9 then some []
  else if c = 123 then some [.lb] else if c = 125 then some [.rb] else if c = 91 then some [.ls] else if c = 93 then some [.rs]
  else if c = 44 then some [.comma] else if c = 58 then some [.colon] else none

def digit (c : UInt8) : Bool := decide (48 ≤ c.toNat ∧ c.toNat ≤ 57)

/-- Value of the digits, the last one first; at least one, and no zero in front of others. -/
def value : List UInt8 → Option Nat
  | [] => none
  | [c] => some (c.toNat - 48)
  | c :: cs =>
    match value cs with
    | none => none
    | some 0 => none
    | some n => some (10 * n + (c.toNat - 48))

def number (neg : Bool) (ds : List UInt8) : Option Tok :=
  match value ds with
  | none => none
  | some n => some (.num (if neg then -n else n))

inductive S where
  | idle
  | str (acc : List UInt8)
  | num (neg : Bool) (acc : List UInt8)
  deriving DecidableEq

def lexGo : S → List UInt8 → Option (List Tok)
  | .idle, [] => some []
  | .idle, c :: cs =>
    match single c with
    | some ts => (lexGo .idle cs).map (ts ++ ·)
    | none =>
      if c = 34 then lexGo (.str []) cs
      else if c = 45 then lexGo (.num true []) cs
      else if digit c then lexGo (.num false [c]) cs
      else none
  | .str _, [] => none
  | .str acc, c :: cs =>
    if c = 34 then (lexGo .idle cs).map (Tok.str acc.reverse :: ·)
    else if c = 92 ∨ c.toNat < 32 then none
    else lexGo (.str (c :: acc)) cs
  | .num neg acc, [] => (number neg acc).map ([·])
  | .num neg acc, c :: cs =>
    if digit c then lexGo (.num neg (c :: acc)) cs
    else match single c, number neg acc with
      | some ts, some t => (lexGo .idle cs).map (t :: ts ++ ·)
      | _, _ => none

/-- The tokens of a text. -/
def toks (l : List UInt8) : Option (List Tok) := lexGo .idle l

mutual
inductive Val : List Tok → J → Prop
  | num (n : Int) : Val [.num n] (.num n)
  | none : Val [.ls, .rs] (.arr [])
  | arr {ts : List Tok} {l : List J} (h : Elems ts l) : Val (.ls :: (ts ++ [.rs])) (.arr l)
  | empty : Val [.lb, .rb] (.obj [])
  | obj {ts : List Tok} {l : List (List UInt8 × J)} (h : Members ts l) : Val (.lb :: (ts ++ [.rb])) (.obj l)
inductive Elems : List Tok → List J → Prop
  | one {ts : List Tok} {v : J} (h : Val ts v) : Elems ts [v]
  | cons {ts us : List Tok} {v : J} {l : List J} (h : Val ts v) (g : Elems us l) : Elems (ts ++ .comma :: us) (v :: l)
inductive Members : List Tok → List (List UInt8 × J) → Prop
  | one {ts : List Tok} {k : List UInt8} {v : J} (h : Val ts v) : Members (.str k :: .colon :: ts) [(k, v)]
  | cons {ts us : List Tok} {k : List UInt8} {v : J} {l : List (List UInt8 × J)} (h : Val ts v) (g : Members us l) :
      Members (.str k :: .colon :: (ts ++ .comma :: us)) ((k, v) :: l)
end

/-- A text that is one value. -/
def Reads (l : List UInt8) (v : J) : Prop := ∃ ts, toks l = some ts ∧ Val ts v

/-! ### Lemmas -/

/-- A text that may be cut off before what follows. -/
def Lexes (a : List UInt8) (ta : List Tok) : Prop := ∀ rest, lexGo .idle (a ++ rest) = (lexGo .idle rest).map (ta ++ ·)

theorem Lexes.nil : Lexes [] [] := fun rest => by
  rw [List.nil_append]; cases lexGo .idle rest <;> rfl

theorem Lexes.append {a b : List UInt8} {ta tb : List Tok} (ha : Lexes a ta) (hb : Lexes b tb) : Lexes (a ++ b) (ta ++ tb) := by
  intro rest
  rw [List.append_assoc, ha, hb, Option.map_map]
  congr 1
  funext x
  simp [List.append_assoc]

theorem Lexes.toks {a : List UInt8} {ta : List Tok} (h : Lexes a ta) : toks a = some ta := by
  have := h []
  rw [List.append_nil] at this
  unfold Json.toks
  rw [this]
  change some (ta ++ []) = _
  rw [List.append_nil]

theorem digit_isDigit {c : UInt8} (h : Str.isDigit c = true) : digit c = true := h

theorem single_digit {c : UInt8} (h : digit c = true) : single c = none := by
  unfold digit at h
  simp only [decide_eq_true_eq] at h
  unfold single
  have h1 : ¬ (c = 32 ∨ c = 10 ∨ c = 13 ∨ c = 9) := by rintro (rfl | rfl | rfl | rfl) <;> simp at h
  have h2 : c ≠ 123 := by rintro rfl; simp at h
  have h3 : c ≠ 125 := by rintro rfl; simp at h
  have h4 : c ≠ 91 := by rintro rfl; simp at h
  have h5 : c ≠ 93 := by rintro rfl; simp at h
  have h6 : c ≠ 44 := by rintro rfl; simp at h
  have h7 : c ≠ 58 := by rintro rfl; simp at h
  rw [if_neg h1, if_neg h2, if_neg h3, if_neg h4, if_neg h5, if_neg h6, if_neg h7]

/-- Digits are collected. -/
theorem lex_digits (neg : Bool) (rest : List UInt8) : ∀ (ds acc : List UInt8), (∀ c ∈ ds, digit c = true) →
    lexGo (.num neg acc) (ds ++ rest) = lexGo (.num neg (ds.reverse ++ acc)) rest
  | [], acc, _ => rfl
  | c :: ds, acc, h => by
    rw [List.cons_append, lexGo, if_pos (h c (by simp)), lex_digits neg rest ds (c :: acc) (fun x hx => h x (List.mem_cons_of_mem _ hx))]
    simp

theorem value_dec (n : Nat) : value (Dec.dec n).reverse = some n := by
  induction n using Nat.strongRecOn with
  | ind n ih =>
    rw [Dec.dec]
    by_cases h : n < 10
    · rw [dif_pos h]
      simp only [List.reverse_singleton, value]
      rw [Dec.byte_toNat h]; congr 1; omega
    · rw [dif_neg h, List.reverse_append, List.reverse_singleton, List.singleton_append]
      have := ih (n / 10) (by omega)
      rcases hr : (Dec.dec (n / 10)).reverse with _ | ⟨d, ds⟩
      · rw [hr] at this; cases this
      · rw [hr] at this
        unfold value
        rw [this]
        have h0 : n / 10 ≠ 0 := by omega
        rcases hn : n / 10 with _ | k
        · exact absurd hn h0
        · simp only
          rw [Dec.byte_toNat (by omega)]; congr 1; omega

theorem lex_end (c : UInt8) (rest : List UInt8) (ts : List Tok) (hc : single c = some ts) {neg : Bool} {acc : List UInt8} {t : Tok}
    (hn : number neg acc = some t) : lexGo (.num neg acc) (c :: rest) = (lexGo .idle (c :: rest)).map (t :: ·) := by
  have hnd : digit c = false := by
    cases h : digit c with
    | false => rfl
    | true => rw [single_digit h] at hc; cases hc
  have e1 : lexGo (.num neg acc) (c :: rest) = (lexGo .idle rest).map (t :: ts ++ ·) := by
    conv_lhs => unfold lexGo
    simp [hnd, hc, hn]
  have e2 : lexGo .idle (c :: rest) = (lexGo .idle rest).map (ts ++ ·) := by
    conv_lhs => unfold lexGo
    simp [hc]
  rw [e1, e2, Option.map_map]
  congr 1

/-- A number in front of white space or a structural character. -/
theorem lex_dec (n : Nat) (c : UInt8) (rest : List UInt8) (ts : List Tok) (hc : single c = some ts) :
    lexGo .idle (Dec.dec n ++ c :: rest) = (lexGo .idle (c :: rest)).map (Tok.num n :: ·) := by
  rcases hd : Dec.dec n with _ | ⟨d, ds⟩
  · exact absurd hd (Dec.dec_ne_nil n)
  have hall : ∀ x ∈ d :: ds, digit x = true := fun x hx => digit_isDigit (Dec.dec_digit n x (hd ▸ hx))
  have hd0 := hall d (by simp)
  have h34 : d ≠ 34 := by rintro rfl; simp [digit] at hd0
  have h45 : d ≠ 45 := by rintro rfl; simp [digit] at hd0
  have hv := value_dec n
  rw [hd, List.reverse_cons] at hv
  have e1 : lexGo .idle (d :: ds ++ c :: rest) = lexGo (.num false [d]) (ds ++ c :: rest) := by
    rw [List.cons_append]
    conv_lhs => unfold lexGo
    simp [single_digit hd0, h34, h45, hd0]
  have hnum : number false (ds.reverse ++ [d]) = some (.num n) := by
    unfold number; rw [hv]; simp
  rw [e1, lex_digits false _ ds [d] (fun x hx => hall x (List.mem_cons_of_mem _ hx))]
  exact lex_end c rest ts hc hnum

theorem lex_decI (n : Int) (c : UInt8) (rest : List UInt8) (ts : List Tok) (hc : single c = some ts) :
    lexGo .idle (Dec.decI n ++ c :: rest) = (lexGo .idle (c :: rest)).map (Tok.num n :: ·) := by
  unfold Dec.decI
  by_cases h : n < 0
  · rw [if_pos h]
    have hall : ∀ x ∈ Dec.dec n.natAbs, digit x = true := fun x hx => digit_isDigit (Dec.dec_digit _ x hx)
    have e1 : lexGo .idle (45 :: Dec.dec n.natAbs ++ c :: rest) = lexGo (.num true []) (Dec.dec n.natAbs ++ c :: rest) := by
      rw [List.cons_append]
      conv_lhs => unfold lexGo
      simp [show single 45 = none from by decide]
    have hnum : number true ((Dec.dec n.natAbs).reverse ++ []) = some (.num n) := by
      unfold number; rw [List.append_nil, value_dec]
      simp only [if_true, Option.some.injEq, Tok.num.injEq]
      omega
    rw [e1, lex_digits true _ _ [] hall]
    exact lex_end c rest ts hc hnum
  · rw [if_neg h, lex_dec _ c rest ts hc]
    have : (n.natAbs : Int) = n := by omega
    rw [this]

/-- The tokens of the beginning of a text, and the state after it. -/
def lexP : S → List UInt8 → Option (List Tok × S)
  | s, [] => some ([], s)
  | .idle, c :: cs =>
    match single c with
    | some ts => (lexP .idle cs).map fun p => (ts ++ p.1, p.2)
    | none =>
      if c = 34 then lexP (.str []) cs
      else if c = 45 then lexP (.num true []) cs
      else if digit c then lexP (.num false [c]) cs
      else none
  | .str acc, c :: cs =>
    if c = 34 then (lexP .idle cs).map fun p => (Tok.str acc.reverse :: p.1, p.2)
    else if c = 92 ∨ c.toNat < 32 then none
    else lexP (.str (c :: acc)) cs
  | .num neg acc, c :: cs =>
    if digit c then lexP (.num neg (c :: acc)) cs
    else match single c, number neg acc with
      | some ts, some t => (lexP .idle cs).map fun p => (t :: ts ++ p.1, p.2)
      | _, _ => none

theorem lexP_spec (rest : List UInt8) : ∀ (a : List UInt8) (s s' : S) (ta : List Tok), lexP s a = some (ta, s') →
    lexGo s (a ++ rest) = (lexGo s' rest).map (ta ++ ·) := by
  intro a
  induction a with
  | nil =>
    intro s s' ta h
    have : ta = [] ∧ s' = s := by
      unfold lexP at h
      simp only [Option.some.injEq, Prod.mk.injEq] at h
      exact ⟨h.1.symm, h.2.symm⟩
    obtain ⟨rfl, rfl⟩ := this
    rw [List.nil_append]
    cases lexGo s' rest <;> rfl
  | cons c cs ih =>
    have key : ∀ (u s' : S) (pre ta : List Tok), (lexP u cs).map (fun p => (pre ++ p.1, p.2)) = some (ta, s') →
        (lexGo u (cs ++ rest)).map (pre ++ ·) = (lexGo s' rest).map (ta ++ ·) := by
      intro u s' pre ta h
      cases hq : lexP u cs with
      | none => rw [hq] at h; cases h
      | some q =>
        rw [hq] at h
        obtain ⟨q1, q2⟩ := q
        simp only [Option.map_some, Option.some.injEq, Prod.mk.injEq] at h
        obtain ⟨rfl, rfl⟩ := h
        rw [ih u q2 q1 hq, Option.map_map]
        congr 1
        funext x
        simp
    intro s s' ta h
    cases s with
    | idle =>
      unfold lexP at h
      rw [List.cons_append]
      conv_lhs => unfold lexGo
      cases hs : single c with
      | some ts =>
        rw [hs] at h
        exact key _ _ _ _ h
      | none =>
        rw [hs] at h
        simp only at h ⊢
        split at h
        · rename_i hc; rw [if_pos hc]; exact ih _ _ _ h
        · rename_i hc; rw [if_neg hc]
          split at h
          · rename_i hc; rw [if_pos hc]; exact ih _ _ _ h
          · rename_i hc; rw [if_neg hc]
            split at h
            · rename_i hc; rw [if_pos hc]; exact ih _ _ _ h
            · cases h
    | str acc =>
      unfold lexP at h
      rw [List.cons_append]
      conv_lhs => unfold lexGo
      split at h
      · rename_i hc; rw [if_pos hc]; exact key _ _ [Tok.str acc.reverse] _ h
      · rename_i hc; rw [if_neg hc]
        split at h
        · cases h
        · rename_i hc; rw [if_neg hc]; exact ih _ _ _ h
    | num neg acc =>
      unfold lexP at h
      rw [List.cons_append]
      conv_lhs => unfold lexGo
      split at h
      · rename_i hc; rw [if_pos hc]; exact ih _ _ _ h
      · rename_i hc; rw [if_neg hc]
        cases hs : single c with
        | none => rw [hs] at h; cases h
        | some ts =>
          cases hn : number neg acc with
          | none => rw [hs, hn] at h; cases h
          | some t =>
            rw [hs, hn] at h
            exact key _ _ (t :: ts) _ h

/-- A text without an unfinished token. -/
theorem Lexes.of {a : List UInt8} {ta : List Tok} (h : lexP .idle a = some (ta, .idle)) : Lexes a ta :=
  fun rest => lexP_spec rest a _ _ _ h

/-- A text that ends with a number. -/
def LexesN (a : List UInt8) (ta : List Tok) : Prop :=
  ∀ c rest ts, single c = some ts → lexGo .idle (a ++ c :: rest) = (lexGo .idle (c :: rest)).map (ta ++ ·)

theorem Lexes.int {a : List UInt8} {ta : List Tok} (h : Lexes a ta) (n : Int) : LexesN (a ++ Dec.decI n) (ta ++ [.num n]) := by
  intro c rest ts hc
  rw [List.append_assoc, h, lex_decI n c rest ts hc, Option.map_map]
  congr 1
  funext x
  simp

theorem Lexes.nat {a : List UInt8} {ta : List Tok} (h : Lexes a ta) (n : Nat) : LexesN (a ++ Dec.dec n) (ta ++ [.num n]) := by
  have := h.int n
  have e : Dec.decI (n : Int) = Dec.dec n := by unfold Dec.decI; rw [if_neg (by omega), Int.natAbs_natCast]
  rwa [e] at this

theorem LexesN.append {a b : List UInt8} {ta tb : List Tok} (ha : LexesN a ta) (hb : Lexes b tb)
    (h : ∃ c b' ts, b = c :: b' ∧ single c = some ts) : Lexes (a ++ b) (ta ++ tb) := by
  obtain ⟨c, b', ts, rfl, hc⟩ := h
  intro rest
  rw [List.append_assoc, List.cons_append, ha c _ ts hc, ← List.cons_append, hb, Option.map_map]
  congr 1
  funext x
  simp

end Verif.Json
