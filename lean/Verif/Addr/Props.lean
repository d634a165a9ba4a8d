import Verif.Addr.Model
import Verif.Str.NumProps
import Mathlib.Tactic.Conv
import Mathlib.Data.List.TakeWhile

/-!
# C45: address and label extraction
-/

namespace Verif.Addr
open Verif.Str

/-! ## Specification -/

/-- A character of a dotted address. -/
def V4Char (c : UInt8) : Prop := (48 ≤ c.toNat ∧ c.toNat ≤ 57) ∨ c.toNat = 46
/-- A character of an IPv6 address. -/
def V6Char (c : UInt8) : Prop :=
  (48 ≤ c.toNat ∧ c.toNat ≤ 57) ∨ (65 ≤ c.toNat ∧ c.toNat ≤ 70) ∨ (97 ≤ c.toNat ∧ c.toNat ≤ 102) ∨ c.toNat = 58

/-- The string `s` begins with the address `a` (in brackets if it is an IPv6 one), `r` is what follows. -/
inductive IsAddr : Bool → List UInt8 → List UInt8 → List UInt8 → Prop
  | v4 {a r : List UInt8} (hne : a ≠ []) (ha : ∀ c ∈ a, V4Char c) (hr : ∀ c ∈ r.head?, ¬ V4Char c) : IsAddr false (a ++ r) a r
  | v6 {a r : List UInt8} (hne : a ≠ []) (ha : ∀ c ∈ a, V6Char c) : IsAddr true (91 :: (a ++ 93 :: r)) a r

/-- The string `s` begins with the label `l` in braces, `r` is what follows. -/
inductive IsLabel : List UInt8 → List UInt8 → List UInt8 → Prop
  | mk {l r : List UInt8} (hne : l ≠ []) (hl : (125 : UInt8) ∉ l) : IsLabel (123 :: (l ++ 125 :: r)) l r

/-! ## Lemmas -/

theorem inV4_iff (c : UInt8) : inV4 c = true ↔ V4Char c := by
  simp only [inV4, isDigit, V4Char, Bool.or_eq_true, decide_eq_true_eq, beq_iff_eq]
  constructor
  · rintro (h | rfl)
    · exact .inl h
    · exact .inr rfl
  · rintro (h | h)
    · exact .inl h
    · exact .inr (UInt8.toNat_inj.1 h)

theorem inV6_iff (c : UInt8) : inV6 c = true ↔ V6Char c := by
  simp only [inV6, isXdigit, isDigit, V6Char, Bool.or_eq_true, decide_eq_true_eq, beq_iff_eq, Bool.and_eq_true,
    UInt8.le_iff_toNat_le]
  constructor
  · rintro (((h | h) | h) | rfl)
    · exact .inl h
    · exact .inr (.inl h)
    · exact .inr (.inr (.inl h))
    · exact .inr (.inr (.inr rfl))
  · rintro (h | h | h | h)
    · exact .inl (.inl (.inl h))
    · exact .inl (.inl (.inr h))
    · exact .inl (.inr h)
    · exact .inr (UInt8.toNat_inj.1 h)

theorem scan_ok {p : UInt8 → Bool} : ∀ (a pre : List UInt8) (x : UInt8) (post : List UInt8),
    (∀ c ∈ a, c ≠ 0 ∧ p c = true) → (x = 0 ∨ p x = false) →
    scan p (pre ++ (a ++ x :: post)) pre.length = .ok (pre.length + a.length)
  | [], pre, x, post, _, hx => by
    rw [scan]
    split
    · rename_i h; simp at h
    · rename_i c h
      simp at h
      subst h
      rcases hx with rfl | hx
      · simp
      · simp [hx]
  | b :: a, pre, x, post, ha, hx => by
    have ih := scan_ok a (pre ++ [b]) x post (fun c hc => ha c (by simp [hc])) hx
    rw [scan]
    split
    · rename_i h; simp at h
    · rename_i c h
      simp at h
      subst h
      have hb := ha b (by simp)
      rw [if_pos ⟨hb.1, hb.2⟩]
      simp only [List.append_assoc, List.length_append, List.length_singleton, List.singleton_append] at ih
      rw [List.cons_append, ih]
      simp only [List.length_cons]
      congr 1
      omega

/-- A string in memory: something before it, its terminator, something after it. -/
def At (mem : List UInt8) (i : Nat) (s : List UInt8) : Prop :=
  CStr s ∧ ∃ pre post, mem = pre ++ (s ++ 0 :: post) ∧ i = pre.length

theorem split_while (p : UInt8 → Bool) (s : List UInt8) : s = s.takeWhile p ++ s.dropWhile p ∧
    (∀ c ∈ s.takeWhile p, p c = true) ∧ (∀ c ∈ (s.dropWhile p).head?, p c = false) := by
  refine ⟨(List.takeWhile_append_dropWhile).symm, ?_, ?_⟩
  · intro c hc; exact List.mem_takeWhile_imp hc
  · intro c hc
    induction s with
    | nil => simp at hc
    | cons x s ih =>
      rw [List.dropWhile_cons] at hc
      split at hc
      · exact ih hc
      · simp at hc; subst hc; simp_all

/-- Scanning a string stops after its longest prefix of matching characters. -/
theorem scan_at {p : UInt8 → Bool} {mem : List UInt8} {i : Nat} {s : List UInt8} (h : At mem i s) :
    scan p mem i = .ok (i + (s.takeWhile p).length) := by
  obtain ⟨hs, pre, post, rfl, rfl⟩ := h
  obtain ⟨h1, h2, h3⟩ := split_while p s
  have hz : ∀ c ∈ s.takeWhile p, c ≠ 0 ∧ p c = true := fun c hc => ⟨hs c ((List.takeWhile_sublist p).subset hc), h2 c hc⟩
  cases hd : s.dropWhile p with
  | nil =>
    have e : s = s.takeWhile p := by rw [hd] at h1; simpa using h1
    conv_lhs => rw [e]
    exact scan_ok _ pre 0 post hz (.inl rfl)
  | cons x r =>
    have e : s ++ 0 :: post = s.takeWhile p ++ x :: (r ++ 0 :: post) := by
      conv_lhs => rw [h1, hd]
      simp
    rw [e]
    exact scan_ok _ pre x _ hz (.inr (h3 x (by rw [hd]; simp)))

theorem At.cons {mem : List UInt8} {i : Nat} {a r : List UInt8} (h : At mem i (a ++ r)) : At mem (i + a.length) r := by
  obtain ⟨hs, pre, post, rfl, rfl⟩ := h
  exact ⟨fun c hc => hs c (by simp [hc]), pre ++ a, post, by simp, by simp⟩

theorem At.head {mem : List UInt8} {i : Nat} {s : List UInt8} (h : At mem i s) : rd mem i = .ok (s.headD 0) := by
  obtain ⟨-, pre, post, rfl, rfl⟩ := h
  cases s <;> exact rd_ok (by simp)

theorem At.take {mem : List UInt8} {i : Nat} {a r : List UInt8} (h : At mem i (a ++ r)) : (mem.drop i).take a.length = a := by
  obtain ⟨-, pre, post, rfl, rfl⟩ := h
  simp

/-- `strchr` on a string. -/
theorem strchr_at {mem : List UInt8} {i : Nat} {s : List UInt8} {ch : UInt8} (hc : ch ≠ 0) (h : At mem i s) :
    (ch ∉ s → strchr mem i ch = .ok none) ∧
    (∀ l r, s = l ++ ch :: r → ch ∉ l → strchr mem i ch = .ok (some (i + l.length))) := by
  constructor
  · intro hn
    have e : s.takeWhile (· != ch) = s := by
      rw [List.takeWhile_eq_self_iff]
      intro c hcs
      simp only [bne_iff_ne, ne_eq]
      rintro rfl
      exact hn hcs
    unfold strchr
    rw [scan_at h, e]
    simp only
    have := At.head (At.cons (a := s) (r := []) (by simpa using h))
    rw [this]
    simp [Ne.symm hc]
  · rintro l r rfl hn
    have e : (l ++ ch :: r).takeWhile (· != ch) = l := by
      refine takeWhile_prefix ?_ ?_
      · intro c hcs
        simp only [bne_iff_ne, ne_eq]
        rintro rfl
        exact hn hcs
      · simp
    unfold strchr
    rw [scan_at h, e]
    simp only
    rw [At.head (At.cons h)]
    simp

/-! ## Theorems -/

theorem isAddr_v4_iff {s a r : List UInt8} (h0 : s.headD 0 ≠ 91) {v6 : Bool} (h : IsAddr v6 s a r) :
    v6 = false ∧ a = s.takeWhile inV4 ∧ a ≠ [] ∧ s = a ++ r := by
  cases h with
  | v4 hne ha hr =>
    refine ⟨rfl, ?_, hne, rfl⟩
    exact (takeWhile_prefix (fun c hc => (inV4_iff c).2 (ha c hc))
      (fun c hc => by simpa using fun e => hr c hc ((inV4_iff c).1 e))).symm
  | v6 hne ha => simp at h0

theorem v6_not93 : inV6 93 = false := by decide
theorem v4_not91 : inV4 91 = false := by decide

theorem isAddr_v6_iff {t a r : List UInt8} {v6 : Bool} (h : IsAddr v6 (91 :: t) a r) :
    v6 = true ∧ a = t.takeWhile inV6 ∧ a ≠ [] ∧ t = a ++ 93 :: r := by
  generalize hs : (91 : UInt8) :: t = s at h
  cases h with
  | v4 hne ha hr =>
    obtain ⟨x, a', rfl⟩ : ∃ x a', a = x :: a' := by
      cases a with
      | nil => exact absurd rfl hne
      | cons x a' => exact ⟨x, a', rfl⟩
    simp only [List.cons_append, List.cons.injEq] at hs
    have := ha x (by simp)
    rw [← hs.1, ← inV4_iff, v4_not91] at this
    cases this
  | v6 hne ha =>
    injection hs with _ ht
    subst ht
    refine ⟨rfl, ?_, hne, rfl⟩
    exact (takeWhile_prefix (fun c hc => (inV6_iff c).2 (ha c hc)) (by simp [v6_not93])).symm

/-- The scanner of addresses: it never reads past the end of the string, and it accepts exactly the strings that begin
with an address, handing out that address and the place right behind it. -/
theorem C45_addr (mem : List UInt8) (i : Nat) (s : List UInt8) (h : At mem i s) :
    ∃ o, extractaddr mem i = .ok o ∧
      (∀ p, o = some p ↔ ∃ a r, IsAddr p.v6 s a r ∧ (mem.drop p.beg).take p.len = a ∧ p.len = a.length ∧
        p.beg = i + (if p.v6 then 1 else 0) ∧ p.fin = i + (s.length - r.length)) ∧
      (o = none ↔ ¬ ∃ v a r, IsAddr v s a r) := by
  by_cases h0 : s.headD 0 = 91
  · obtain ⟨t, rfl⟩ : ∃ t, s = 91 :: t := by
      cases s with
      | nil => simp at h0
      | cons x t => simp at h0; exact ⟨t, by rw [h0]⟩
    have ht : At mem (i + 1) t := At.cons (a := [91]) h
    obtain ⟨e1, e2, e3⟩ := split_while inV6 t
    have hx : At mem (i + 1 + (t.takeWhile inV6).length) (t.dropWhile inV6) := At.cons (by rw [← e1]; exact ht)
    have hr : extractaddr mem i = .ok (if (t.dropWhile inV6).headD 0 ≠ 93 then none else
        if i + 1 = i + 1 + (t.takeWhile inV6).length then none else
        some ⟨(t.takeWhile inV6).length, i + 1, i + 1 + (t.takeWhile inV6).length + 1, true⟩) := by
      unfold extractaddr
      rw [h.head]
      simp only [List.headD_cons, ne_eq, not_true_eq_false, if_false, scan_at ht, hx.head]
      split
      · rfl
      · split
        · rfl
        · simp
    refine ⟨_, hr, ?_, ?_⟩
    · rintro ⟨len, beg, fin, v⟩
      constructor
      · intro ho
        split at ho
        · cases ho
        · rename_i h93
          split at ho
          · cases ho
          · rename_i hlen
            simp only [Option.some.injEq, Part.mk.injEq] at ho
            obtain ⟨rfl, rfl, rfl, rfl⟩ := ho
            obtain ⟨r, hd⟩ : ∃ r, t.dropWhile inV6 = 93 :: r := by
              cases hd : t.dropWhile inV6 with
              | nil => rw [hd] at h93; simp at h93
              | cons x r => rw [hd] at h93; simp at h93; exact ⟨r, by rw [h93]⟩
            have et : t = t.takeWhile inV6 ++ 93 :: r := by rw [← hd]; exact e1
            refine ⟨t.takeWhile inV6, r, ?_, ?_, rfl, rfl, ?_⟩
            · have : IsAddr true (91 :: (t.takeWhile inV6 ++ 93 :: r)) (t.takeWhile inV6) r := .v6 (by
                intro hn; rw [hn] at hlen; simp at hlen) (fun c hc => (inV6_iff c).1 (e2 c hc))
              rwa [← et] at this
            · exact At.take (r := t.dropWhile inV6) (by rw [← e1]; exact ht)
            · have : t.length = (t.takeWhile inV6).length + (r.length + 1) := by
                conv_lhs => rw [et]
                simp
              simp only [List.length_cons]
              omega
      · rintro ⟨a, r, ha, hm, hl, hb, hf⟩
        obtain ⟨rv, ra, rne, rt⟩ := isAddr_v6_iff ha
        simp only at rv hl hb hf
        subst rv
        have hd : t.dropWhile inV6 = 93 :: r := by
          have := e1
          rw [← ra] at this
          conv at this => lhs; rw [rt]
          exact (List.append_cancel_left this).symm
        rw [hd, ← ra]
        simp only [List.headD_cons, ne_eq, not_true_eq_false, if_false]
        rw [if_neg (by have := List.length_pos_iff.2 rne; omega)]
        simp only [if_true] at hb
        rw [hl, hb, hf, rt]
        simp
        omega
    · constructor
      · rintro ho ⟨v, a, r, ha⟩
        obtain ⟨-, ra, rne, rt⟩ := isAddr_v6_iff ha
        have hd : t.dropWhile inV6 = 93 :: r := by
          have := e1
          rw [← ra] at this
          conv at this => lhs; rw [rt]
          exact (List.append_cancel_left this).symm
        rw [hd, ← ra] at ho
        simp only [List.headD_cons, ne_eq, not_true_eq_false, if_false] at ho
        rw [if_neg (by have := List.length_pos_iff.2 rne; omega)] at ho
        cases ho
      · intro hn
        split
        · rfl
        · rename_i h93
          split
          · rfl
          · rename_i hlen
            exfalso
            apply hn
            obtain ⟨r, hd⟩ : ∃ r, t.dropWhile inV6 = 93 :: r := by
              cases hd : t.dropWhile inV6 with
              | nil => rw [hd] at h93; simp at h93
              | cons x r => rw [hd] at h93; simp at h93; exact ⟨r, by rw [h93]⟩
            have et : t = t.takeWhile inV6 ++ 93 :: r := by rw [← hd]; exact e1
            refine ⟨true, t.takeWhile inV6, r, ?_⟩
            have : IsAddr true (91 :: (t.takeWhile inV6 ++ 93 :: r)) (t.takeWhile inV6) r := .v6 (by
              intro hn; rw [hn] at hlen; simp at hlen) (fun c hc => (inV6_iff c).1 (e2 c hc))
            rwa [← et] at this
  · obtain ⟨e1, e2, e3⟩ := split_while inV4 s
    have hr : extractaddr mem i = .ok (if i = i + (s.takeWhile inV4).length then none else
        some ⟨(s.takeWhile inV4).length, i, i + (s.takeWhile inV4).length, false⟩) := by
      unfold extractaddr
      rw [h.head]
      simp only [ne_eq, h0, not_false_eq_true, if_true, scan_at h]
      split
      · rfl
      · simp
    have hex : s.takeWhile inV4 ≠ [] → IsAddr false s (s.takeWhile inV4) (s.dropWhile inV4) := by
      intro hne
      have : IsAddr false (s.takeWhile inV4 ++ s.dropWhile inV4) (s.takeWhile inV4) (s.dropWhile inV4) :=
        .v4 hne (fun c hc => (inV4_iff c).1 (e2 c hc)) (fun c hc hv => by
          have := e3 c hc
          rw [(inV4_iff c).2 hv] at this
          cases this)
      rwa [← e1] at this
    refine ⟨_, hr, ?_, ?_⟩
    · rintro ⟨len, beg, fin, v⟩
      constructor
      · intro ho
        split at ho
        · cases ho
        · rename_i hlen
          simp only [Option.some.injEq, Part.mk.injEq] at ho
          obtain ⟨rfl, rfl, rfl, rfl⟩ := ho
          refine ⟨s.takeWhile inV4, s.dropWhile inV4, hex ?_, ?_, rfl, by simp, ?_⟩
          · intro hn; rw [hn] at hlen; simp at hlen
          · exact At.take (r := s.dropWhile inV4) (by rw [← e1]; exact h)
          · have := congrArg List.length e1
            simp only [List.length_append] at this
            simp only
            omega
      · rintro ⟨a, r, ha, hm, hl, hb, hf⟩
        obtain ⟨rv, ra, rne, rt⟩ := isAddr_v4_iff h0 ha
        simp only at rv hl hb hf
        subst rv
        rw [← ra]
        rw [if_neg (by have := List.length_pos_iff.2 rne; omega)]
        rw [hl, hb, hf]
        conv_rhs => rw [rt]
        simp
    · constructor
      · rintro ho ⟨v, a, r, ha⟩
        obtain ⟨-, ra, rne, rt⟩ := isAddr_v4_iff h0 ha
        rw [← ra, if_neg (by have := List.length_pos_iff.2 rne; omega)] at ho
        cases ho
      · intro hn
        split
        · rfl
        · rename_i hlen
          exfalso
          exact hn ⟨false, _, _, hex (by intro hn; rw [hn] at hlen; simp at hlen)⟩

theorem mem_split {ch : UInt8} : ∀ {s : List UInt8}, ch ∈ s → ∃ l r, s = l ++ ch :: r ∧ ch ∉ l
  | x :: s, h => by
    by_cases hx : x = ch
    · exact ⟨[], s, by simp [hx], by simp⟩
    · have : ch ∈ s := by
        rcases List.mem_cons.1 h with rfl | h
        · exact absurd rfl hx
        · exact h
      obtain ⟨l, r, rfl, hl⟩ := mem_split this
      exact ⟨x :: l, r, by simp, by simp [Ne.symm hx, hl]⟩

theorem split_unique {ch : UInt8} {l r l' r' : List UInt8} (h : l ++ ch :: r = l' ++ ch :: r') (h1 : ch ∉ l) (h2 : ch ∉ l') :
    l = l' ∧ r = r' := by
  induction l generalizing l' with
  | nil =>
    cases l' with
    | nil => simpa using h
    | cons x l' => simp at h; simp at h2; exact absurd h.1 h2.1
  | cons y l ih =>
    cases l' with
    | nil => simp at h; simp at h1; exact absurd h.1.symm h1.1
    | cons x l' =>
      simp only [List.cons_append, List.cons.injEq] at h
      simp only [List.mem_cons, not_or] at h1 h2
      obtain ⟨a, b⟩ := ih h.2 h1.2 h2.2
      exact ⟨by rw [h.1, a], b⟩

theorem isLabel_inv {t l r : List UInt8} (h : IsLabel (123 :: t) l r) : t = l ++ 125 :: r ∧ (125 : UInt8) ∉ l ∧ l ≠ [] := by
  generalize hs : (123 : UInt8) :: t = s at h
  cases h with
  | mk hne hl => injection hs with _ ht; exact ⟨ht, hl, hne⟩

/-- The scanner of labels: the same for labels in braces (the place handed out is that of the closing brace). -/
theorem C45_label (mem : List UInt8) (i : Nat) (s : List UInt8) (h : At mem i s) :
    ∃ o, extractlabel mem i = .ok o ∧
      (∀ p, p.v6 = false → (o = some p ↔ ∃ l r, IsLabel s l r ∧ (mem.drop p.beg).take p.len = l ∧ p.len = l.length ∧
        p.beg = i + 1 ∧ p.fin + 1 = i + (s.length - r.length))) ∧
      (o = none ↔ ¬ ∃ l r, IsLabel s l r) := by
  by_cases h0 : s.headD 0 = 123
  · obtain ⟨t, rfl⟩ : ∃ t, s = 123 :: t := by
      cases s with
      | nil => simp at h0
      | cons x t => simp at h0; exact ⟨t, by rw [h0]⟩
    have ht : At mem (i + 1) t := At.cons (a := [123]) h
    obtain ⟨k1, k2⟩ := strchr_at (ch := 125) (by decide) ht
    by_cases hm : (125 : UInt8) ∈ t
    · obtain ⟨l, r, rfl, hl⟩ := mem_split hm
      have hr : extractlabel mem i = .ok (if l = [] then none else some ⟨l.length, i + 1, i + 1 + l.length, false⟩) := by
        unfold extractlabel
        rw [h.head]
        simp only [List.headD_cons, ne_eq, not_true_eq_false, if_false]
        rw [k2 l r rfl hl]
        cases l <;> simp
      refine ⟨_, hr, ?_, ?_⟩
      · rintro ⟨len, beg, fin, v⟩ hv
        simp only at hv
        subst hv
        constructor
        · intro ho
          split at ho
          · cases ho
          · rename_i hne
            simp only [Option.some.injEq, Part.mk.injEq] at ho
            obtain ⟨rfl, rfl, rfl, -⟩ := ho
            exact ⟨l, r, .mk hne hl, At.take ht, rfl, rfl, by simp; omega⟩
        · rintro ⟨l', r', hlb, hm', hlen, hb, hf⟩
          obtain ⟨e, hl', hne⟩ := isLabel_inv hlb
          obtain ⟨rfl, rfl⟩ := split_unique e hl hl'
          simp only at hlen hb hf
          rw [if_neg hne, hlen, hb]
          simp at hf ⊢
          omega
      · constructor
        · rintro ho ⟨l', r', hlb⟩
          obtain ⟨e, hl', hne⟩ := isLabel_inv hlb
          obtain ⟨rfl, rfl⟩ := split_unique e hl hl'
          rw [if_neg hne] at ho
          cases ho
        · intro hn
          by_cases hne : l = []
          · rw [if_pos hne]
          · exact absurd ⟨l, r, .mk hne hl⟩ hn
    · have hr : extractlabel mem i = .ok none := by
        unfold extractlabel
        rw [h.head]
        simp only [List.headD_cons, ne_eq, not_true_eq_false, if_false]
        rw [k1 hm]
      have hno : ¬ ∃ l r, IsLabel (123 :: t) l r := by
        rintro ⟨l, r, hlb⟩
        obtain ⟨e, -, -⟩ := isLabel_inv hlb
        exact hm (by rw [e]; simp)
      refine ⟨none, hr, ?_, by simpa using hno⟩
      intro p _
      constructor
      · intro ho; cases ho
      · rintro ⟨l, r, hlb, -⟩; exact absurd ⟨l, r, hlb⟩ hno
  · have hr : extractlabel mem i = .ok none := by
      unfold extractlabel
      rw [h.head]
      simp only [ne_eq, h0, not_false_eq_true, if_true]
    have hno : ¬ ∃ l r, IsLabel s l r := by
      rintro ⟨l, r, hlb⟩
      cases hlb with
      | mk _ _ => simp at h0
    refine ⟨none, hr, ?_, by simpa using hno⟩
    intro p _
    constructor
    · intro ho; cases ho
    · rintro ⟨l, r, hlb, -⟩; exact absurd ⟨l, r, hlb⟩ hno

/-- The C string at a place of memory. -/
def cstr (mem : List UInt8) (i : Nat) : List UInt8 := (mem.drop i).takeWhile (· != 0)

theorem At.cstr {mem : List UInt8} {i : Nat} {s : List UInt8} (h : At mem i s) : cstr mem i = s := by
  obtain ⟨hs, pre, post, rfl, rfl⟩ := h
  unfold Addr.cstr
  rw [List.drop_left]
  exact takeWhile_prefix (fun c hc => by simpa using hs c hc) (by simp)

theorem put_nul {mem : List UInt8} {i : Nat} {a r : List UInt8} {x : UInt8} (h : At mem i (a ++ x :: r)) :
    ∃ mem', wr mem (i + a.length) 0 = .ok mem' ∧ At mem' i a ∧ At mem' (i + a.length + 1) r ∧ mem'.length = mem.length ∧
      (∀ j, ∀ s, j + s.length < i → At mem j s → At mem' j s) ∧
      (∀ k, k < i ∨ i + (a ++ x :: r).length ≤ k → mem'[k]? = mem[k]?) := by
  obtain ⟨hs, pre, post, rfl, rfl⟩ := h
  have e : pre ++ (a ++ x :: r ++ 0 :: post) = (pre ++ a) ++ x :: (r ++ 0 :: post) := by simp
  refine ⟨(pre ++ a) ++ 0 :: (r ++ 0 :: post), ?_, ?_, ?_, ?_, ?_, ?_⟩
  · rw [e, show pre.length + a.length = (pre ++ a).length by simp]
    exact wr_append
  · exact ⟨fun c hc => hs c (by simp [hc]), pre, r ++ 0 :: post, by simp, rfl⟩
  · exact ⟨fun c hc => hs c (by simp [hc]), pre ++ (a ++ [0]), post, by simp, by simp; omega⟩
  · simp
  · rintro j s hlt ⟨h1, pre', post', he, rfl⟩
    obtain ⟨n, hn⟩ : ∃ n, pre.length = n := ⟨_, rfl⟩
    rw [hn] at hlt
    refine ⟨h1, pre', (post'.take (n - (pre'.length + s.length + 1))) ++ a ++ 0 :: (r ++ 0 :: post), ?_, rfl⟩
    have hp : pre = pre' ++ (s ++ 0 :: (post'.take (n - (pre'.length + s.length + 1)))) := by
      have := congrArg (List.take n) he
      rw [← hn, List.take_left, hn] at this
      rw [this, List.take_append, List.take_of_length_le (by omega), List.take_append, List.take_of_length_le (by omega)]
      congr 2
      rw [show n - pre'.length - s.length = (n - (pre'.length + s.length + 1)) + 1 by omega]
      simp
    conv_lhs => rw [hp]
    simp
  · intro k hk
    rcases hk with hk | hk
    · rw [List.append_assoc, List.getElem?_append_left hk, List.getElem?_append_left hk]
    · simp only [List.length_append, List.length_cons] at hk
      rw [e]
      rw [List.getElem?_append_right (by simp; omega), List.getElem?_append_right (by simp; omega)]
      obtain ⟨m, hm⟩ : ∃ m, k - (pre ++ a).length = m + 1 := ⟨k - (pre ++ a).length - 1, by simp; omega⟩
      rw [hm]
      simp

/-- The argument of the listening option: `label@` (up to the first `@`), the host, `=` and the advertised address (after
the first `=` behind the label); each part is found as a string of its own, nothing outside of the argument is
touched. -/
theorem C45_bindarg (mem : List UInt8) (i : Nat) (s : List UInt8) (h : At mem i s) :
    ∃ mem' lab adv host, bindarg mem i = .ok (mem', lab, adv, host) ∧
      (∀ k, k < i ∨ i + s.length ≤ k → mem'[k]? = mem[k]?) ∧
      ∃ (l : Option (List UInt8)) (hs : List UInt8) (av : Option (List UInt8)),
        s = (match l with | none => [] | some l => l ++ [64]) ++ hs ++ (match av with | none => [] | some a => 61 :: a) ∧
        (match l with | none => (64 : UInt8) ∉ s | some l => (64 : UInt8) ∉ l) ∧ (61 : UInt8) ∉ hs ∧
        lab.map (cstr mem') = l ∧ cstr mem' host = hs ∧ adv.map (cstr mem') = av := by
  have second : ∀ (mem : List UInt8) (i : Nat) (s : List UInt8), At mem i s → ∀ lab : Option Nat,
      ∃ mem' adv, (match strchr mem i 61 with
        | .error f => .error f
        | .ok none => .ok (mem, lab, none, i)
        | .ok (some cp) =>
          match wr mem cp 0 with
          | .error f => .error f
          | .ok mem => .ok (mem, lab, some (cp + 1), i) : Except Fault (List UInt8 × Option Nat × Option Nat × Nat)) =
          .ok (mem', lab, adv, i) ∧ (∀ k, k < i ∨ i + s.length ≤ k → mem'[k]? = mem[k]?) ∧
        (∀ j, ∀ t, j + t.length < i → At mem j t → At mem' j t) ∧
        ∃ (hs : List UInt8) (av : Option (List UInt8)), s = hs ++ (match av with | none => [] | some a => 61 :: a) ∧
          (61 : UInt8) ∉ hs ∧ cstr mem' i = hs ∧ adv.map (cstr mem') = av := by
    intro mem i s h lab
    obtain ⟨k1, k2⟩ := strchr_at (ch := 61) (by decide) h
    by_cases hm : (61 : UInt8) ∈ s
    · obtain ⟨a, r, rfl, ha⟩ := mem_split hm
      obtain ⟨mem', w1, w2, w3, w4, w5, w6⟩ := put_nul h
      rw [k2 a r rfl ha]
      simp only [w1]
      exact ⟨mem', some (i + a.length + 1), rfl, w6, w5, a, some r, rfl, ha, w2.cstr, by simp [w3.cstr]⟩
    · rw [k1 hm]
      exact ⟨mem, none, rfl, fun _ _ => rfl, fun _ _ _ h => h, s, none, by simp, hm, h.cstr, rfl⟩
  obtain ⟨k1, k2⟩ := strchr_at (ch := 64) (by decide) h
  by_cases hm : (64 : UInt8) ∈ s
  · obtain ⟨a, r, rfl, ha⟩ := mem_split hm
    obtain ⟨m1, w1, w2, w3, w4, w5, w6⟩ := put_nul h
    obtain ⟨mem', adv, z1, z2, z3, hs, av, z4, z5, z6, z7⟩ := second m1 (i + a.length + 1) r w3 (some i)
    refine ⟨mem', some i, adv, i + a.length + 1, ?_, ?_, some a, hs, av, ?_, ha, z5, ?_, z6, z7⟩
    · unfold bindarg
      rw [k2 a r rfl ha]
      simp only [w1]
      exact z1
    · intro k hk
      rw [z2 k (by simp at hk; omega), w6 k hk]
    · rw [z4]; simp
    · simp [(z3 i a (by omega) w2).cstr]
  · obtain ⟨mem', adv, z1, z2, z3, hs, av, z4, z5, z6, z7⟩ := second mem i s h none
    refine ⟨mem', none, adv, i, ?_, z2, none, hs, av, by simpa using z4, hm, z5, rfl, z6, z7⟩
    unfold bindarg
    rw [k1 hm]
    exact z1

/-! ## Examples -/

/-- `10.0.0.1c8` -/
example : At [49, 48, 46, 48, 46, 48, 46, 49, 99, 56, 0] 0 [49, 48, 46, 48, 46, 48, 46, 49, 99, 56] :=
  ⟨by unfold CStr; decide, [], [], rfl, rfl⟩
example : (extractaddr [49, 48, 46, 48, 46, 48, 46, 49, 99, 56, 0] 0).toOption = some (some ⟨8, 0, 8, false⟩) := by decide +kernel
/-- `l[::1]a` -/
example : (extractaddr [108, 91, 58, 58, 49, 93, 97, 0] 1).toOption = some (some ⟨3, 2, 6, true⟩) := by decide +kernel
/-- `[::1`: not closed -/
example : (extractaddr [91, 58, 58, 49, 0] 0).toOption = some none := by decide +kernel
/-- `{ab}` -/
example : (extractlabel [123, 97, 98, 125, 0] 0).toOption = some (some ⟨2, 1, 3, false⟩) := by decide +kernel
/-- `a@b=c` -/
example : (bindarg [97, 64, 98, 61, 99, 0] 0).toOption = some ([97, 0, 98, 0, 99, 0], some 0, some 4, 2) := by decide +kernel

end Verif.Addr
