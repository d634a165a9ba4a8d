import Verif.Cmd.Swar

/-!
# C14: the word-at-a-time tokenizer
-/

namespace Verif.Cmd

/-! ### Specification -/

/-- The separators: tab, newline, carriage return, blank. -/
def Blank (c : UInt8) : Prop := c = 9 ∨ c = 10 ∨ c = 13 ∨ c = 32

instance (c : UInt8) : Decidable (Blank c) := by unfold Blank; infer_instance

/-- What a byte becomes in the text. -/
def textByte (c : UInt8) : UInt8 := if Blank c then 0 else c
/-- What it becomes in the map of the fields. -/
def mapByte (c : UInt8) : UInt8 := if Blank c then 0 else 255

/-- Length rounded up to whole words. -/
def roundUp (n : Nat) : Nat := (n + 7) / 8 * 8

/-! ### Arithmetic on digits -/

theorem pack_cons (b : Nat) (l : List Nat) : pack (b :: l) = b + 256 * pack l := rfl

theorem pack_lt : ∀ (l : List Nat), (∀ b ∈ l, b < 256) → pack l < 256 ^ l.length
  | [], _ => by simp [pack]
  | b :: l, h => by
    have := pack_lt l (fun x hx => h x (by simp [hx]))
    have hb := h b (by simp)
    rw [pack_cons, List.length_cons, Nat.pow_succ]
    omega

theorem unpack_pack : ∀ (l : List Nat), (∀ b ∈ l, b < 256) → unpack l.length (pack l) = l
  | [], _ => rfl
  | b :: l, h => by
    have hb := h b (by simp)
    rw [List.length_cons, unpack, pack_cons]
    rw [show (b + 256 * pack l) % 256 = b by omega, show (b + 256 * pack l) / 256 = pack l by omega,
      unpack_pack l (fun x hx => h x (by simp [hx]))]

theorem bitop_digit (f : Bool → Bool → Bool) (hf : f false false = false) (op : Nat → Nat → Nat)
    (hop : ∀ x y i, (op x y).testBit i = f (x.testBit i) (y.testBit i)) {a b c d : Nat} (ha : a < 256) (hc : c < 256) :
    op (a + 256 * b) (c + 256 * d) = op a c + 256 * op b d ∧ op a c < 256 := by
  have hlt : op a c < 256 := by
    refine Nat.lt_pow_two_of_testBit (n := 8) _ ?_
    intro i hi
    rw [hop, Nat.testBit_lt_two_pow (Nat.lt_of_lt_of_le ha (Nat.pow_le_pow_right (by omega) hi : 2 ^ 8 ≤ 2 ^ i)),
      Nat.testBit_lt_two_pow (Nat.lt_of_lt_of_le hc (Nat.pow_le_pow_right (by omega) hi : 2 ^ 8 ≤ 2 ^ i)), hf]
  refine ⟨?_, hlt⟩
  have e : ∀ x y : Nat, x < 256 → ∀ i, (x + 256 * y).testBit i = if i < 8 then x.testBit i else y.testBit (i - 8) := by
    intro x y hx i
    rw [Nat.add_comm]
    exact Nat.testBit_two_pow_mul_add (i := 8) y (b := x) hx i
  refine Nat.eq_of_testBit_eq fun i => ?_
  rw [hop, e a b ha, e c d hc, e _ _ hlt, hop, hop]
  split <;> rfl

theorem pack_bitop (f : Bool → Bool → Bool) (hf : f false false = false) (op : Nat → Nat → Nat)
    (hop : ∀ x y i, (op x y).testBit i = f (x.testBit i) (y.testBit i)) (h0 : op 0 0 = 0) :
    ∀ (l m : List Nat), l.length = m.length → (∀ b ∈ l, b < 256) → (∀ b ∈ m, b < 256) →
      op (pack l) (pack m) = pack (List.zipWith op l m) ∧ ∀ b ∈ List.zipWith op l m, b < 256
  | [], [], _, _, _ => by simp [pack, h0]
  | a :: l, c :: m, hl, h1, h2 => by
    have ih := pack_bitop f hf op hop h0 l m (by simpa using hl) (fun x hx => h1 x (by simp [hx])) (fun x hx => h2 x (by simp [hx]))
    have hd := bitop_digit f hf op hop (b := pack l) (d := pack m) (h1 a (by simp)) (h2 c (by simp))
    refine ⟨?_, ?_⟩
    · rw [pack_cons, pack_cons, hd.1, ih.1]; rfl
    · intro b hb
      simp only [List.zipWith_cons_cons, List.mem_cons] at hb
      rcases hb with rfl | hb
      · exact hd.2
      · exact ih.2 b hb
  | [], _ :: _, h, _, _ => by simp at h
  | _ :: _, [], h, _, _ => by simp at h

theorem pack_and {l m : List Nat} (h : l.length = m.length) (h1 : ∀ b ∈ l, b < 256) (h2 : ∀ b ∈ m, b < 256) :
    pack l &&& pack m = pack (List.zipWith (· &&& ·) l m) :=
  (pack_bitop and rfl (· &&& ·) (fun x y i => Nat.testBit_and x y i) rfl l m h h1 h2).1
theorem pack_or {l m : List Nat} (h : l.length = m.length) (h1 : ∀ b ∈ l, b < 256) (h2 : ∀ b ∈ m, b < 256) :
    pack l ||| pack m = pack (List.zipWith (· ||| ·) l m) :=
  (pack_bitop or rfl (· ||| ·) (fun x y i => Nat.testBit_or x y i) rfl l m h h1 h2).1
theorem pack_xor {l m : List Nat} (h : l.length = m.length) (h1 : ∀ b ∈ l, b < 256) (h2 : ∀ b ∈ m, b < 256) :
    pack l ^^^ pack m = pack (List.zipWith (· ^^^ ·) l m) :=
  (pack_bitop xor rfl (· ^^^ ·) (fun x y i => Nat.testBit_xor x y i) rfl l m h h1 h2).1

theorem pack_add : ∀ (l : List Nat) (f g : Nat → Nat), pack (l.map f) + pack (l.map g) = pack (l.map fun x => f x + g x)
  | [], _, _ => rfl
  | a :: l, f, g => by
    have := pack_add l f g
    simp only [List.map_cons, pack_cons]; omega

theorem pack_mul (k : Nat) : ∀ (l : List Nat) (f : Nat → Nat), pack (l.map fun x => k * f x) = k * pack (l.map f)
  | [], _ => rfl
  | a :: l, f => by
    have := pack_mul k l f
    simp only [List.map_cons, pack_cons, this]
    rw [Nat.mul_add, Nat.mul_left_comm]

theorem pack_compl : ∀ (l : List Nat), (∀ b ∈ l, b < 256) → pack l + pack (l.map (255 - ·)) + 1 = 256 ^ l.length
  | [], _ => rfl
  | a :: l, h => by
    have := pack_compl l (fun x hx => h x (by simp [hx]))
    have := h a (by simp)
    simp only [List.map_cons, pack_cons, List.length_cons, Nat.pow_succ]
    omega

/-- A word all of whose bytes are computed from the bytes of a list. -/
def W (l : List Nat) (f : Nat → Nat) (w : BitVec 64) : Prop :=
  w.toNat = pack (l.map f) ∧ ∀ x, x < 256 → f x < 256

set_option linter.unusedSectionVars false

section
variable {l : List Nat} (hl : l.length = 8) (hb : ∀ b ∈ l, b < 256)

include hb in
theorem W.bytes {f : Nat → Nat} {w : BitVec 64} (h : W l f w) : ∀ b ∈ l.map f, b < 256 := by
  intro b h'
  obtain ⟨x, hx, rfl⟩ := List.mem_map.mp h'
  exact h.2 x (hb x hx)

theorem zip_map {l : List Nat} (op : Nat → Nat → Nat) (f g : Nat → Nat) :
    List.zipWith op (l.map f) (l.map g) = l.map fun x => op (f x) (g x) := by
  induction l with
  | nil => rfl
  | cons a l ih => simp only [List.map_cons, List.zipWith_cons_cons, ih]

include hl hb in
theorem W.and {f g : Nat → Nat} {v w : BitVec 64} (h : W l f v) (h' : W l g w) : W l (fun x => f x &&& g x) (v &&& w) := by
  refine ⟨?_, fun x hx => Nat.lt_of_le_of_lt Nat.and_le_left (h.2 x hx)⟩
  rw [BitVec.toNat_and, h.1, h'.1, pack_and (by simp) (h.bytes hb) (h'.bytes hb), zip_map]

include hl hb in
theorem W.or {f g : Nat → Nat} {v w : BitVec 64} (h : W l f v) (h' : W l g w) : W l (fun x => f x ||| g x) (v ||| w) := by
  refine ⟨?_, fun x hx => Nat.or_lt_two_pow (n := 8) (h.2 x hx) (h'.2 x hx)⟩
  rw [BitVec.toNat_or, h.1, h'.1, pack_or (by simp) (h.bytes hb) (h'.bytes hb), zip_map]

include hl hb in
theorem W.xor {f g : Nat → Nat} {v w : BitVec 64} (h : W l f v) (h' : W l g w) : W l (fun x => f x ^^^ g x) (v ^^^ w) := by
  refine ⟨?_, fun x hx => Nat.xor_lt_two_pow (n := 8) (h.2 x hx) (h'.2 x hx)⟩
  rw [BitVec.toNat_xor, h.1, h'.1, pack_xor (by simp) (h.bytes hb) (h'.bytes hb), zip_map]

include hl hb in
theorem W.not {f : Nat → Nat} {v : BitVec 64} (h : W l f v) : W l (fun x => 255 - f x) (~~~v) := by
  refine ⟨?_, fun x hx => by simp only; omega⟩
  have := pack_compl (l.map f) (h.bytes hb)
  rw [List.length_map, hl, List.map_map] at this
  rw [BitVec.toNat_not, h.1]
  have e : ((255 - ·) ∘ f : Nat → Nat) = fun x => 255 - f x := rfl
  rw [e] at this
  omega

include hl hb in
theorem W.add {f g : Nat → Nat} {v w : BitVec 64} (h : W l f v) (h' : W l g w)
    (hc : ∀ x, x < 256 → f x + g x < 256) : W l (fun x => f x + g x) (v + w) := by
  refine ⟨?_, hc⟩
  rw [BitVec.toNat_add, h.1, h'.1, pack_add]
  refine Nat.mod_eq_of_lt ?_
  have := pack_lt (l.map fun x => f x + g x) (by
    intro b hb'
    obtain ⟨x, hx, rfl⟩ := List.mem_map.mp hb'
    exact hc x (hb x hx))
  rw [List.length_map, hl] at this
  omega

include hl hb in
/-- `/ 0x80 * 0xff` on a word whose bytes are 0 or 0x80. -/
theorem W.spread {f : Nat → Nat} {v : BitVec 64} (h : W l (fun x => 128 * f x) v) (h1 : ∀ x, x < 256 → f x ≤ 1) :
    W l (fun x => 255 * f x) (v / 0x80 * 0xff) := by
  refine ⟨?_, fun x hx => by have := h1 x hx; simp only; omega⟩
  have := pack_lt (l.map fun x => 255 * f x) (by
    intro b hb'
    obtain ⟨x, hx, rfl⟩ := List.mem_map.mp hb'
    have := h1 x (hb x hx); omega)
  rw [List.length_map, hl, pack_mul] at this
  rw [BitVec.toNat_mul, BitVec.toNat_udiv, h.1, pack_mul, pack_mul]
  have e1 : (0x80 : BitVec 64).toNat = 128 := rfl
  have e2 : (0xff : BitVec 64).toNat = 255 := rfl
  rw [e1, e2, Nat.mul_div_cancel_left _ (by omega), Nat.mul_comm]
  exact Nat.mod_eq_of_lt (by omega)

include hl in
theorem W.const {n : Nat} (hn : n < 256) {w : BitVec 64} (h : w.toNat = n * 72340172838076673) : W l (fun _ => n) w := by
  refine ⟨?_, fun _ _ => hn⟩
  rw [h]
  match l, hl with
  | [a, b, c, d, e, f, g, i], _ =>
    simp only [List.map_cons, List.map_nil, pack]
    omega

include hl hb in
theorem W.haszero {f : Nat → Nat} {v : BitVec 64} (h : W l f v) :
    W l (fun x => 128 * (if f x = 0 then 1 else 0)) (haszero v) := by
  have h7 : W l (fun _ => 127) (populate 0x7f) := W.const hl (by omega) (by decide)
  have hA := (h.and hl hb h7)
  have hB := hA.add hl hb h7 (by
    intro x hx
    have : f x &&& 127 ≤ 127 := Nat.and_le_right
    omega)
  have hC := ((hB.or hl hb h).or hl hb h7).not hl hb
  refine ⟨?_, fun x hx => by simp only; split <;> omega⟩
  unfold Cmd.haszero
  rw [hC.1]
  congr 1
  refine List.map_congr_left ?_
  intro x hx
  have hy := h.2 x (hb x hx)
  generalize f x = y at hy
  have : ∀ y : Fin 256, 255 - ((((y.val &&& 127) + 127) ||| y.val) ||| 127) = 128 * (if y.val = 0 then 1 else 0) := by
    decide +kernel
  exact this ⟨y, hy⟩

end

/-- One byte of the mask. -/
def sepByte (x : Nat) : Nat := if x = 9 ∨ x = 10 ∨ x = 13 ∨ x = 32 then 0 else 255

theorem maskWord_W {l : List Nat} (hl : l.length = 8) (hb : ∀ b ∈ l, b < 256) {w : BitVec 64} (h : W l id w) :
    W l sepByte (maskWord w) := by
  have st : ∀ {g : Nat → Nat} {ow : BitVec 64} (n : Nat) (m : BitVec 64), W l g ow → n < 256 →
      m.toNat = n * 72340172838076673 →
      W l (fun x => g x &&& (255 - 255 * (if x ^^^ n = 0 then 1 else 0)))
        (ow &&& ~~~(haszero (w ^^^ m) / 0x80 * 0xff)) := by
    intro g ow n m ho hn hm
    have h1 := h.xor hl hb (W.const hl hn hm)
    have h2 := h1.haszero hl hb
    have h3 := (h2.spread hl hb (fun x _ => by split <;> omega)).not hl hb
    exact ho.and hl hb h3
  have h0 : W l (fun _ => 255) (populate 0xff) := W.const hl (by omega) (by decide)
  have h1 := st 9 (populate 9) h0 (by omega) (by decide)
  have h2 := st 10 (populate 10) h1 (by omega) (by decide)
  have h3 := st 13 (populate 13) h2 (by omega) (by decide)
  have h4 := st 32 (populate 32) h3 (by omega) (by decide)
  refine ⟨?_, fun x _ => by unfold sepByte; split <;> omega⟩
  have : maskWord w = _ := rfl
  unfold maskWord
  simp only [List.foldl_cons, List.foldl_nil]
  rw [h4.1]
  congr 1
  refine List.map_congr_left ?_
  intro x hx
  have hx := hb x hx
  have : ∀ x : Fin 256, (((255 &&& (255 - 255 * (if x.val ^^^ 9 = 0 then 1 else 0))) &&&
      (255 - 255 * (if x.val ^^^ 10 = 0 then 1 else 0))) &&& (255 - 255 * (if x.val ^^^ 13 = 0 then 1 else 0))) &&&
      (255 - 255 * (if x.val ^^^ 32 = 0 then 1 else 0)) = sepByte x.val := by unfold sepByte; decide +kernel
  exact this ⟨x, hx⟩

theorem ofWord_W {l : List Nat} (hl : l.length = 8) (hb : ∀ b ∈ l, b < 256) {f : Nat → Nat} {w : BitVec 64} (h : W l f w) :
    ofWord w = l.map fun x => UInt8.ofNat (f x) := by
  unfold ofWord
  rw [h.1]
  have := unpack_pack (l.map f) (h.bytes hb)
  rw [List.length_map, hl] at this
  rw [this, List.map_map]; rfl

theorem word_spec (bs : List UInt8) (h : bs.length = 8) :
    ofWord (maskWord (toWord bs)) = bs.map mapByte ∧
    ofWord (toWord bs &&& maskWord (toWord bs)) = bs.map textByte := by
  have hl : (bs.map UInt8.toNat).length = 8 := by simpa using h
  have hb : ∀ b ∈ bs.map UInt8.toNat, b < 256 := by
    intro b hb
    obtain ⟨x, -, rfl⟩ := List.mem_map.mp hb
    exact x.toNat_lt
  have hw : W (bs.map UInt8.toNat) id (toWord bs) := by
    refine ⟨?_, fun x hx => hx⟩
    unfold toWord
    rw [List.map_id, BitVec.toNat_ofNat]
    refine Nat.mod_eq_of_lt ?_
    have := pack_lt _ hb
    rw [hl] at this
    omega
  have hm := maskWord_W hl hb hw
  have ha := hw.and hl hb hm
  have cases4 : ∀ x : UInt8, Blank x ↔ (x.toNat = 9 ∨ x.toNat = 10 ∨ x.toNat = 13 ∨ x.toNat = 32) := by
    intro x
    unfold Blank
    have e : ∀ n : Nat, n < 256 → (x = UInt8.ofNat n ↔ x.toNat = n) := by
      intro n hn
      constructor
      · rintro rfl; simp; omega
      · intro hx; rw [← hx]; simp
    exact or_congr (e 9 (by omega)) (or_congr (e 10 (by omega)) (or_congr (e 13 (by omega)) (e 32 (by omega))))
  refine ⟨?_, ?_⟩
  · rw [ofWord_W hl hb hm, List.map_map]
    refine List.map_congr_left fun x _ => ?_
    simp only [Function.comp, mapByte, sepByte]
    by_cases hx : Blank x
    · rw [if_pos hx, if_pos ((cases4 x).mp hx)]; rfl
    · rw [if_neg hx, if_neg (fun h => hx ((cases4 x).mpr h))]; rfl
  · rw [ofWord_W hl hb ha, List.map_map]
    refine List.map_congr_left fun x _ => ?_
    simp only [Function.comp, textByte, sepByte, id]
    by_cases hx : Blank x
    · rw [if_pos hx, if_pos ((cases4 x).mp hx)]; simp
    · rw [if_neg hx, if_neg (fun h => hx ((cases4 x).mpr h))]
      have hlt := x.toNat_lt
      have : x.toNat &&& 255 = x.toNat := by
        have := Nat.and_two_pow_sub_one_eq_mod x.toNat 8
        rw [show (2 ^ 8 - 1 : Nat) = 255 by rfl] at this
        rw [this]; omega
      rw [this]; simp

theorem wrW_ok {a : List UInt8} {i : Nat} {w : BitVec 64} (h : i + 8 ≤ a.length) :
    wrW a i w = .ok (a.take i ++ ofWord w ++ a.drop (i + 8)) := by unfold wrW; rw [if_pos h]

theorem splitLoop_spec (dlen : Nat) : ∀ (f i : Nat) (p p' : List UInt8) (s m : List UInt8), dlen - i ≤ f →
    i % 8 = 0 → p.length = i → p'.length = i → roundUp dlen ≤ i + s.length → roundUp dlen ≤ i + m.length →
    splitLoop dlen i (p ++ s) (p' ++ m) =
      .ok (p ++ (s.take (roundUp dlen - i)).map textByte ++ s.drop (roundUp dlen - i),
           p' ++ (s.take (roundUp dlen - i)).map mapByte ++ m.drop (roundUp dlen - i))
  | f, i, p, p', s, m, hf, h8, hp, hp', h1, h2 => by
    unfold splitLoop
    by_cases hi : i < dlen
    · rw [dif_pos hi]
      have hr : i + 8 ≤ roundUp dlen := by unfold roundUp; omega
      have hs8 : 8 ≤ s.length := by omega
      have hm8 : 8 ≤ m.length := by omega
      unfold rdW
      rw [if_pos (by simp; omega)]
      simp only
      have hd : ((p ++ s).drop i).take 8 = s.take 8 := by rw [← hp, List.drop_left]
      rw [hd]
      obtain ⟨w1, w2⟩ := word_spec (s.take 8) (by rw [List.length_take]; omega)
      rw [wrW_ok (by simp; omega)]
      simp only
      rw [wrW_ok (by simp; omega)]
      simp only
      rw [w1, w2]
      have t1 : (p ++ s).take i = p := by rw [← hp, List.take_left]
      have t2 : (p' ++ m).take i = p' := by rw [← hp', List.take_left]
      have t3 : (p ++ s).drop (i + 8) = s.drop 8 := by rw [← hp, List.drop_append]; simp
      have t4 : (p' ++ m).drop (i + 8) = m.drop 8 := by rw [← hp', List.drop_append]; simp
      rw [t1, t2, t3, t4]
      match f with
      | 0 => omega
      | f + 1 =>
        rw [splitLoop_spec dlen f (i + 8) (p ++ (s.take 8).map textByte) (p' ++ (s.take 8).map mapByte) (s.drop 8) (m.drop 8)
          (by omega) (by omega) (by simp; omega) (by simp; omega) (by simp; omega) (by simp; omega)]
        have e : roundUp dlen - i = 8 + (roundUp dlen - (i + 8)) := by omega
        rw [e, List.take_add, List.map_append, List.map_append]
        simp only [List.append_assoc, List.drop_drop]
    · rw [dif_neg hi]
      have : roundUp dlen ≤ i := by unfold roundUp; omega
      rw [show roundUp dlen - i = 0 by omega]
      simp

/-- **C14**.  For every content of the buffers (of `blen` bytes, a multiple of the word size) and every
length of the text: there is no access outside of the buffers; the separators of the text are
replaced by NUL and all other bytes stay; the map has NUL at the separators and 0xff elsewhere.
(Bytes after the text up to the next word boundary are treated in the same way.) -/
theorem C14_strsplit_exact (ibuf mbuf : List UInt8) (dlen : Nat) (h : dlen ≤ ibuf.length)
    (hm : mbuf.length = ibuf.length) (h8 : ibuf.length % 8 = 0) :
    ∃ t m, strsplit ibuf mbuf dlen ibuf.length = .ok (t, m) ∧
      t.take dlen = (ibuf.take dlen).map (fun c => if Blank c then 0 else c) ∧
      m.take dlen = (ibuf.take dlen).map (fun c => if Blank c then 0 else 255) ∧
      t.length = ibuf.length ∧ m.length = mbuf.length ∧
      t.drop (roundUp dlen) = ibuf.drop (roundUp dlen) ∧ m.drop (roundUp dlen) = mbuf.drop (roundUp dlen) ∧
      (∀ i, dlen ≤ i → ibuf[i]? = some 0 → t[i]? = some 0) := by
  have hr : dlen ≤ roundUp dlen := by unfold roundUp; omega
  have hr2 : roundUp dlen ≤ ibuf.length := by unfold roundUp; omega
  have := splitLoop_spec dlen dlen 0 [] [] ibuf mbuf (by omega) rfl rfl rfl (by omega) (by omega)
  simp only [List.nil_append, Nat.sub_zero] at this
  unfold strsplit
  rw [if_pos ⟨h, h8⟩, this]
  refine ⟨_, _, rfl, ?_, ?_, ?_, ?_, ?_, ?_, ?_⟩
  · rw [List.take_append_of_le_length (by simp; omega), ← List.map_take, List.take_take, Nat.min_eq_left hr]; rfl
  · rw [List.take_append_of_le_length (by simp; omega), ← List.map_take, List.take_take, Nat.min_eq_left hr]; rfl
  · simp; omega
  · simp; omega
  · rw [List.drop_append, List.drop_eq_nil_of_le (by simp; omega), List.nil_append, List.drop_drop]
    congr 1; simp; omega
  · rw [List.drop_append, List.drop_eq_nil_of_le (by simp; omega), List.nil_append, List.drop_drop]
    congr 1; simp; omega
  · intro i hi h0
    by_cases hlt : i < roundUp dlen
    · rw [List.getElem?_append_left (by simp; omega), List.getElem?_map, List.getElem?_take, if_pos hlt, h0]
      rfl
    · rw [List.getElem?_append_right (by simp; omega), List.getElem?_drop]
      simp only [List.length_map, List.length_take]
      rw [Nat.min_eq_left hr2, show roundUp dlen + (i - roundUp dlen) = i by omega, h0]

example : strsplit [86, 32, 49, 9, 13, 10, 255, 0] (List.replicate 8 7) 7 8 =
    .ok ([86, 0, 49, 0, 0, 0, 255, 0], [255, 0, 255, 0, 0, 0, 255, 255]) := by
  simp only [strsplit]
  rw [if_pos (by decide)]
  have := splitLoop_spec 7 7 0 [] [] [86, 32, 49, 9, 13, 10, 255, 0] (List.replicate 8 7) (by omega) rfl rfl rfl (by decide) (by decide)
  simp only [List.nil_append] at this
  rw [this]
  rfl

end Verif.Cmd
