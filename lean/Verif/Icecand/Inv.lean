import Verif.Icecand.Spec

/-!
# Lemmas on candidate lines and on the answer
-/

namespace Verif.Icecand

theorem u32Go_decimal {w : Bytes} {n : Nat} (h : Decimal w n) : ∀ v mul, v < 4294967296 →
    u32Go w.reverse v mul = (v + mul * n) % 4294967296 := by
  induction h with
  | nil => intro v mul hv; simp [u32Go, Nat.mod_eq_of_lt hv]
  | @snoc w n c _ h1 h2 ih =>
    intro v mul hv
    rw [List.reverse_append, List.reverse_singleton, List.singleton_append]
    have hd : (c.toNat + 208) % 256 = c.toNat - 48 := by omega
    simp only [u32Go, hd]
    rw [if_neg (by omega), ih _ _ (Nat.mod_lt _ (by decide))]
    rw [Nat.add_mod, Nat.mod_mod, Nat.mul_mod (mul * 10 % 4294967296), Nat.mod_mod, ← Nat.mul_mod, ← Nat.add_mod]
    congr 1
    rw [Nat.mul_add, Nat.mul_comm n 10, ← Nat.mul_assoc]
    omega

theorem u32_decimal {w : Bytes} {n : Nat} (h : Decimal w n) (hn : n < 4294967296) : u32 w = n := by
  unfold u32
  rw [u32Go_decimal h 0 1 (by decide), Nat.zero_add, Nat.one_mul, Nat.mod_eq_of_lt hn]

theorem same_length {a b : Bytes} (h : same a b = true) : a.length = b.length := by
  unfold same at h
  have h' := congrArg List.length (beq_iff_eq.mp h)
  simpa using h'

theorem same_trans {a b c : Bytes} (h : same a b = true) (h' : same b c = true) : same a c = true := by
  unfold same at *
  rw [beq_iff_eq] at *
  exact h.trans h'

theorem same_cross {a b c : Bytes} (h : same a b = true) (h' : same b c = false) : same a c = false := by
  unfold same at *
  rw [beq_iff_eq] at h
  rw [h]; exact h'

theorem same_udp {a : Bytes} : same a (bs "UDP") = same a (bs "udp") := by
  have : (bs "UDP").map lower = (bs "udp").map lower := by decide +kernel
  unfold same
  rw [this]

theorem take_of_lt {w : Bytes} {n : Nat} (h : w.length ≤ n) : w.take n = w := List.take_of_length_le h

/-! ## Pairs -/

theorem raddr_not_rport {n : Bytes} (h : same n (bs "raddr") = true) : same n (bs "rport") = false :=
  same_cross h (by decide +kernel)

theorem pairs_words (pton : Bytes → Option Host) (ext : List (Bytes × Bytes)) :
    ∀ (rel r : Sa), rel.port < 65536 →
      (∀ p ∈ ext, same p.1 (bs "raddr") = true → p.2.length < 64 ∧ (pton p.2).isSome = true) →
      (match lastOf (bs "raddr") ext with
        | some v => pton v = some r.host
        | none => r.host = rel.host) →
      (match lastOf (bs "rport") ext with
        | some v => Decimal v r.port ∧ r.port < 65536
        | none => r.port = rel.port) →
      pairs pton (words ext) rel = some r := by
  induction ext with
  | nil =>
    intro rel r _ _ h1 h2
    simp only [lastOf] at h1 h2
    simp only [words, pairs]
    congr 1
    cases r; cases rel
    simp only at h1 h2
    rw [h1, h2]
  | cons p e ih =>
    obtain ⟨n, v⟩ := p
    intro rel r hp hx h1 h2
    have hx' : ∀ p ∈ e, same p.1 (bs "raddr") = true → p.2.length < 64 ∧ (pton p.2).isSome = true :=
      fun p hm => hx p (List.mem_cons_of_mem _ hm)
    simp only [words, pairs]
    by_cases ha : same n (bs "raddr") = true
    · rw [if_pos ha]
      obtain ⟨hl, hs⟩ := hx (n, v) List.mem_cons_self ha
      obtain ⟨g, hg⟩ := Option.isSome_iff_exists.mp hs
      simp only at hl hg
      have hset : saSet pton v rel.port = some ⟨g, rel.port⟩ := by
        unfold saSet
        rw [take_of_lt (by omega), hg, Nat.mod_eq_of_lt hp]
        rfl
      simp only [hset]
      refine ih ⟨g, rel.port⟩ r hp hx' ?_ ?_
      · simp only [lastOf, ha, if_true] at h1
        cases hl' : lastOf (bs "raddr") e with
        | none =>
          simp only [hl'] at h1
          rw [hg] at h1
          exact (Option.some.inj h1).symm
        | some x => simpa only [hl'] using h1
      · simp only [lastOf, raddr_not_rport ha] at h2
        cases hl' : lastOf (bs "rport") e with
        | none => simpa only [hl', Bool.false_eq_true, if_false] using h2
        | some x => simpa only [hl'] using h2
    · rw [if_neg ha]
      have h1' : ∀ x : Sa, x.host = rel.host → (match lastOf (bs "raddr") e with
        | some v => pton v = some r.host
        | none => r.host = x.host) := by
        intro x hxh
        simp only [lastOf, if_neg ha] at h1
        cases hl' : lastOf (bs "raddr") e with
        | none => simp only [hl'] at h1; rw [hxh]; exact h1
        | some y => simpa only [hl'] using h1
      by_cases hb : same n (bs "rport") = true
      · rw [if_pos hb]
        refine ih _ r (Nat.mod_lt _ (by decide)) hx' (h1' _ rfl) ?_
        simp only [lastOf, hb, if_true] at h2
        cases hl' : lastOf (bs "rport") e with
        | none =>
          simp only [hl'] at h2
          obtain ⟨hd, hlt⟩ := h2
          simp only
          rw [u32_decimal hd (by omega), Nat.mod_eq_of_lt hlt]
        | some x => simpa only [hl'] using h2
      · rw [if_neg hb]
        refine ih _ r hp hx' (h1' _ rfl) ?_
        simp only [lastOf, if_neg hb] at h2
        cases hl' : lastOf (bs "rport") e with
        | none => simpa only [hl'] using h2
        | some x => simpa only [hl'] using h2

/-! ## Lists of candidates -/

theorem decode_shape {pton : Bytes → Option Host} {mem : Bool} {rc rc' : List Cand} {args : List Bytes}
    (h : decode pton mem rc args = some rc') :
    rc' = rc ∨ ∃ c, rc' = rc ++ [c] ∧ ∀ x ∈ rc, ¬ Rival x c := by
  unfold decode at h
  split at h
  · split at h
    · cases h
    split at h
    · cases h
    split at h
    · cases h
    split at h
    · cases h
    rename_i ca _
    simp only at h
    split at h
    · left; exact (Option.some.inj h).symm
    rename_i hno
    split at h
    · cases h
    right
    refine ⟨_, (Option.some.inj h).symm, ?_⟩
    intro x hx ⟨e1, e2⟩
    apply hno
    rw [List.any_eq_true]
    refine ⟨x, hx, ?_⟩
    unfold hit
    rw [if_neg (fun hh => hh.2 e1), beq_iff_eq]
    exact e2
  · cases h

/-! ## The response -/

theorem put_zeros (out x : Bytes) (k : Nat) (h : x.length ≤ k) :
    put (out ++ List.replicate k 0) out.length x = .ok (out ++ x ++ List.replicate (k - x.length) 0) := by
  unfold put
  rw [if_pos (by simp; omega)]
  congr 1
  rw [List.take_left, List.drop_append, List.drop_replicate]
  simp

/-- The response after `out`, with zeros behind. -/
def At (out : Bytes) (r : Resp) : Prop :=
  out.length ≤ 512 ∧ r = ⟨out ++ List.replicate (512 - out.length) 0, out.length, 512 - out.length⟩

theorem app_at {out x : Bytes} {r : Resp} (h : At out r) (hl : out.length + x.length < 512) :
    ∃ r', app x r = .ok r' ∧ At (out ++ x) r' := by
  obtain ⟨h1, rfl⟩ := h
  refine ⟨_, ?_, ⟨by simp; omega, rfl⟩⟩
  unfold app
  simp only
  rw [if_neg (by omega), take_of_lt (by omega), put_zeros _ _ _ (by simp; omega)]
  simp only
  rw [if_neg (by omega)]
  congr 1
  simp only [Resp.mk.injEq, List.length_append, List.length_singleton]
  refine ⟨?_, trivial, by omega⟩
  rw [show 512 - (out.length + x.length) = (512 - out.length - (x.length + 1)) + 1 by omega, List.replicate_succ]
  simp

theorem enc_plain {c : UInt8} {cs : Bytes} (h : Str.plainQ c = true) : Str.enc (c :: cs) = c :: Str.enc cs := by
  show List.flatMap _ _ = _
  rw [List.flatMap_cons, if_pos ((Str.plainQ_iff c).mp h)]
  rfl

theorem enc_esc {c : UInt8} {cs : Bytes} (h : ¬ Str.plainQ c = true) :
    Str.enc (c :: cs) = 37 :: Str.hexDigit (c.toNat / 16) :: Str.hexDigit (c.toNat % 16) :: Str.enc cs := by
  show List.flatMap _ _ = _
  have hl := c.toNat_lt
  rw [List.flatMap_cons, if_neg (fun hc => h ((Str.plainQ_iff c).mpr hc)), Str.hexDigit_eq (by omega),
    Str.hexDigit_eq (by omega)]
  rfl

theorem enc_length_le (x : Bytes) : x.length ≤ (Str.enc x).length := by
  induction x with
  | nil => simp
  | cons c cs ih =>
    by_cases h : Str.plainQ c = true
    · rw [enc_plain h]; simp; omega
    · rw [enc_esc h]; simp; omega

theorem hexDigit_ne (n : Nat) (h : n < 16) : Str.hexDigit n ≠ 0 := by
  have : ∀ k : Fin 16, Str.hexDigit k.val ≠ 0 := by decide
  exact this ⟨n, h⟩

theorem enc_ne (x : Bytes) : ∀ y ∈ Str.enc x, y ≠ 0 := by
  induction x with
  | nil => intro y hy; cases hy
  | cons c cs ih =>
    intro y hy
    by_cases h : Str.plainQ c = true
    · rw [enc_plain h] at hy
      rcases List.mem_cons.mp hy with rfl | hy
      · intro h0; rw [h0] at h; revert h; decide
      · exact ih y hy
    · rw [enc_esc h] at hy
      have hl := c.toNat_lt
      rcases List.mem_cons.mp hy with rfl | hy
      · decide
      rcases List.mem_cons.mp hy with rfl | hy
      · exact hexDigit_ne _ (by omega)
      rcases List.mem_cons.mp hy with rfl | hy
      · exact hexDigit_ne _ (by omega)
      · exact ih y hy

theorem wr_zero (out : Bytes) (k : Nat) (c : UInt8) :
    Str.wr (out ++ List.replicate (k + 1) 0) out.length c = .ok ((out ++ [c]) ++ List.replicate k 0) := by
  rw [List.replicate_succ, Str.wr_append]
  simp

theorem quoteLoop_zeros (olen : Nat) : ∀ (b out : Bytes) (k : Nat), out.length + (Str.enc b).length ≤ olen →
    (Str.enc b).length ≤ k →
    Str.quoteLoop olen b (out ++ List.replicate k 0) out.length =
      .ok (some (out.length + (Str.enc b).length), out ++ Str.enc b ++ List.replicate (k - (Str.enc b).length) 0) := by
  intro b
  induction b with
  | nil => intro out k _ _; simp [Str.quoteLoop, Str.enc]
  | cons c cs ih =>
    intro out k h hk
    unfold Str.quoteLoop
    by_cases hp : Str.plainQ c = true
    · rw [enc_plain hp] at h hk ⊢
      simp only [List.length_cons] at h hk ⊢
      obtain ⟨k', rfl⟩ : ∃ k', k = k' + 1 := ⟨k - 1, by omega⟩
      rw [if_pos hp, if_neg (by omega), wr_zero]
      simp only
      have := ih (out ++ [c]) k' (by simp; omega) (by omega)
      rw [List.length_append, List.length_singleton] at this
      rw [this, show k' + 1 - ((Str.enc cs).length + 1) = k' - (Str.enc cs).length by omega,
        show out.length + 1 + (Str.enc cs).length = out.length + ((Str.enc cs).length + 1) by omega]
      simp
    · rw [enc_esc hp] at h hk ⊢
      simp only [List.length_cons] at h hk ⊢
      obtain ⟨k', rfl⟩ : ∃ k', k = k' + 1 + 1 + 1 := ⟨k - 3, by omega⟩
      rw [if_neg hp, if_neg (by omega), wr_zero]
      simp only
      generalize hx : Str.hexDigit (c.toNat / 16) = x
      generalize hy : Str.hexDigit (c.toNat % 16) = y
      have e1 := wr_zero (out ++ [37]) (k' + 1) x
      rw [List.length_append, List.length_singleton] at e1
      rw [e1]
      simp only
      have e2 := wr_zero (out ++ [37] ++ [x]) k' y
      rw [List.length_append, List.length_append, List.length_singleton, List.length_singleton] at e2
      rw [show out.length + 2 = out.length + 1 + 1 by omega, e2]
      simp only
      have := ih (out ++ [37] ++ [x] ++ [y]) k' (by simp; omega) (by omega)
      simp only [List.length_append, List.length_singleton] at this
      rw [show out.length + 3 = out.length + 1 + 1 + 1 by omega, this,
        show k' + 1 + 1 + 1 - ((Str.enc cs).length + 1 + 1 + 1) = k' - (Str.enc cs).length by omega,
        show out.length + 1 + 1 + 1 + (Str.enc cs).length = out.length + ((Str.enc cs).length + 1 + 1 + 1) by omega]
      simp

theorem piece_at {out x : Bytes} {r : Resp} (h : At out r) (hl : out.length + (Str.enc x).length < 512) :
    ∃ r', piece x r = .ok (some r') ∧ At (out ++ Str.enc x) r' := by
  obtain ⟨h1, rfl⟩ := h
  have hx := enc_length_le x
  refine ⟨_, ?_, ⟨by simp; omega, rfl⟩⟩
  unfold piece Str.quote
  simp only
  rw [if_neg (by omega), List.drop_left]
  have := quoteLoop_zeros (512 - out.length) x [] (512 - out.length) (by simp; omega) (by omega)
  simp only [List.nil_append, List.length_nil, Nat.zero_add] at this
  rw [this]
  simp only [List.take_left, List.length_append]
  congr 3
  · rw [List.append_assoc]; congr 3; omega
  · omega

theorem pieces_at : ∀ (xs : List Bytes) {out : Bytes} {r : Resp}, At out r →
    out.length + (xs.map Str.enc).flatten.length < 512 →
    ∃ r', pieces xs r = .ok (some r') ∧ At (out ++ (xs.map Str.enc).flatten) r' := by
  intro xs
  induction xs with
  | nil => intro out r h _; exact ⟨r, rfl, by simpa using h⟩
  | cons x xs ih =>
    intro out r h hl
    simp only [List.map_cons, List.flatten_cons, List.length_append] at hl ⊢
    obtain ⟨r1, e1, a1⟩ := piece_at h (x := x) (by omega)
    obtain ⟨r2, e2, a2⟩ := ih a1 (by simp only [List.length_append]; omega)
    refine ⟨r2, ?_, by rwa [← List.append_assoc]⟩
    simp only [pieces, e1, e2]

theorem cands_at : ∀ (cs : List (List Bytes)) {out : Bytes} {r : Resp}, At out r →
    out.length + (cs.map fun c => bs " c:" ++ (c.map Str.enc).flatten).flatten.length < 512 →
    ∃ r', cands cs r = .ok (some r') ∧ At (out ++ (cs.map fun c => bs " c:" ++ (c.map Str.enc).flatten).flatten) r' := by
  intro cs
  induction cs with
  | nil => intro out r h _; exact ⟨r, rfl, by simpa using h⟩
  | cons c cs ih =>
    intro out r h hl
    simp only [List.map_cons, List.flatten_cons, List.length_append] at hl ⊢
    obtain ⟨r1, e1, a1⟩ := app_at h (x := bs " c:") (by omega)
    obtain ⟨r2, e2, a2⟩ := pieces_at c a1 (by simp only [List.length_append]; omega)
    obtain ⟨r3, e3, a3⟩ := ih a2 (by simp only [List.length_append]; omega)
    refine ⟨r3, ?_, by simpa only [List.append_assoc] using a3⟩
    simp only [cands, e1, e2, e3]

theorem textOf_zeros {t : Bytes} {k : Nat} (h : ∀ y ∈ t, y ≠ 0) (hk : 0 < k) :
    textOf (t ++ List.replicate k 0) = .ok t := by
  unfold textOf
  rw [if_pos (by simp; omega)]
  congr 1
  obtain ⟨k', rfl⟩ : ∃ k', k = k' + 1 := ⟨k - 1, by omega⟩
  rw [List.replicate_succ]
  induction t with
  | nil => simp
  | cons a t ih =>
    have := h a List.mem_cons_self
    simp only [List.cons_append, List.takeWhile_cons, decide_eq_true this, if_true]
    rw [ih fun y hy => h y (List.mem_cons_of_mem _ hy)]

/-! ## Nothing outside of the response -/

theorem quoteLoop_beyond (olen : Nat) : ∀ (b dst : Bytes) (out n : Nat) (d : Bytes),
    Str.quoteLoop olen b dst out = .ok (some n, d) → out ≤ n ∧ ∀ j, n ≤ j → d[j]? = dst[j]? := by
  intro b
  induction b with
  | nil =>
    intro dst out n d h
    simp only [Str.quoteLoop, Except.ok.injEq, Prod.mk.injEq, Option.some.injEq] at h
    obtain ⟨rfl, rfl⟩ := h
    exact ⟨Nat.le_refl _, fun _ _ => rfl⟩
  | cons c cs ih =>
    intro dst out n d h
    have wr_some : ∀ {a a' : Bytes} {i : Nat} {x : UInt8}, Str.wr a i x = .ok a' → a' = a.set i x := by
      intro a a' i x hw
      unfold Str.wr at hw
      split at hw
      · exact (Except.ok.inj hw).symm
      · cases hw
    unfold Str.quoteLoop at h
    split at h
    · split at h
      · cases h
      · split at h
        · cases h
        · rename_i d1 hw
          obtain ⟨i1, i2⟩ := ih _ _ _ _ h
          refine ⟨by omega, fun j hj => ?_⟩
          rw [i2 j hj, wr_some hw, List.getElem?_set_ne (by omega)]
    · split at h
      · cases h
      · split at h
        · cases h
        · rename_i d1 w1
          split at h
          · cases h
          · rename_i d2 w2
            split at h
            · cases h
            · rename_i d3 w3
              obtain ⟨i1, i2⟩ := ih _ _ _ _ h
              refine ⟨by omega, fun j hj => ?_⟩
              rw [i2 j hj, wr_some w3, wr_some w2, wr_some w1, List.getElem?_set_ne (by omega),
                List.getElem?_set_ne (by omega), List.getElem?_set_ne (by omega)]

/-- The position and the room fit the array, and its last byte is still NUL if there is room. -/
structure J (r : Resp) : Prop where
  len : r.mem.length = 512
  fit : r.pos + r.room = 512
  nul : r.room ≠ 0 → r.mem[511]? = some 0

/-- The same, with the last byte NUL in any case. -/
structure K (r : Resp) : Prop extends J r where
  last : r.mem[511]? = some 0

theorem app_k {x : Bytes} {r : Resp} (h : K r) : ∃ r', app x r = .ok r' ∧ K r' := by
  have hl := h.len
  have hf := h.fit
  unfold app
  by_cases h0 : r.room = 0
  · rw [if_pos h0]
    simp only
    split
    · exact ⟨_, rfl, ⟨h.len, h.fit, fun _ => h.last⟩, h.last⟩
    · exact ⟨_, rfl, ⟨h.len, by simp only; omega, fun _ => h.last⟩, h.last⟩
  · rw [if_neg h0]
    have hfit : r.pos + (x.take (r.room - 1) ++ [(0 : UInt8)]).length ≤ r.mem.length := by
      simp only [List.length_append, List.length_take, List.length_singleton]; omega
    unfold put
    rw [if_pos hfit]
    simp only
    have hm : (r.mem.take r.pos ++ (x.take (r.room - 1) ++ [(0 : UInt8)]) ++
        r.mem.drop (r.pos + (x.take (r.room - 1) ++ [(0 : UInt8)]).length)).length = 512 := by
      simp only [List.length_append, List.length_take, List.length_singleton, List.length_drop]; omega
    have hn : (r.mem.take r.pos ++ (x.take (r.room - 1) ++ [(0 : UInt8)]) ++
        r.mem.drop (r.pos + (x.take (r.room - 1) ++ [(0 : UInt8)]).length))[511]? = some 0 := by
      by_cases hx : r.room - 1 ≤ x.length
      · rw [List.getElem?_append_left (by simp; omega), ← List.append_assoc,
          List.getElem?_append_right (by simp; omega)]
        have : 511 - (r.mem.take r.pos ++ x.take (r.room - 1)).length = 0 := by simp; omega
        rw [this]; rfl
      · rw [List.getElem?_append_right (by simp; omega), List.getElem?_drop, ← h.last]
        congr 1
        simp only [List.length_append, List.length_take, List.length_singleton]
        omega
    split
    · exact ⟨_, rfl, ⟨hm, hf, fun _ => hn⟩, hn⟩
    · exact ⟨_, rfl, ⟨hm, by simp only; omega, fun _ => hn⟩, hn⟩

theorem enc_same {x : Bytes} (hp : ∀ b ∈ x, Str.Unreserved b) : Str.enc x = x := by
  induction x with
  | nil => rfl
  | cons c cs ih =>
    rw [enc_plain ((Str.plainQ_iff c).mpr (hp c List.mem_cons_self)), ih fun b hb => hp b (List.mem_cons_of_mem _ hb)]

theorem piece_j {x : Bytes} {r : Resp} (h : J r) :
    piece x r = .ok none ∨ ∃ r', piece x r = .ok (some r') ∧ J r' ∧ ((∀ b ∈ x, Str.Unreserved b) → K r') := by
  have hl := h.len
  have hf := h.fit
  unfold piece
  by_cases hx : x.length + 1 > r.room
  · rw [if_pos hx]; exact .inl rfl
  rw [if_neg hx]
  have hd : (r.mem.drop r.pos).length = r.room := by simp; omega
  obtain ⟨q, d, e1, e2, -, e4⟩ := Str.C13_quote_within_bounds x (r.mem.drop r.pos) r.room (by omega)
  rcases e4 with ⟨rfl, _⟩ | ⟨rfl, e5, _⟩
  · left; rw [e1]
  right
  rw [e1]
  refine ⟨_, rfl, ?_⟩
  obtain ⟨-, hb⟩ := quoteLoop_beyond _ _ _ _ _ _ e1
  have hkeep : (Str.enc x).length < r.room → (r.mem.take r.pos ++ d)[511]? = some 0 := by
    intro hlt
    have ht : (r.mem.take r.pos).length = r.pos := by simp; omega
    rw [List.getElem?_append_right (by omega), ht, hb _ (by omega), List.getElem?_drop,
      show r.pos + (511 - r.pos) = 511 by omega]
    exact h.nul (by omega)
  have hJ : J ⟨r.mem.take r.pos ++ d, r.pos + (Str.enc x).length, r.room - (Str.enc x).length⟩ :=
    ⟨by simp; omega, by simp only; omega, fun h0 => hkeep (by simp only at h0; omega)⟩
  refine ⟨hJ, fun hp => ⟨hJ, hkeep ?_⟩⟩
  rw [enc_same hp]; omega

theorem pieces_k : ∀ (xs : List Bytes) (r : Resp), J r → (xs = [] → K r) →
    (∀ l, xs.getLast? = some l → ∀ b ∈ l, Str.Unreserved b) →
    pieces xs r = .ok none ∨ ∃ r', pieces xs r = .ok (some r') ∧ K r' := by
  intro xs
  induction xs with
  | nil => intro r _ h _; exact .inr ⟨r, rfl, h rfl⟩
  | cons x xs ih =>
    intro r h _ hp
    unfold pieces
    rcases piece_j (x := x) h with e | ⟨r', e, j, k⟩
    · left; rw [e]
    · rw [e]
      simp only
      refine ih r' j ?_ ?_
      · intro h0
        apply k
        apply hp
        rw [h0]; rfl
      · intro l hl
        apply hp
        cases xs with
        | nil => cases hl
        | cons y ys => rw [List.getLast?_cons_cons]; exact hl

theorem cands_k : ∀ (cs : List (List Bytes)) (r : Resp), K r →
    (∀ c ∈ cs, ∀ l, c.getLast? = some l → ∀ b ∈ l, Str.Unreserved b) →
    cands cs r = .ok none ∨ ∃ r', cands cs r = .ok (some r') ∧ K r' := by
  intro cs
  induction cs with
  | nil => intro r h _; exact .inr ⟨r, rfl, h⟩
  | cons c cs ih =>
    intro r h hp
    unfold cands
    obtain ⟨r1, e1, k1⟩ := app_k (x := bs " c:") h
    rw [e1]
    simp only
    rcases pieces_k c r1 k1.toJ (fun _ => k1) (hp c List.mem_cons_self) with e | ⟨r2, e2, k2⟩
    · left; rw [e]
    · rw [e2]
      simp only
      exact ih r2 k2 fun c hc => hp c (List.mem_cons_of_mem _ hc)

end Verif.Icecand
