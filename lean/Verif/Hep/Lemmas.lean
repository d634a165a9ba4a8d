import Verif.Hep.Model
import Verif.Hep.Spec
import Verif.Rtcp.Props

/-!
# Lemmas on the HEP export
-/

namespace Verif.Hep

theorem be16_length (n : Nat) : (be16 n).length = 2 := rfl
theorem be32_length (n : Nat) : (be32 n).length = 4 := rfl

theorem num_be16 (n : Nat) (h : n < 65536) : num (be16 n) = n := by
  simp only [num, be16, List.foldl_cons, List.foldl_nil, UInt8.toNat_ofNat']
  omega

theorem num_be32 (n : Nat) (h : n < 4294967296) : num (be32 n) = n := by
  simp only [num, be32, List.foldl_cons, List.foldl_nil, UInt8.toNat_ofNat']
  omega

theorem num_one (n : Nat) (h : n < 256) : num [UInt8.ofNat n] = n := by
  simp only [num, List.foldl_cons, List.foldl_nil, UInt8.toNat_ofNat']
  omega

/-- A store right behind a prefix that does not reach past the end. -/
theorem blit_at (a x d b : List UInt8) (i : Nat) (hi : i = a.length) (h : x.length = d.length) :
    blit (a ++ x ++ b) i d = .ok (a ++ d ++ b) := by
  subst hi
  unfold blit
  rw [if_pos (by simp only [List.length_append]; omega)]
  have h1 : (a ++ x ++ b).take a.length = a := by rw [List.append_assoc, List.take_left]
  have h2 : (a ++ x ++ b).drop (a.length + d.length) = b := by rw [← h, ← List.length_append, List.drop_left]
  rw [h1, h2]

theorem chunks_field (fuel ty : Nat) (d r : List UInt8) (ht : ty < 65536) (hd : 6 + d.length < 65536) :
    chunks (fuel + 1) (field ty d ++ r) = (chunks fuel r).map (⟨0, ty, d⟩ :: ·) := by
  have e : field ty d ++ r = UInt8.ofNat (0 / 256) :: UInt8.ofNat 0 :: UInt8.ofNat (ty / 256) :: UInt8.ofNat ty ::
    UInt8.ofNat ((6 + d.length) / 256) :: UInt8.ofNat (6 + d.length) :: (d ++ r) := by
    simp [field, be16]
  rw [e]
  conv_lhs => unfold chunks
  have hn : num [UInt8.ofNat ((6 + d.length) / 256), UInt8.ofNat (6 + d.length)] = 6 + d.length := num_be16 _ hd
  have hty : num [UInt8.ofNat (ty / 256), UInt8.ofNat ty] = ty := num_be16 _ ht
  have h0 : num [UInt8.ofNat (0 / 256), UInt8.ofNat 0] = 0 := num_be16 0 (by omega)
  simp only [hn, hty, h0]
  rw [if_neg (by simp only [List.length_append]; omega), Nat.add_sub_cancel_left, List.drop_left, List.take_left]

/-- More fuel does not matter. -/
theorem chunks_fuel : ∀ (n m : Nat) (b : List UInt8) (cs : List Chunk), n ≤ m → chunks n b = some cs → chunks m b = some cs
  | n, m, [], cs, _, h => by
    unfold chunks at h ⊢
    exact h
  | 0, m, a :: b, cs, _, h => by simp [chunks] at h
  | n + 1, 0, _ :: _, _, hm, _ => by omega
  | n + 1, m + 1, b, cs, hm, h => by
    match b, h with
    | [], h => unfold chunks at h ⊢; exact h
    | [_], h => simp [chunks] at h
    | [_, _], h => simp [chunks] at h
    | [_, _, _], h => simp [chunks] at h
    | [_, _, _, _], h => simp [chunks] at h
    | [_, _, _, _, _], h => simp [chunks] at h
    | a :: b :: c :: d :: e :: f :: r, h =>
      unfold chunks at h ⊢
      simp only at h ⊢
      split at h
      · cases h
      · rename_i hc
        rw [if_neg hc]
        cases hr : chunks n (r.drop (num [e, f] - 6)) with
        | none => rw [hr] at h; cases h
        | some l =>
          rw [hr] at h
          rw [chunks_fuel n m _ l (by omega) hr]
          exact h

/-- A series of chunks is read as it was written. -/
def wire (l : List (Nat × List UInt8)) : List UInt8 := (l.map fun x => field x.1 x.2).flatten

theorem chunks_wire : ∀ (l : List (Nat × List UInt8)), (∀ x ∈ l, x.1 < 65536 ∧ 6 + x.2.length < 65536) →
    chunks l.length (wire l) = some (l.map fun x => ⟨0, x.1, x.2⟩)
  | [], _ => by simp [wire, chunks]
  | x :: l, h => by
    obtain ⟨h1, h2⟩ := h x (by simp)
    have e : wire (x :: l) = field x.1 x.2 ++ wire l := by simp [wire]
    rw [e, List.length_cons, chunks_field _ _ _ _ h1 h2, chunks_wire l (fun y hy => h y (by simp [hy]))]
    rfl

theorem field_length (ty : Nat) (d : List UInt8) : (field ty d).length = 6 + d.length := by
  simp [field, be16_length]; omega

theorem wire_length_ge (l : List (Nat × List UInt8)) : l.length ≤ (wire l).length := by
  induction l with
  | nil => simp
  | cons x l ih =>
    have e : wire (x :: l) = field x.1 x.2 ++ wire l := by simp [wire]
    rw [e, List.length_append, field_length, List.length_cons]
    omega

/-- The chunks of the fixed part. -/
def fixed (i : Info) (captId : Int) : List (Nat × List UInt8) :=
  [(1, [UInt8.ofNat i.family]), (2, [UInt8.ofNat i.proto]), (7, be16 i.sport), (8, be16 i.dport), (9, be32 i.sec), (10, be32 i.usec),
   (11, [UInt8.ofNat i.ptype]), (12, be16 (captId % 65536).toNat ++ [0, 0])]

theorem fixed_length (i : Info) (id : Int) : (wire (fixed i id)).length = 67 := rfl

def magic : List UInt8 := [0x48, 0x45, 0x50, 0x33]

theorem replicate_split (n : Nat) (h : 73 ≤ n) : List.replicate n (0 : UInt8) =
    List.replicate 73 0 ++ List.replicate (n - 73) 0 := by
  rw [List.replicate_append_replicate]; congr 1; omega

/-- The stores over cleared memory. -/
theorem stores_ok (i : Info) (id : Int) (x r : List UInt8) (hx : x.length = 73) (h45 : (x.drop 4).take 2 = [0, 0]) :
    blits (x ++ r) (stores i id) = .ok (magic ++ [0, 0] ++ wire (fixed i id) ++ r) := by
  obtain ⟨x0, y1, rfl, h0⟩ : ∃ a b, x = a ++ b ∧ a.length = 4 := ⟨x.take 4, x.drop 4, (List.take_append_drop ..).symm, by simp [hx]⟩
  obtain ⟨z, y2, rfl, hz⟩ : ∃ a b, y1 = a ++ b ∧ a.length = 2 := ⟨y1.take 2, y1.drop 2, (List.take_append_drop ..).symm, by
    simp at hx; simp; omega⟩
  have hz' : z = [0, 0] := by
    rw [← h0, List.drop_left, ← hz, List.take_left] at h45; exact h45
  have cut : ∀ (y : List UInt8) (n : Nat), n ≤ y.length → ∃ a b, y = a ++ b ∧ a.length = n := fun y n h =>
    ⟨y.take n, y.drop n, (List.take_append_drop ..).symm, by simp [h]⟩
  simp only [List.length_append] at hx
  obtain ⟨x1, y3, rfl, h1⟩ := cut y2 7 (by omega)
  simp only [List.length_append] at hx
  obtain ⟨x2, y4, rfl, h2⟩ := cut y3 7 (by omega)
  simp only [List.length_append] at hx
  obtain ⟨x3, y5, rfl, h3⟩ := cut y4 8 (by omega)
  simp only [List.length_append] at hx
  obtain ⟨x4, y6, rfl, h4⟩ := cut y5 8 (by omega)
  simp only [List.length_append] at hx
  obtain ⟨x5, y7, rfl, h5⟩ := cut y6 10 (by omega)
  simp only [List.length_append] at hx
  obtain ⟨x6, y8, rfl, h6⟩ := cut y7 10 (by omega)
  simp only [List.length_append] at hx
  obtain ⟨x7, x8, rfl, h7⟩ := cut y8 7 (by omega)
  simp only [List.length_append] at hx
  subst hz'
  have e : x0 ++ ([0, 0] ++ (x1 ++ (x2 ++ (x3 ++ (x4 ++ (x5 ++ (x6 ++ (x7 ++ x8)))))))) ++ r =
    ([] ++ x0) ++ ([0, 0] ++ (x1 ++ (x2 ++ (x3 ++ (x4 ++ (x5 ++ (x6 ++ (x7 ++ (x8 ++ r))))))))) := by simp
  unfold stores
  rw [e]
  -- one store after another, each behind what is written already
  have step : ∀ (a x d b : List UInt8) (i : Nat) (l : List (Nat × List UInt8)), i = a.length → x.length = d.length →
      blits (a ++ x ++ b) ((i, d) :: l) = blits (a ++ d ++ b) l := by
    intro a x d b i l hi h
    rw [blits, blit_at a x d b i hi h]
  rw [step [] x0 _ _ 0 _ rfl (by simpa using h0)]
  have s1 := step (magic ++ [0, 0]) x1 (field 1 [UInt8.ofNat i.family]) (x2 ++ (x3 ++ (x4 ++ (x5 ++ (x6 ++ (x7 ++ (x8 ++ r))))))) 6
  have s2 := step (magic ++ [0, 0] ++ field 1 [UInt8.ofNat i.family]) x2 (field 2 [UInt8.ofNat i.proto])
    (x3 ++ (x4 ++ (x5 ++ (x6 ++ (x7 ++ (x8 ++ r)))))) 13
  have s3 := step (magic ++ [0, 0] ++ field 1 [UInt8.ofNat i.family] ++ field 2 [UInt8.ofNat i.proto]) x3 (field 7 (be16 i.sport))
    (x4 ++ (x5 ++ (x6 ++ (x7 ++ (x8 ++ r))))) 20
  have s4 := step (magic ++ [0, 0] ++ field 1 [UInt8.ofNat i.family] ++ field 2 [UInt8.ofNat i.proto] ++ field 7 (be16 i.sport)) x4
    (field 8 (be16 i.dport)) (x5 ++ (x6 ++ (x7 ++ (x8 ++ r)))) 28
  have s5 := step (magic ++ [0, 0] ++ field 1 [UInt8.ofNat i.family] ++ field 2 [UInt8.ofNat i.proto] ++ field 7 (be16 i.sport) ++
    field 8 (be16 i.dport)) x5 (field 9 (be32 i.sec)) (x6 ++ (x7 ++ (x8 ++ r))) 36
  have s6 := step (magic ++ [0, 0] ++ field 1 [UInt8.ofNat i.family] ++ field 2 [UInt8.ofNat i.proto] ++ field 7 (be16 i.sport) ++
    field 8 (be16 i.dport) ++ field 9 (be32 i.sec)) x6 (field 10 (be32 i.usec)) (x7 ++ (x8 ++ r)) 46
  have s7 := step (magic ++ [0, 0] ++ field 1 [UInt8.ofNat i.family] ++ field 2 [UInt8.ofNat i.proto] ++ field 7 (be16 i.sport) ++
    field 8 (be16 i.dport) ++ field 9 (be32 i.sec) ++ field 10 (be32 i.usec)) x7 (field 11 [UInt8.ofNat i.ptype]) (x8 ++ r) 56
  have s8 := step (magic ++ [0, 0] ++ field 1 [UInt8.ofNat i.family] ++ field 2 [UInt8.ofNat i.proto] ++ field 7 (be16 i.sport) ++
    field 8 (be16 i.dport) ++ field 9 (be32 i.sec) ++ field 10 (be32 i.usec) ++ field 11 [UInt8.ofNat i.ptype]) x8
    (field 12 (be16 (id % 65536).toNat ++ [0, 0])) r 63
  simp only [List.append_assoc, magic, List.nil_append] at s1 s2 s3 s4 s5 s6 s7 s8 ⊢
  rw [s1 _ rfl (by rw [field_length]; exact h1), s2 _ rfl (by rw [field_length]; exact h2), s3 _ rfl (by rw [field_length]; exact h3),
    s4 _ rfl (by rw [field_length]; exact h4), s5 _ rfl (by rw [field_length]; exact h5), s6 _ rfl (by rw [field_length]; exact h6),
    s7 _ rfl (by rw [field_length]; exact h7),
    s8 _ rfl (by rw [field_length]; simp [be16_length, h0, h1, h2, h3, h4, h5, h6, h7] at hx ⊢; omega)]
  simp [blits, wire, fixed]

/-- Between two packets: the block, if there is one, holds the fixed part and all that was written. -/
def Inv (c : Ctx) : Prop := ∀ b, c.hdr = some b → 73 ≤ b.length ∧ 6 ≤ c.hdrLen ∧ c.hdrLen ≤ b.length

theorem fill_spec (c : Ctx) (i : Info) (mem : Mem) (h : Inv c) :
    (fill c i mem = .ok (c, false) ∧ c.hdr = none ∧ mem = none) ∨
    ∃ r, fill c i mem = .ok ({ c with hdr := some (magic ++ [0, 0] ++ wire (fixed i c.captId) ++ r), hdrLen := 73 }, true) := by
  unfold fill cleared
  cases hh : c.hdr with
  | none =>
    cases mem with
    | none => left; exact ⟨rfl, rfl, rfl⟩
    | some j =>
      right
      refine ⟨[], ?_⟩
      have := stores_ok i c.captId (List.replicate 73 0) [] (by simp) (by decide)
      rw [List.append_nil] at this
      simp only [this]
  | some b =>
    right
    obtain ⟨h1, h2, h3⟩ := h b hh
    simp only
    have hb : blit b 0 (List.replicate c.hdrLen 0) = .ok (List.replicate c.hdrLen 0 ++ b.drop c.hdrLen) := by
      unfold blit
      rw [if_pos (by simp; omega)]
      simp
    rw [hb]
    simp only
    refine ⟨(List.replicate c.hdrLen 0 ++ b.drop c.hdrLen).drop 73, ?_⟩
    have hl : (List.replicate c.hdrLen (0 : UInt8) ++ b.drop c.hdrLen).length = b.length := by simp; omega
    have := stores_ok i c.captId ((List.replicate c.hdrLen 0 ++ b.drop c.hdrLen).take 73)
      ((List.replicate c.hdrLen 0 ++ b.drop c.hdrLen).drop 73) (by rw [List.length_take, hl]; omega) (by
        rw [show c.hdrLen = 6 + (c.hdrLen - 6) by omega, ← List.replicate_append_replicate, List.append_assoc]
        rw [show List.replicate 6 (0 : UInt8) = [0, 0, 0, 0, 0, 0] from rfl]
        simp)
    rw [List.take_append_drop] at this
    rw [this]

/-- The context with `a` written and `r` behind it. -/
def filled (c : Ctx) (a r : List UInt8) : Ctx := { c with hdr := some (a ++ r), hdrLen := a.length }

theorem append_spec (c : Ctx) (ty : Nat) (d a r : List UInt8) (mem : Mem) (hh : c.hdr = some (a ++ r)) (hl : c.hdrLen = a.length)
    (hf : a.length + 6 + d.length ≤ 65535) :
    (append c ty d mem = .ok (c, false) ∧ mem = none) ∨
    append c ty d mem = .ok ({ c with hdr := some (a ++ field ty d), hdrLen := (a ++ field ty d).length }, true) := by
  unfold append
  cases mem with
  | none => left; exact ⟨rfl, rfl⟩
  | some j =>
    right
    simp only [Nat.mod_eq_of_lt (show d.length < 65536 by omega), Nat.mod_eq_of_lt (show 6 + d.length < 65536 by omega), hh, hl,
      Option.getD_some, List.take_length]
    have hz : ∃ x y, resize (a ++ r) (a.length + (6 + d.length)) j = a ++ (x ++ y) ∧ x.length = 6 ∧ y.length = d.length := by
      have hlen : (resize (a ++ r) (a.length + (6 + d.length)) j).length = a.length + (6 + d.length) := by
        unfold resize
        simp only [List.length_append, List.length_take, List.length_map, List.length_range]
        omega
      have hpre : ∃ t, resize (a ++ r) (a.length + (6 + d.length)) j = a ++ t := by
        unfold resize
        rw [List.take_append, List.take_of_length_le (by omega), List.append_assoc]
        exact ⟨_, rfl⟩
      obtain ⟨t, ht⟩ := hpre
      rw [ht, List.length_append] at hlen
      refine ⟨t.take 6, t.drop 6, by rw [ht, List.take_append_drop], ?_, ?_⟩
      · rw [List.length_take]; omega
      · rw [List.length_drop]; omega
    obtain ⟨x, y, e, hx, hy⟩ := hz
    rw [e]
    have b1 := blit_at a x (be16 0 ++ be16 ty ++ be16 (6 + d.length)) y a.length rfl (by rw [hx]; rfl)
    have b2 := blit_at (a ++ (be16 0 ++ be16 ty ++ be16 (6 + d.length))) y d [] (a.length + 6) (by simp [be16]) hy
    rw [List.append_nil, List.append_nil] at b2
    rw [List.append_assoc] at b1
    simp only [blits, b1, b2]
    have e2 : a ++ (be16 0 ++ be16 ty ++ be16 (6 + d.length)) ++ d = a ++ field ty d := by simp [field]
    rw [e2, show (a ++ field ty d).length = a.length + (6 + d.length) by rw [List.length_append, field_length],
      Nat.mod_eq_of_lt (by omega)]

theorem wire_append (l k : List (Nat × List UInt8)) : wire (l ++ k) = wire l ++ wire k := by simp [wire]

theorem appends_spec : ∀ (l : List (Nat × List UInt8 × Mem)) (c : Ctx) (a r : List UInt8), c.hdr = some (a ++ r) → c.hdrLen = a.length →
    a.length + (wire (l.map fun x => (x.1, x.2.1))).length ≤ 65535 →
    (∃ a' r', appends c l = .ok (filled c (a ++ a') r', false) ∧ ∃ x ∈ l, x.2.2 = none) ∨
    (∃ r', appends c l = .ok (filled c (a ++ wire (l.map fun x => (x.1, x.2.1))) r', true))
  | [], c, a, r, hh, hl, hf => by
    right
    refine ⟨r, ?_⟩
    simp only [appends, wire, List.map_nil, List.flatten_nil, List.append_nil, filled]
    rw [← hh, ← hl]
  | (ty, d, m) :: l, c, a, r, hh, hl, hf => by
    have e : wire (((ty, d, m) :: l).map fun x => (x.1, x.2.1)) = field ty d ++ wire (l.map fun x => (x.1, x.2.1)) := by simp [wire]
    rw [e, List.length_append, field_length] at hf
    rcases append_spec c ty d a r m hh hl (by omega) with ⟨h, hm⟩ | h
    · left
      refine ⟨[], r, ?_, ⟨_, List.mem_cons_self, hm⟩⟩
      unfold appends; rw [h]
      simp only [filled, List.append_nil]
      rw [← hh, ← hl]
    · have h' : append c ty d m = .ok (filled c (a ++ field ty d) [], true) := by rw [h, filled, List.append_nil]
      rw [e]
      unfold appends
      rw [h']
      simp only
      rcases appends_spec l (filled c (a ++ field ty d) []) (a ++ field ty d) [] rfl rfl (by
        rw [List.length_append, field_length]; omega) with ⟨a', r', h1, x, hx, hn⟩ | ⟨r', h1⟩
      · left
        refine ⟨field ty d ++ a', r', ?_, ⟨x, List.mem_cons_of_mem _ hx, hn⟩⟩
        rw [h1]
        simp [filled]
      · right
        refine ⟨r', ?_⟩
        rw [h1]
        simp [filled]

end Verif.Hep
