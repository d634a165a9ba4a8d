import Verif.Rtcp.Model
import Verif.Rtcp.Spec

/-!
# What is printed for a packet
-/

namespace Verif.Rtcp

open Str Json

/-- The packet `p` is in the buffer at `r`. -/
def At (buf : List UInt8) (r : Nat) (p : List UInt8) : Prop := ∀ i, i < p.length → rd buf (r + i) = .ok (p.getD i 0)

theorem At.of_drop {buf p rest : List UInt8} {r : Nat} (h : buf.drop r = p ++ rest) : At buf r p := by
  intro i hi
  apply rd_ok
  rw [← List.getElem?_drop, h, List.getElem?_append_left hi, List.getD_eq_getElem?_getD, List.getElem?_eq_getElem hi]
  rfl

theorem At.rd32 {buf p : List UInt8} {r : Nat} (h : At buf r p) (i : Nat) (hi : i + 4 ≤ p.length) : rd32 buf (r + i) = .ok (u32 p i) := by
  unfold Rtcp.rd32
  rw [h i (by omega), show r + i + 1 = r + (i + 1) by omega, h (i + 1) (by omega), show r + i + 2 = r + (i + 2) by omega,
    h (i + 2) (by omega), show r + i + 3 = r + (i + 3) by omega, h (i + 3) (by omega)]
  simp only [bind, Except.bind, pure, Except.pure, Except.ok.injEq]
  unfold u32 u8
  omega

def blockT (p : List UInt8) (i : Nat) : List UInt8 :=
  asc "  {\n   \"source_ssrc\": " ++ Dec.dec (u32 p i) ++ (asc ",\n   \"fraction_lost\": " ++ Dec.dec (u8 p (i + 4)) ++
    (asc ",\n   \"packets_lost\": " ++ Dec.decI (getLost (p.getD (i + 5) 0) (p.getD (i + 6) 0) (p.getD (i + 7) 0)) ++
    (asc ",\n   \"highest_seq_no\": " ++ Dec.dec (u32 p (i + 8)) ++
    (asc ",\n   \"ia_jitter\": " ++ Dec.dec (u32 p (i + 12)) ++ (asc ",\n   \"lsr\": " ++ Dec.dec (u32 p (i + 16)) ++
    (asc ",\n   \"dlsr\": " ++ Dec.dec (u32 p (i + 20)) ++ asc "\n  }\n"))))))

theorem block_eq {buf p : List UInt8} {r : Nat} (h : At buf r p) (i : Nat) (hi : i + 24 ≤ p.length) :
    block buf (r + i) = .ok (blockT p i) := by
  unfold block
  rw [h.rd32 i (by omega), show r + i + 4 = r + (i + 4) by omega, h (i + 4) (by omega), show r + i + 5 = r + (i + 5) by omega,
    h (i + 5) (by omega), show r + i + 6 = r + (i + 6) by omega, h (i + 6) (by omega), show r + i + 7 = r + (i + 7) by omega,
    h (i + 7) (by omega), show r + i + 8 = r + (i + 8) by omega, h.rd32 (i + 8) (by omega), show r + i + 12 = r + (i + 12) by omega,
    h.rd32 (i + 12) (by omega), show r + i + 16 = r + (i + 16) by omega, h.rd32 (i + 16) (by omega),
    show r + i + 20 = r + (i + 20) by omega, h.rd32 (i + 20) (by omega)]
  rfl

def blocksT (p : List UInt8) : Nat → Nat → Bool → List (List UInt8)
  | _, 0, _ => []
  | i, n + 1, first => (if first then [blockT p i] else [asc "  ,\n", blockT p i]) ++ blocksT p (i + 24) n false

theorem blocks_eq {buf p : List UInt8} {r : Nat} (h : At buf r p) : ∀ (n i : Nat) (first : Bool), i + 24 * n ≤ p.length →
    blocks buf (r + i) n first = .ok (blocksT p i n first)
  | 0, _, _, _ => rfl
  | n + 1, i, first, hi => by
    unfold blocks blocksT
    rw [block_eq h i (by omega), show r + i + 24 = r + (i + 24) by omega, blocks_eq h n (i + 24) false (by omega)]
    rfl

def senderT (p : List UInt8) : List UInt8 :=
  asc " \"sender_information\": {\n  \"ntp_timestamp_sec\": " ++ Dec.dec (u32 p 8) ++ (asc ",\n  \"ntp_timestamp_usec\": " ++
    Dec.dec (u32 p 12) ++ (asc ",\n  \"rtp_timestamp\": " ++ Dec.dec (u32 p 16) ++ (asc ",\n  \"packets\": " ++ Dec.dec (u32 p 20) ++
    (asc ",\n  \"octets\": " ++ Dec.dec (u32 p 24) ++ asc "\n },\n"))))

theorem sender_eq {buf p : List UInt8} {r : Nat} (h : At buf r p) (hi : 28 ≤ p.length) : sender buf r = .ok (senderT p) := by
  unfold sender
  rw [h.rd32 8 (by omega), h.rd32 12 (by omega), h.rd32 16 (by omega), h.rd32 20 (by omega), h.rd32 24 (by omega)]
  rfl

def reportT (p : List UInt8) : List (List UInt8) :=
  [asc "{\n \"ssrc\": " ++ Dec.dec (u32 p 4) ++ asc ",\n"] ++ (if ptype p = 200 then [senderT p] else []) ++
    [asc " \"type\": " ++ Dec.dec (ptype p) ++ asc ",\n"] ++
    (if count p > 0 then [asc " \"report_blocks\": [\n"] ++ blocksT p (base p) (count p) true ++ [asc " ],\n"] else []) ++
    [asc " \"report_count\": " ++ Dec.dec (count p) ++ asc "\n", asc "}"]

theorem report_eq {buf p : List UInt8} {r : Nat} (h : At buf r p) (hr : IsReport p) (hi : base p + 24 * count p ≤ p.length) :
    report buf r (decide (ptype p = 200)) (count p) = .ok (reportT p) := by
  unfold report reportT
  rcases hr with hr | hr
  · have hb : base p = 28 := by unfold base; rw [if_pos hr]
    rw [h.rd32 4 (by omega)]
    simp only [hr, decide_true, if_true]
    rw [sender_eq h (by omega), blocks_eq h (count p) 28 true (by omega), hb]
    rfl
  · have hb : base p = 8 := by unfold base; rw [if_neg (by omega)]
    rw [h.rd32 4 (by omega)]
    have hd : (decide (201 = 200)) = false := rfl
    simp only [hr, hd, Bool.false_eq_true, if_false]
    rw [blocks_eq h (count p) 8 true (by omega), hb]
    rfl

/-! ### Lengths -/

theorem u8_lt (p : List UInt8) (i : Nat) : u8 p i < 256 := (p.getD i 0).toNat_lt

theorem u32_lt (p : List UInt8) (i : Nat) : u32 p i < 10 ^ 10 := by
  unfold u32
  have h0 := u8_lt p i
  have h1 := u8_lt p (i + 1)
  have h2 := u8_lt p (i + 2)
  have h3 := u8_lt p (i + 3)
  omega

theorem len32 (p : List UInt8) (i : Nat) : (Dec.dec (u32 p i)).length ≤ 10 := Dec.dec_length 9 _ (u32_lt p i)

theorem len8 (p : List UInt8) (i : Nat) : (Dec.dec (u8 p i)).length ≤ 3 := Dec.dec_length 2 _ (by have := u8_lt p i; omega)

theorem lenLost (a b c : UInt8) : (Dec.decI (getLost a b c)).length ≤ 8 := by
  unfold getLost
  simp only
  have ha := a.toNat_lt
  have hb := b.toNat_lt
  have hc := c.toNat_lt
  split
  · decide +kernel
  · rw [one_mul]
    unfold Dec.decI
    rw [if_neg (by omega), Int.natAbs_natCast]
    exact Dec.dec_length 7 _ (by omega)

theorem len_block (p : List UInt8) (i : Nat) : (blockT p i).length ≤ 197 := by
  unfold blockT
  have h1 := len32 p i
  have h2 := len8 p (i + 4)
  have h3 := lenLost (p.getD (i + 5) 0) (p.getD (i + 6) 0) (p.getD (i + 7) 0)
  have h4 := len32 p (i + 8)
  have h5 := len32 p (i + 12)
  have h6 := len32 p (i + 16)
  have h7 := len32 p (i + 20)
  have c1 : (asc "  {\n   \"source_ssrc\": ").length = 22 := by decide
  have c2 : (asc ",\n   \"fraction_lost\": ").length = 22 := by decide
  have c3 : (asc ",\n   \"packets_lost\": ").length = 21 := by decide
  have c4 : (asc ",\n   \"highest_seq_no\": ").length = 23 := by decide
  have c5 : (asc ",\n   \"ia_jitter\": ").length = 18 := by decide
  have c6 : (asc ",\n   \"lsr\": ").length = 12 := by decide
  have c7 : (asc ",\n   \"dlsr\": ").length = 13 := by decide
  have c8 : (asc "\n  }\n").length = 5 := by decide
  simp only [List.length_append, c1, c2, c3, c4, c5, c6, c7, c8]
  omega

theorem len_blocks (p : List UInt8) : ∀ (n i : Nat) (first : Bool), (blocksT p i n first).flatten.length ≤ 201 * n
  | 0, _, _ => by simp [blocksT]
  | n + 1, i, first => by
    unfold blocksT
    have h := len_block p i
    have ih := len_blocks p n (i + 24) false
    have c : (asc "  ,\n").length = 4 := by decide
    rw [List.flatten_append, List.length_append]
    cases first
    · simp only [Bool.false_eq_true, if_false, List.flatten_cons, List.flatten_nil, List.length_append, List.length_nil, c]
      omega
    · simp only [if_true, List.flatten_cons, List.flatten_nil, List.length_append, List.length_nil]
      omega

theorem len_sender (p : List UInt8) : (senderT p).length ≤ 179 := by
  unfold senderT
  have h1 := len32 p 8
  have h2 := len32 p 12
  have h3 := len32 p 16
  have h4 := len32 p 20
  have h5 := len32 p 24
  have c1 : (asc " \"sender_information\": {\n  \"ntp_timestamp_sec\": ").length = 48 := by decide
  have c2 : (asc ",\n  \"ntp_timestamp_usec\": ").length = 26 := by decide
  have c3 : (asc ",\n  \"rtp_timestamp\": ").length = 21 := by decide
  have c4 : (asc ",\n  \"packets\": ").length = 15 := by decide
  have c5 : (asc ",\n  \"octets\": ").length = 14 := by decide
  have c6 : (asc "\n },\n").length = 5 := by decide
  simp only [List.length_append, c1, c2, c3, c4, c5, c6]
  omega

theorem len_report (p : List UInt8) (hi : base p + 24 * count p ≤ p.length) : (reportT p).flatten.length ≤ 9 * p.length := by
  unfold reportT
  have h1 := len32 p 4
  have h2 := len8 p 1
  have h3 : (Dec.dec (count p)).length ≤ 3 := Dec.dec_length 2 _ (by unfold count; omega)
  have h4 := len_blocks p (count p) (base p) true
  have h5 := len_sender p
  have c1 : (asc "{\n \"ssrc\": ").length = 11 := by decide
  have c2 : (asc ",\n").length = 2 := by decide
  have c3 : (asc " \"type\": ").length = 9 := by decide
  have c4 : (asc " \"report_blocks\": [\n").length = 20 := by decide
  have c5 : (asc " ],\n").length = 4 := by decide
  have c6 : (asc " \"report_count\": ").length = 17 := by decide
  have c7 : (asc "\n").length = 1 := by decide
  have c8 : (asc "}").length = 1 := by decide
  change (Dec.dec (ptype p)).length ≤ 3 at h2
  simp only [List.flatten_append, List.length_append, List.flatten_cons, List.flatten_nil, List.length_nil, c1, c2, c3, c6, c7, c8]
  unfold base at hi
  have e1 : ((if ptype p = 200 then [senderT p] else []).flatten).length ≤ if ptype p = 200 then 179 else 0 := by
    split
    · simpa using h5
    · simp
  have e2 : ((if count p > 0 then [asc " \"report_blocks\": [\n"] ++ blocksT p (base p) (count p) true ++ [asc " ],\n"] else []).flatten).length ≤
      if count p > 0 then 24 + 201 * count p else 0 := by
    split
    · simp only [List.flatten_append, List.length_append, List.flatten_cons, List.flatten_nil, List.length_nil, c4, c5]
      omega
    · simp
  have e3 : (if count p > 0 then 24 + 201 * count p else 0) ≤ 216 * count p + 9 := by split <;> omega
  split at hi <;> rename_i ht
  · rw [if_pos ht] at e1
    rw [if_pos ht] at e1 ⊢
    omega
  · rw [if_neg ht] at e1
    rw [if_neg ht] at e1 ⊢
    omega

end Verif.Rtcp
