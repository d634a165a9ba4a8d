import Verif.Rtcp.Text

/-!
# The printed text is the report
-/

namespace Verif.Rtcp

open Str Json

theorem key_eq (s : String) : key s = asc s := rfl

/-- For mild losses the printed number is right. -/
theorem lost_mild (p : List UInt8) (i : Nat) (h : Mild p i) : getLost (p.getD i 0) (p.getD (i + 1) 0) (p.getD (i + 2) 0) = lost p i := by
  unfold Mild at h
  have h0 : u8 p i < 256 := u8_lt p i
  have h1 : u8 p (i + 1) < 256 := u8_lt p (i + 1)
  have h2 : u8 p (i + 2) < 256 := u8_lt p (i + 2)
  unfold lost at h ⊢
  unfold getLost
  change _ ∨ _ at h
  have e0 : (p.getD i 0).toNat = u8 p i := rfl
  have e1 : (p.getD (i + 1) 0).toNat = u8 p (i + 1) := rfl
  have e2 : (p.getD (i + 2) 0).toNat = u8 p (i + 2) := rfl
  simp only [e0, e1, e2] at h ⊢
  split at h
  · rename_i hu
    have hz : u8 p i = 0 := by omega
    rw [if_neg (by omega), if_pos (by omega), hz]
    push_cast
    omega
  · rename_i hu
    have hz : u8 p i = 255 := by omega
    rw [if_pos (by omega), if_neg (by omega)]
    omega

/-- `asc` of a constant. -/
theorem starts {b : List UInt8} (h : (match b with | [] => false | c :: _ => (single c).isSome) = true) :
    ∃ c b' ts, b = c :: b' ∧ single c = some ts := by
  cases b with
  | nil => cases h
  | cons c b' =>
    cases hs : single c with
    | none => simp [hs] at h
    | some ts => exact ⟨c, b', ts, rfl, hs⟩

theorem starts_append {a b : List UInt8} (h : ∃ c b' ts, a = c :: b' ∧ single c = some ts) :
    ∃ c b' ts, a ++ b = c :: b' ∧ single c = some ts := by
  obtain ⟨c, b', ts, rfl, hc⟩ := h
  exact ⟨c, b' ++ b, ts, rfl, hc⟩

def blockK (p : List UInt8) (i : Nat) : List Tok :=
  [.lb, .str (key "source_ssrc"), .colon, .num (u32 p i), .comma, .str (key "fraction_lost"), .colon, .num (u8 p (i + 4)), .comma,
    .str (key "packets_lost"), .colon, .num (lost p (i + 5)), .comma, .str (key "highest_seq_no"), .colon, .num (u32 p (i + 8)), .comma,
    .str (key "ia_jitter"), .colon, .num (u32 p (i + 12)), .comma, .str (key "lsr"), .colon, .num (u32 p (i + 16)), .comma,
    .str (key "dlsr"), .colon, .num (u32 p (i + 20)), .rb]

theorem block_lex (p : List UInt8) (i : Nat) (h : Mild p (i + 5)) : Lexes (blockT p i) (blockK p i) := by
  unfold blockT
  rw [lost_mild p (i + 5) h]
  have c1 : Lexes (asc "  {\n   \"source_ssrc\": ") [.lb, .str (key "source_ssrc"), .colon] := Lexes.of (by decide)
  have c2 : Lexes (asc ",\n   \"fraction_lost\": ") [.comma, .str (key "fraction_lost"), .colon] := Lexes.of (by decide)
  have c3 : Lexes (asc ",\n   \"packets_lost\": ") [.comma, .str (key "packets_lost"), .colon] := Lexes.of (by decide)
  have c4 : Lexes (asc ",\n   \"highest_seq_no\": ") [.comma, .str (key "highest_seq_no"), .colon] := Lexes.of (by decide)
  have c5 : Lexes (asc ",\n   \"ia_jitter\": ") [.comma, .str (key "ia_jitter"), .colon] := Lexes.of (by decide)
  have c6 : Lexes (asc ",\n   \"lsr\": ") [.comma, .str (key "lsr"), .colon] := Lexes.of (by decide)
  have c7 : Lexes (asc ",\n   \"dlsr\": ") [.comma, .str (key "dlsr"), .colon] := Lexes.of (by decide)
  have c8 : Lexes (asc "\n  }\n") [.rb] := Lexes.of (by decide)
  exact (c1.nat _).append ((c2.nat _).append ((c3.int _).append ((c4.nat _).append ((c5.nat _).append ((c6.nat _).append ((c7.nat _).append
    c8 (starts (by decide))) (starts_append (starts_append (starts (by decide))))) (starts_append (starts_append (starts (by decide)))))
    (starts_append (starts_append (starts (by decide))))) (starts_append (starts_append (starts (by decide)))))
    (starts_append (starts_append (starts (by decide))))) (starts_append (starts_append (starts (by decide))))

theorem mem_num (k : List UInt8) (n : Int) : Members [.str k, .colon, .num n] [(k, .num n)] := Members.one (Val.num n)

theorem mem_nums (k : List UInt8) (n : Int) {us : List Tok} {l : List (List UInt8 × J)} (h : Members us l) :
    Members (.str k :: .colon :: .num n :: .comma :: us) ((k, .num n) :: l) := Members.cons (Val.num n) h

theorem block_val (p : List UInt8) (i : Nat) : Val (blockK p i) (blockJ p i) :=
  Val.obj (mem_nums _ _ (mem_nums _ _ (mem_nums _ _ (mem_nums _ _ (mem_nums _ _ (mem_nums _ _ (mem_num _ _)))))))

theorem blocks_lex (p : List UInt8) : ∀ (n i : Nat), (∀ k, k < n + 1 → Mild p (i + 24 * k + 5)) →
    ∃ ts, Lexes (blocksT p i (n + 1) true).flatten ts ∧ Elems ts ((List.range (n + 1)).map fun k => blockJ p (i + 24 * k))
  | 0, i, h => by
    refine ⟨blockK p i, ?_, ?_⟩
    · have : (blocksT p i 1 true).flatten = blockT p i := by simp [blocksT]
      rw [this]
      exact block_lex p i (by simpa using h 0 (by omega))
    · simp only [Nat.zero_add, List.range_one, List.map_cons, List.map_nil, Nat.mul_zero, Nat.add_zero]
      exact Elems.one (block_val p i)
  | n + 1, i, h => by
    obtain ⟨ts, hl, he⟩ := blocks_lex p n (i + 24) (fun k hk => by
      have := h (k + 1) (by omega)
      rwa [show i + 24 * (k + 1) + 5 = i + 24 + 24 * k + 5 by omega] at this)
    refine ⟨blockK p i ++ .comma :: ts, ?_, ?_⟩
    · have e : (blocksT p i (n + 1 + 1) true).flatten = blockT p i ++ (asc "  ,\n" ++ (blocksT p (i + 24) (n + 1) true).flatten) := by
        conv_lhs => unfold blocksT blocksT
        conv_rhs => unfold blocksT
        simp
      rw [e]
      have c : Lexes (asc "  ,\n") [.comma] := Lexes.of (by decide)
      exact (block_lex p i (by simpa using h 0 (by omega))).append (c.append hl)
    · rw [List.range_succ_eq_map, List.map_cons, List.map_map]
      have : ((fun k => blockJ p (i + 24 * k)) ∘ Nat.succ) = fun k => blockJ p (i + 24 + 24 * k) := by
        funext k
        simp only [Function.comp]
        rw [show i + 24 * k.succ = i + 24 + 24 * k by omega]
      rw [this]
      exact Elems.cons (block_val p i) he

def senderK (p : List UInt8) : List Tok :=
  [.str (key "sender_information"), .colon, .lb, .str (key "ntp_timestamp_sec"), .colon, .num (u32 p 8), .comma,
    .str (key "ntp_timestamp_usec"), .colon, .num (u32 p 12), .comma, .str (key "rtp_timestamp"), .colon, .num (u32 p 16), .comma,
    .str (key "packets"), .colon, .num (u32 p 20), .comma, .str (key "octets"), .colon, .num (u32 p 24), .rb, .comma]

theorem sender_lex (p : List UInt8) : Lexes (senderT p) (senderK p) := by
  unfold senderT
  have c1 : Lexes (asc " \"sender_information\": {\n  \"ntp_timestamp_sec\": ")
    [.str (key "sender_information"), .colon, .lb, .str (key "ntp_timestamp_sec"), .colon] := Lexes.of (by decide)
  have c2 : Lexes (asc ",\n  \"ntp_timestamp_usec\": ") [.comma, .str (key "ntp_timestamp_usec"), .colon] := Lexes.of (by decide)
  have c3 : Lexes (asc ",\n  \"rtp_timestamp\": ") [.comma, .str (key "rtp_timestamp"), .colon] := Lexes.of (by decide)
  have c4 : Lexes (asc ",\n  \"packets\": ") [.comma, .str (key "packets"), .colon] := Lexes.of (by decide)
  have c5 : Lexes (asc ",\n  \"octets\": ") [.comma, .str (key "octets"), .colon] := Lexes.of (by decide)
  have c6 : Lexes (asc "\n },\n") [.rb, .comma] := Lexes.of (by decide)
  exact (c1.nat _).append ((c2.nat _).append ((c3.nat _).append ((c4.nat _).append ((c5.nat _).append c6 (starts (by decide)))
    (starts_append (starts_append (starts (by decide))))) (starts_append (starts_append (starts (by decide)))))
    (starts_append (starts_append (starts (by decide))))) (starts_append (starts_append (starts (by decide))))

theorem sender_mem (p : List UInt8) {us : List Tok} {l : List (List UInt8 × J)} (h : Members us l) :
    Members (senderK p ++ us) ((key "sender_information", senderJ p) :: l) :=
  Members.cons (Val.obj (mem_nums _ _ (mem_nums _ _ (mem_nums _ _ (mem_nums _ _ (mem_num _ _)))))) h

/-- The text of a report is one JSON value, the report. -/
theorem report_reads (p : List UInt8) (hm : ∀ k, k < count p → Mild p (base p + 24 * k + 5)) : Reads (reportT p).flatten (reportJ p) := by
  have c1 : Lexes (asc "{\n \"ssrc\": ") [.lb, .str (key "ssrc"), .colon] := Lexes.of (by decide)
  have cc : Lexes (asc ",\n") [.comma] := Lexes.of (by decide)
  have c3 : Lexes (asc " \"type\": ") [.str (key "type"), .colon] := Lexes.of (by decide)
  have c4 : Lexes (asc " \"report_blocks\": [\n") [.str (key "report_blocks"), .colon, .ls] := Lexes.of (by decide)
  have c5 : Lexes (asc " ],\n") [.rs, .comma] := Lexes.of (by decide)
  have c6 : Lexes (asc " \"report_count\": ") [.str (key "report_count"), .colon] := Lexes.of (by decide)
  have c7 : Lexes (asc "\n") [] := Lexes.of (by decide)
  have c8 : Lexes (asc "}") [.rb] := Lexes.of (by decide)
  -- the end
  have e1 : Lexes (asc " \"report_count\": " ++ Dec.dec (count p) ++ asc "\n") [.str (key "report_count"), .colon, .num (count p)] :=
    (c6.nat _).append c7 (starts (by decide))
  have m1 : Members [.str (key "report_count"), .colon, .num (count p)] [(key "report_count", .num (count p))] := mem_num _ _
  -- the blocks
  obtain ⟨bt, hb, mb⟩ : ∃ bt, Lexes (if count p > 0 then [asc " \"report_blocks\": [\n"] ++ blocksT p (base p) (count p) true ++ [asc " ],\n"]
        else []).flatten bt ∧ Members (bt ++ [.str (key "report_count"), .colon, .num (count p)])
        ((if count p = 0 then [] else [(key "report_blocks", .arr ((List.range (count p)).map fun k => blockJ p (base p + 24 * k)))]) ++
          [(key "report_count", .num (count p))]) := by
    cases hc : count p with
    | zero => exact ⟨[], by simpa using Lexes.nil, by rw [hc] at m1; simpa using m1⟩
    | succ n =>
      obtain ⟨ts, hl, he⟩ := blocks_lex p n (base p) (fun k hk => hm k (by omega))
      refine ⟨[.str (key "report_blocks"), .colon, .ls] ++ (ts ++ [.rs, .comma]), ?_, ?_⟩
      · rw [if_pos (by omega)]
        have : ([asc " \"report_blocks\": [\n"] ++ blocksT p (base p) (n + 1) true ++ [asc " ],\n"]).flatten =
          asc " \"report_blocks\": [\n" ++ ((blocksT p (base p) (n + 1) true).flatten ++ asc " ],\n") := by simp
        rw [this]
        exact c4.append (hl.append c5)
      · rw [if_neg (by omega)]
        have := Members.cons (k := key "report_blocks") (Val.arr he) (hc ▸ m1)
        simpa using this
  -- the type
  have e3 : Lexes (asc " \"type\": " ++ Dec.dec (ptype p) ++ asc ",\n") [.str (key "type"), .colon, .num (ptype p), .comma] :=
    (c3.nat _).append cc (starts (by decide))
  have m3 := mem_nums (key "type") (ptype p) mb
  -- the sender
  obtain ⟨st, hs, ms⟩ : ∃ st, Lexes (if ptype p = 200 then [senderT p] else []).flatten st ∧
      Members (st ++ (.str (key "type") :: .colon :: .num (ptype p) :: .comma :: (bt ++ [.str (key "report_count"), .colon, .num (count p)])))
        ((if ptype p = 200 then [(key "sender_information", senderJ p)] else []) ++ (key "type", .num (ptype p)) ::
          ((if count p = 0 then [] else [(key "report_blocks", .arr ((List.range (count p)).map fun k => blockJ p (base p + 24 * k)))]) ++
          [(key "report_count", .num (count p))])) := by
    by_cases ht : ptype p = 200
    · refine ⟨senderK p, ?_, ?_⟩
      · rw [if_pos ht]; simpa using sender_lex p
      · rw [if_pos ht]; exact sender_mem p m3
    · refine ⟨[], ?_, ?_⟩
      · rw [if_neg ht]; simpa using Lexes.nil
      · rw [if_neg ht]; exact m3
  have e5 : Lexes (asc "{\n \"ssrc\": " ++ Dec.dec (u32 p 4) ++ asc ",\n") [.lb, .str (key "ssrc"), .colon, .num (u32 p 4), .comma] :=
    (c1.nat _).append cc (starts (by decide))
  have m5 := mem_nums (key "ssrc") (u32 p 4) ms
  have all := e5.append (hs.append (e3.append (hb.append (e1.append c8))))
  have hf : (reportT p).flatten = (asc "{\n \"ssrc\": " ++ Dec.dec (u32 p 4) ++ asc ",\n") ++
      ((if ptype p = 200 then [senderT p] else []).flatten ++ ((asc " \"type\": " ++ Dec.dec (ptype p) ++ asc ",\n") ++
      ((if count p > 0 then [asc " \"report_blocks\": [\n"] ++ blocksT p (base p) (count p) true ++ [asc " ],\n"] else []).flatten ++
      ((asc " \"report_count\": " ++ Dec.dec (count p) ++ asc "\n") ++ asc "}")))) := by
    unfold reportT
    simp only [List.flatten_append, List.flatten_cons, List.flatten_nil, List.append_nil, List.append_assoc]
  refine ⟨_, by rw [hf]; exact all.toks, ?_⟩
  have hv := Val.obj m5
  unfold reportJ
  have ej : ([(key "ssrc", J.num (u32 p 4))] ++ (if ptype p = 200 then [(key "sender_information", senderJ p)] else []) ++
    [(key "type", .num (ptype p))] ++
    (if count p = 0 then [] else [(key "report_blocks", .arr ((List.range (count p)).map fun k => blockJ p (base p + 24 * k)))]) ++
    [(key "report_count", .num (count p))]) = (key "ssrc", .num (u32 p 4)) ::
      ((if ptype p = 200 then [(key "sender_information", senderJ p)] else []) ++ (key "type", .num (ptype p)) ::
          ((if count p = 0 then [] else [(key "report_blocks", .arr ((List.range (count p)).map fun k => blockJ p (base p + 24 * k)))]) ++
          [(key "report_count", .num (count p))])) := by simp
  rw [ej]
  simpa using hv

end Verif.Rtcp
