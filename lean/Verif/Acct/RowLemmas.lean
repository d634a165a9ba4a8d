import Verif.Acct.RowSpec

/-! # Lemmas about rows -/

namespace Verif.Acct

theorem split_ne (c : UInt8) (l : List UInt8) : split c l ≠ [] := by
  cases l with
  | nil => simp [split]
  | cons a l => simp only [split]; repeat' split
                all_goals simp

theorem split_append (c : UInt8) (a b : List UInt8) : split c (a ++ c :: b) = split c a ++ split c b := by
  induction a with
  | nil => simp [split]
  | cons x l ih =>
    simp only [List.cons_append, split]
    by_cases h : x = c
    · simp [h, ih]
    · simp only [h, if_false, ih]
      cases hs : split c l with
      | nil => exact absurd hs (split_ne c l)
      | cons w ws => simp

theorem split_plain {c : UInt8} {w : List UInt8} (h : c ∉ w) : split c w = [w] := by
  induction w with
  | nil => rfl
  | cons x l ih =>
    simp only [List.mem_cons, not_or] at h
    simp only [split, if_neg (Ne.symm h.1), ih h.2]

/-- The tokens of a row: conversions with commas between. -/
def alt : List Conv → List Tok
  | [] => []
  | [k] => [.conv k, .lit 10]
  | k :: ks => .conv k :: .lit 44 :: alt ks

/-- Texts with commas between. -/
def join : List (List UInt8) → List UInt8
  | [] => []
  | [w] => w
  | w :: ws => w ++ 44 :: join ws

def texts : List Conv → List Arg → Option (List (List UInt8))
  | [], [] => some []
  | k :: ks, a :: as => match a.text k, texts ks as with
    | some w, some ws => some (w :: ws)
    | _, _ => none
  | _, _ => none

theorem render_alt : ∀ (ks : List Conv) (as : List Arg) (ws : List (List UInt8)), ks ≠ [] → texts ks as = some ws →
    render (alt ks) as = .ok (join ws ++ [10])
  | [], _, _, h, _ => absurd rfl h
  | [k], [a], ws, _, h => by
    simp only [texts] at h
    split at h
    next w ws' h1 h2 =>
      cases h; cases h2
      simp [alt, render, h1, join, Except.map]
    · cases h
  | k :: k' :: ks, a :: as, ws, _, h => by
    rw [texts] at h
    split at h
    next w ws' h1 h2 =>
      cases h
      have ih := render_alt (k' :: ks) as ws' (by simp) h2
      have hne : ws' ≠ [] := by
        intro hn; subst hn
        cases as with
        | nil => simp [texts] at h2
        | cons x xs =>
          simp only [texts] at h2; split at h2 <;> cases h2
      obtain ⟨v, vs, rfl⟩ := List.exists_cons_of_ne_nil hne
      simp [alt, render, h1, ih, join, Except.map]
    · cases h
  | k :: ks, [], _, _, h => by simp [texts] at h
  | [_], _ :: _ :: _, _, _, h => by
    rw [texts] at h; split at h
    next h1 h2 => simp [texts] at h2
    · cases h

theorem split_join (c : UInt8) (hc : c = 44) : ∀ ws : List (List UInt8), ws ≠ [] →
    split c (join ws) = ws.flatMap (split c)
  | [], h => absurd rfl h
  | [w], _ => by simp [join]
  | w :: w' :: ws, _ => by
    have ih := split_join c hc (w' :: ws) (by simp)
    subst hc
    rw [join, split_append, ih]
    · simp
    · simp

theorem not_mem_join {c : UInt8} (hc : c ≠ 44) : ∀ {ws : List (List UInt8)}, (∀ w ∈ ws, c ∉ w) → c ∉ join ws
  | [], _ => by simp [join]
  | [w], h => by simpa [join] using h w
  | w :: w' :: ws, h => by
    have ih := not_mem_join hc (ws := w' :: ws) (fun x hx => h x (List.mem_cons_of_mem _ hx))
    have h1 := h w (by simp)
    rw [join]
    · simp [h1, hc, ih]
    · simp

/-- The conversions of the format, in order. -/
def kinds : List Conv :=
  [.s, .s, .d, .l, .s, .s, .f, .f, .f, .f, .f, .f, .u, .u, .u, .u, .u, .u, .u, .u, .u, .u, .u, .u, .u, .s, .u, .d,
   .u, .u, .u, .u, .u, .s, .u, .d, .f, .f, .f, .f, .f, .f, .s, .s, .s, .s, .s, .s, .d, .d]

theorem parse_fmt : parse fmt = some (alt kinds) := by decide +kernel

/-- The texts of a row. -/
def cells (r : Rec) : List (List UInt8) :=
  [bytes "1.2", r.node,
   Dec.decI r.pid, Dec.decI (toI64 r.seuid), esIfNull r.callId, esIfNull r.fromTag,
   r.init, r.destroy, r.o.first,
   r.o.last, r.a.first,
   r.a.last, Dec.dec r.a.rtpIn, Dec.dec r.o.rtpIn,
   Dec.dec r.rtpRelayed, Dec.dec r.rtpDropped, Dec.dec r.a.rtcpIn,
   Dec.dec r.o.rtcpIn, Dec.dec r.rtcpRelayed, Dec.dec r.rtcpDropped,
   Dec.dec r.o.psent, Dec.dec r.o.precvd, Dec.dec r.o.pdups, Dec.dec r.o.plost,
   Dec.dec r.o.pecount, (formatSsrc r.o.ssrc), Dec.dec r.o.ssrcChanges, Dec.decI r.o.lastPt,
   Dec.dec r.a.psent, Dec.dec r.a.precvd, Dec.dec r.a.pdups, Dec.dec r.a.plost,
   Dec.dec r.a.pecount, (formatSsrc r.a.ssrc), Dec.dec r.a.ssrcChanges, Dec.decI r.a.lastPt,
   r.o.jlast, r.o.jmax, r.o.javg,
   r.a.jlast, r.a.jmax, r.a.javg,
   (formatAddr r.o.rtpAddr), (formatAddr r.a.rtpAddr), (formatAddr r.o.rtcpAddr), (formatAddr r.a.rtcpAddr),
   (fmtBool r.o.held), (fmtBool r.a.held),
   Dec.decI r.o.holds, Dec.decI r.a.holds]

theorem texts_args (r : Rec) : texts kinds (args r) = some (cells r) := rfl

theorem row_eq (r : Rec) : row r = .ok (join (cells r) ++ [10]) := by
  simp only [row, printf, parse_fmt]
  exact render_alt _ _ _ (by simp [kinds]) (texts_args r)

theorem dec_plain (n : Nat) : Plain (Dec.dec n) := by
  constructor <;> intro h <;> have := Dec.dec_digit n _ h <;> simp [Str.isDigit] at this

theorem decI_plain (n : Int) : Plain (Dec.decI n) := by
  have h := dec_plain n.natAbs
  unfold Dec.decI
  split
  · constructor
    · simp [h.1]
    · simp [h.2]
  · exact h

theorem hexDigit_plain (n : Nat) (h : n < 16) : hexDigit n ≠ 44 ∧ hexDigit n ≠ 10 := by
  have : ∀ k : Fin 16, hexDigit k.val ≠ 44 ∧ hexDigit k.val ≠ 10 := by decide
  exact this ⟨n, h⟩

theorem ssrc_plain (s : Option Nat) : Plain (formatSsrc s) := by
  cases s with
  | none => simp [formatSsrc, Plain]
  | some v =>
    have h : ∀ k : Nat, hexDigit (v / 2 ^ k % 16) ≠ 44 ∧ hexDigit (v / 2 ^ k % 16) ≠ 10 :=
      fun k => hexDigit_plain _ (Nat.mod_lt _ (by decide))
    have h0 : bytes "0x" = [48, 120] := by decide +kernel
    simp only [formatSsrc, hex8, Plain, h0, List.map_cons, List.map_nil, List.mem_append, List.mem_cons,
      List.not_mem_nil, or_false, not_or]
    refine ⟨⟨by decide, ?_⟩, ⟨by decide, ?_⟩⟩
    · exact ⟨(h 28).1.symm, (h 24).1.symm, (h 20).1.symm, (h 16).1.symm, (h 12).1.symm, (h 8).1.symm, (h 4).1.symm,
        (h 0).1.symm⟩
    · exact ⟨(h 28).2.symm, (h 24).2.symm, (h 20).2.symm, (h 16).2.symm, (h 12).2.symm, (h 8).2.symm, (h 4).2.symm,
        (h 0).2.symm⟩

theorem bool_plain (n : Nat) : Plain (fmtBool n) := by
  unfold fmtBool; split <;> (constructor <;> decide +kernel)

theorem opt_plain {o : Option (List UInt8)} (h : ∀ w, o = some w → Plain w) : Plain (esIfNull o) := by
  cases o with
  | none => simp [esIfNull, Plain]
  | some w => exact h w rfl

theorem addr_split {a : Addr} (h : a.Plain) : split 44 (formatAddr a) = [a.host, a.port] ∧ 10 ∉ formatAddr a := by
  have hc : bytes "," = [44] := by decide +kernel
  have hl : bytes "[" = [91] := by decide +kernel
  have hr : bytes "]" = [93] := by decide +kernel
  cases a with
  | empty => simp [formatAddr, hc, split, Addr.host, Addr.port]
  | v4 w p =>
    have hp := dec_plain p
    simp only [formatAddr, hc, List.append_assoc, List.singleton_append]
    rw [split_append, split_plain h.1, split_plain hp.1]
    exact ⟨rfl, by simp [h.2, hp.2]⟩
  | v6 w p =>
    have hp := dec_plain p
    have e : formatAddr (.v6 w p) = (91 :: (w ++ [93])) ++ 44 :: Dec.dec p := by
      simp [formatAddr, hc, hl, hr]
    have hw : (44 : UInt8) ∉ (91 :: (w ++ [93]) : List UInt8) := by
      simp only [List.mem_cons, List.mem_append, List.not_mem_nil, or_false, not_or]
      exact ⟨by decide, h.1, by decide⟩
    rw [e, split_append, split_plain hw, split_plain hp.1]
    refine ⟨rfl, ?_⟩
    simp only [List.mem_cons, List.mem_append, List.not_mem_nil, or_false, not_or]
    exact ⟨⟨by decide, h.2, by decide⟩, by decide, hp.2⟩

/-- The values of a row, in order. -/
def fields (r : Rec) : List (List UInt8) :=
  [bytes "1.2", r.node,
   Dec.decI r.pid, Dec.decI (toI64 r.seuid), esIfNull r.callId, esIfNull r.fromTag,
   r.init, r.destroy, r.o.first,
   r.o.last, r.a.first,
   r.a.last, Dec.dec r.a.rtpIn, Dec.dec r.o.rtpIn,
   Dec.dec r.rtpRelayed, Dec.dec r.rtpDropped, Dec.dec r.a.rtcpIn,
   Dec.dec r.o.rtcpIn, Dec.dec r.rtcpRelayed, Dec.dec r.rtcpDropped,
   Dec.dec r.o.psent, Dec.dec r.o.precvd, Dec.dec r.o.pdups, Dec.dec r.o.plost,
   Dec.dec r.o.pecount, (formatSsrc r.o.ssrc), Dec.dec r.o.ssrcChanges, Dec.decI r.o.lastPt,
   Dec.dec r.a.psent, Dec.dec r.a.precvd, Dec.dec r.a.pdups, Dec.dec r.a.plost,
   Dec.dec r.a.pecount, (formatSsrc r.a.ssrc), Dec.dec r.a.ssrcChanges, Dec.decI r.a.lastPt,
   r.o.jlast, r.o.jmax, r.o.javg,
   r.a.jlast, r.a.jmax, r.a.javg,
   r.o.rtpAddr.host, r.o.rtpAddr.port, r.a.rtpAddr.host, r.a.rtpAddr.port,
   r.o.rtcpAddr.host, r.o.rtcpAddr.port, r.a.rtcpAddr.host, r.a.rtcpAddr.port,
   (fmtBool r.o.held), (fmtBool r.a.held),
   Dec.decI r.o.holds, Dec.decI r.a.holds]

theorem split_cells {r : Rec} (h : r.Plain) : split 44 (join (cells r)) = fields r := by
  have hv : Plain (bytes "1.2") := by constructor <;> decide +kernel
  rw [split_join _ rfl _ (by simp [cells])]
  simp only [cells, List.flatMap_cons, List.flatMap_nil, split_plain hv.1, split_plain h.node.1,
    split_plain (decI_plain _).1, split_plain (dec_plain _).1, split_plain (opt_plain h.call).1,
    split_plain (opt_plain h.tag).1, split_plain h.init.1, split_plain h.destroy.1, split_plain h.o.first.1,
    split_plain h.o.last.1, split_plain h.a.first.1, split_plain h.a.last.1, split_plain (ssrc_plain _).1,
    split_plain h.o.jlast.1, split_plain h.o.jmax.1, split_plain h.o.javg.1, split_plain h.a.jlast.1,
    split_plain h.a.jmax.1, split_plain h.a.javg.1, (addr_split h.o.rtp).1, (addr_split h.o.rtcp).1,
    (addr_split h.a.rtp).1, (addr_split h.a.rtcp).1, split_plain (bool_plain _).1]
  rfl

theorem cells_line {r : Rec} (h : r.Plain) : 10 ∉ join (cells r) := by
  have hv : Plain (bytes "1.2") := by constructor <;> decide +kernel
  refine not_mem_join (by decide) ?_
  simp only [cells, List.forall_mem_cons, List.not_mem_nil, false_implies, implies_true, and_true]
  exact ⟨hv.2, h.node.2, (decI_plain _).2, (decI_plain _).2, (opt_plain h.call).2, (opt_plain h.tag).2, h.init.2,
    h.destroy.2, h.o.first.2, h.o.last.2, h.a.first.2, h.a.last.2, (dec_plain _).2, (dec_plain _).2, (dec_plain _).2,
    (dec_plain _).2, (dec_plain _).2, (dec_plain _).2, (dec_plain _).2, (dec_plain _).2, (dec_plain _).2, (dec_plain _).2,
    (dec_plain _).2, (dec_plain _).2, (dec_plain _).2, (ssrc_plain _).2, (dec_plain _).2, (decI_plain _).2,
    (dec_plain _).2, (dec_plain _).2, (dec_plain _).2, (dec_plain _).2, (dec_plain _).2, (ssrc_plain _).2,
    (dec_plain _).2, (decI_plain _).2, h.o.jlast.2, h.o.jmax.2, h.o.javg.2, h.a.jlast.2, h.a.jmax.2, h.a.javg.2,
    (addr_split h.o.rtp).2, (addr_split h.a.rtp).2, (addr_split h.o.rtcp).2, (addr_split h.a.rtcp).2,
    (bool_plain _).2, (bool_plain _).2, (decI_plain _).2, (decI_plain _).2⟩

/-- The line of names. -/
def headLine : List UInt8 := head.dropLast

theorem head_eq : head = headLine ++ [10] := by decide +kernel

theorem headLine_line : 10 ∉ headLine := by decide +kernel

theorem lines_cons {w l : List UInt8} (h : 10 ∉ w) : lines (w ++ 10 :: l) = w :: lines l := by
  simp only [lines, split_append, split_plain h]
  rw [List.cons_append, List.nil_append, List.dropLast_cons_of_ne_nil (split_ne 10 l)]

end Verif.Acct
