import Verif.Rtcp.Text

/-!
# The loop over the packets
-/

namespace Verif.Rtcp

open Str

/-- Room for the terminator. -/
def Room (o : Out) : Prop := o.text.length < o.alen

/-- No allocation fails. -/
def Plenty (o : Out) : Prop := ∀ b ∈ o.allocs, b = true

theorem put_spec (o : Out) (w : List UInt8) (hr : Room o) (hs : o.text.length + w.length < 1073741824) :
    ∃ o' b, put o w = .ok (o', b) ∧ Room o' ∧ (b = true → o'.text = o.text ++ w) ∧ (b = false → o'.text = o.text) ∧
      (Plenty o → b = true ∧ Plenty o') := by
  unfold Room at hr
  fun_induction put o w with
  | case1 o h0 => omega
  | case2 o h0 h1 =>
    refine ⟨_, _, rfl, ?_, fun _ => rfl, (fun h => by cases h), fun h => ⟨rfl, h⟩⟩
    unfold Room
    simp only [List.length_append]
    omega
  | case3 o h0 h1 h2 => omega
  | case4 o h0 h1 h2 as he =>
    refine ⟨_, _, rfl, hr, (fun h => by cases h), fun _ => rfl, fun h => ?_⟩
    have := h false (by rw [he]; simp)
    cases this
  | case5 o h0 h1 h2 as ih =>
    obtain ⟨o', b, e, r, t, f, p⟩ := ih (by change o.text.length < o.alen * 2; omega) hs
    refine ⟨o', b, e, r, t, f, fun h => p ?_⟩
    intro x hx
    exact h x (List.mem_of_mem_tail hx)

theorem puts_spec : ∀ (ws : List (List UInt8)) (o : Out), Room o → o.text.length + ws.flatten.length < 1073741824 →
    ∃ o' b, puts o ws = .ok (o', b) ∧ Room o' ∧ (b = true → o'.text = o.text ++ ws.flatten) ∧ (Plenty o → b = true ∧ Plenty o')
  | [], o, hr, _ => ⟨o, true, rfl, hr, fun _ => by simp, fun h => ⟨rfl, h⟩⟩
  | w :: ws, o, hr, hs => by
    rw [List.flatten_cons, List.length_append] at hs
    obtain ⟨o1, b1, e1, r1, t1, _, p1⟩ := put_spec o w hr (by omega)
    unfold puts
    rw [e1]
    cases b1 with
    | false =>
      refine ⟨o1, false, rfl, r1, (fun h => by cases h), fun h => ?_⟩
      cases (p1 h).1
    | true =>
      have ht := t1 rfl
      obtain ⟨o2, b2, e2, r2, t2, p2⟩ := puts_spec ws o1 r1 (by rw [ht, List.length_append]; omega)
      refine ⟨o2, b2, e2, r2, fun h => ?_, fun h => p2 (p1 h).2⟩
      rw [t2 h, ht, List.flatten_cons, List.append_assoc]

theorem u8_take (q : List UInt8) {n i : Nat} (h : i < n) : u8 (q.take n) i = u8 q i := by
  unfold u8
  rw [List.getD_eq_getElem?_getD, List.getD_eq_getElem?_getD, List.getElem?_take_of_lt h]

theorem u8_append (p q : List UInt8) {i : Nat} (h : i < p.length) : u8 (p ++ q) i = u8 p i := by
  unfold u8
  rw [List.getD_eq_getElem?_getD, List.getD_eq_getElem?_getD, List.getElem?_append_left h]

theorem header_eq {buf : List UInt8} {r : Nat} {q : List UInt8} (hq : buf.drop r = q) (h : 4 ≤ q.length) :
    header buf r = .ok (version q, count q, ptype q, announced q) := by
  have ha : At buf r q := At.of_drop (rest := []) (by rw [List.append_nil]; exact hq)
  unfold header
  have h0 := ha 0 (by omega)
  rw [Nat.add_zero] at h0
  rw [h0, ha 1 (by omega), ha 2 (by omega), ha 3 (by omega)]
  rfl

theorem least_sr (n : Nat) (h : n < 32) : least 52 n = 28 + 24 * n := by
  unfold least
  cases n with
  | zero => rfl
  | succ m =>
    rw [show m + 1 + 18446744073709551615 = m + 18446744073709551616 by omega, Nat.add_mod_right, Nat.mod_eq_of_lt (a := m) (by omega),
      Nat.mod_eq_of_lt (by omega)]
    omega

theorem least_rr (n : Nat) (h : n < 32) : least 32 n = 8 + 24 * n := by
  unfold least
  cases n with
  | zero => rfl
  | succ m =>
    rw [show m + 1 + 18446744073709551615 = m + 18446744073709551616 by omega, Nat.add_mod_right, Nat.mod_eq_of_lt (a := m) (by omega),
      Nat.mod_eq_of_lt (by omega)]
    omega

/-- What is printed for a packet: nothing unless it is a report. -/
def text (p : List UInt8) : List UInt8 := if IsReport p then (reportT p).flatten else []

/-- The parts of a whole packet at the front. -/
theorem split_first {q : List UInt8} (hl : announced q ≤ q.length) :
    (q.take (announced q)).length = announced q ∧ announced (q.take (announced q)) = announced q ∧
      ptype (q.take (announced q)) = ptype q ∧ count (q.take (announced q)) = count q := by
  have ha : 4 ≤ announced q := by unfold announced; omega
  refine ⟨by rw [List.length_take]; omega, ?_, ?_, ?_⟩
  · conv_lhs => unfold announced
    rw [u8_take q (by omega), u8_take q (by omega)]
    rfl
  · unfold ptype; rw [u8_take q (by omega)]
  · unfold count; rw [u8_take q (by omega)]

theorem whole_first {p : List UInt8} {rest : List UInt8} (h : Whole p) :
    announced (p ++ rest) = p.length ∧ ptype (p ++ rest) = ptype p ∧ count (p ++ rest) = count p := by
  obtain ⟨h4, ha, _⟩ := h
  refine ⟨?_, ?_, ?_⟩
  · rw [ha]; unfold announced; rw [u8_append p rest (by omega), u8_append p rest (by omega)]
  · unfold ptype; rw [u8_append p rest (by omega)]
  · unfold count; rw [u8_append p rest (by omega)]

theorem loop_spec (buf : List UInt8) : ∀ (n r : Nat) (o : Out), (buf.drop r).length ≤ n → Room o →
    o.text.length + 16 * (buf.drop r).length < 1073741824 → r ≤ buf.length →
    ∃ o' v, loop buf o r ((buf.drop r).length : Int) = .ok (o', v) ∧ Room o' ∧
      (0 ≤ v → v = 0 ∧ ∃ ps : List (List UInt8), ps.flatten = buf.drop r ∧ (∀ p ∈ ps, Whole p) ∧ o'.text = o.text ++ (ps.map text).flatten) ∧
      (Plenty o → (∃ ps : List (List UInt8), ps.flatten = buf.drop r ∧ ∀ p ∈ ps, Whole p) → 0 ≤ v) := by
  intro n
  induction n with
  | zero =>
    intro r o hn hr hs hrl
    have h0 : (buf.drop r).length = 0 := by omega
    have he : buf.drop r = [] := List.length_eq_zero_iff.1 h0
    refine ⟨o, 0, ?_, hr, fun _ => ⟨rfl, [], by simp [he], by simp, by simp⟩, fun _ _ => le_refl _⟩
    unfold loop
    rw [h0, dif_pos (by simp)]
    rfl
  | succ n ih =>
    intro r o hn hr hs hrl
    set q := buf.drop r with hq
    unfold loop
    by_cases h0 : q.length = 0
    · have he : q = [] := List.length_eq_zero_iff.1 h0
      refine ⟨o, 0, ?_, hr, fun _ => ⟨rfl, [], by simp [he], by simp, by simp⟩, fun _ _ => le_refl _⟩
      rw [h0, dif_pos (by simp)]
      rfl
    rw [dif_neg (by omega)]
    by_cases h4 : q.length < 4
    · rw [if_pos (by omega)]
      refine ⟨o, -1, rfl, hr, (fun h => by omega), ?_⟩
      rintro _ ⟨ps, hf, hw⟩
      exfalso
      cases ps with
      | nil => rw [← hf] at h0; simp at h0
      | cons p ps =>
        have := (hw p (by simp)).1
        rw [← hf, List.flatten_cons, List.length_append] at h4
        omega
    rw [if_neg (by omega)]
    have hh := header_eq hq.symm (by omega)
    have hcount : count q < 32 := by unfold count; omega
    -- a list of parts begins with the announced packet
    have hfirst : ∀ ps : List (List UInt8), ps.flatten = q → (∀ p ∈ ps, Whole p) →
        ∃ (p : List UInt8) (ps' : List (List UInt8)), p.length = announced q ∧ ptype p = ptype q ∧ count p = count q ∧ p ++ ps'.flatten = q ∧ Whole p ∧ ∀ x ∈ ps', Whole x := by
      intro ps hf hw
      cases ps with
      | nil => rw [← hf] at h0; simp at h0
      | cons p ps =>
        rw [List.flatten_cons] at hf
        have := whole_first (rest := ps.flatten) (hw p (by simp))
        rw [hf] at this
        exact ⟨p, ps, this.1.symm, this.2.1.symm, this.2.2.symm, hf, hw p (by simp), fun x hx => hw x (List.mem_cons_of_mem _ hx)⟩
    have ha4 : 4 ≤ announced q := by unfold announced; omega
    split
    · rename_i e he
      rw [hh] at he
      cases he
    · rename_i v0 cnt pt bincr he
      rw [hh] at he
      simp only [Except.ok.injEq, Prod.mk.injEq] at he
      obtain ⟨rfl, rfl, rfl, rfl⟩ := he
      by_cases hrep : ptype q = 200 ∨ ptype q = 201
      · rw [if_pos hrep]
        have hleast : least (if ptype q = 200 then 52 else 32) (count q) = base q + 24 * count q := by
          unfold base
          by_cases ht : ptype q = 200
          · rw [if_pos ht, if_pos ht, least_sr _ hcount]
          · rw [if_neg ht, if_neg ht, least_rr _ hcount]
        rw [hleast]
        by_cases hbad : (q.length : Int) < announced q ∨ announced q < base q + 24 * count q
        · rw [if_pos hbad]
          refine ⟨o, -1, rfl, hr, (fun h => by omega), ?_⟩
          rintro _ ⟨ps, hf, hw⟩
          exfalso
          obtain ⟨p, ps', h1, h2, h3, h5, h6, _⟩ := hfirst ps hf hw
          have hl : q.length = p.length + ps'.flatten.length := by rw [← h5, List.length_append]
          have hb : base p = base q := by unfold base; rw [h2]
          have := h6.2.2 (by unfold IsReport; rw [h2]; exact hrep)
          rw [hb, h3] at this
          omega
        · rw [if_neg hbad]
          have hal : announced q ≤ q.length := by omega
          obtain ⟨s1, s2, s3, s4⟩ := split_first hal
          set p := q.take (announced q) with hp
          have hdrop : buf.drop (r + announced q) = q.drop (announced q) := by rw [hq, List.drop_drop]
          have hlen : (buf.drop (r + announced q)).length = q.length - announced q := by rw [hdrop, List.length_drop]
          have hat : At buf r p := At.of_drop (rest := q.drop (announced q)) (by rw [← hq, hp, List.take_append_drop])
          have hpr : IsReport p := by unfold IsReport; rw [s3]; exact hrep
          have hbp : base p = base q := by unfold base; rw [s3]
          have hfit : base p + 24 * count p ≤ p.length := by rw [hbp, s4, s1]; omega
          have hreport := report_eq hat hpr hfit
          rw [s3, s4] at hreport
          have hsz := len_report p hfit
          have htext : text p = (reportT p).flatten := by unfold text; rw [if_pos hpr]
          obtain ⟨o1, b1, e1, r1, t1, p1⟩ := puts_spec (reportT p) o hr (by omega)
          split
          · rename_i e he
            rw [hreport] at he
            cases he
          rename_i ws he
          rw [hreport] at he
          obtain rfl : reportT p = ws := Except.ok.inj he
          split
          · rename_i e he
            rw [e1] at he
            cases he
          · rename_i o1' he
            rw [e1] at he
            obtain ⟨rfl, rfl⟩ := Prod.mk.inj (Except.ok.inj he)
            refine ⟨o1, -1, rfl, r1, (fun h => by omega), fun h => ?_⟩
            cases (p1 h).1
          · rename_i o1' he
            rw [e1] at he
            obtain ⟨rfl, rfl⟩ := Prod.mk.inj (Except.ok.inj he)
            have ht := t1 rfl
            have hlr : r + announced q ≤ buf.length := by
              have : q.length = buf.length - r := by rw [hq, List.length_drop]
              omega
            obtain ⟨o2, v, e2, r2, f2, g2⟩ := ih (r + announced q) o1 (by omega) r1 (by rw [ht, List.length_append]; omega) hlr
            rw [hlen] at e2
            have hcast : ((q.length - announced q : Nat) : Int) = (q.length : Int) - announced q := by omega
            rw [hcast] at e2
            have hwp : Whole p := ⟨by omega, by rw [s1, s2], fun _ => hfit⟩
            refine ⟨o2, v, e2, r2, fun hv => ?_, fun hp1 hps => ?_⟩
            · obtain ⟨hv0, ps, hf, hw, htx⟩ := f2 hv
              refine ⟨hv0, p :: ps, ?_, ?_, ?_⟩
              · rw [List.flatten_cons, hf, hdrop, hp, List.take_append_drop]
              · intro x hx
                rcases List.mem_cons.1 hx with rfl | hx
                · exact hwp
                · exact hw x hx
              · rw [htx, ht, List.map_cons, List.flatten_cons, List.append_assoc]
                rw [htext]
            · obtain ⟨ps, hf, hw⟩ := hps
              obtain ⟨p', ps', h1, h2, h3, h5, h6, h7⟩ := hfirst ps hf hw
              refine g2 (p1 hp1).2 ⟨ps', ?_, h7⟩
              rw [hdrop, ← h1, ← h5, List.drop_left]
      · rw [if_neg hrep]
        by_cases hal : announced q ≤ q.length
        · obtain ⟨s1, s2, s3, s4⟩ := split_first hal
          set p := q.take (announced q) with hp
          have hdrop : buf.drop (r + announced q) = q.drop (announced q) := by rw [hq, List.drop_drop]
          have hlen : (buf.drop (r + announced q)).length = q.length - announced q := by rw [hdrop, List.length_drop]
          have hpr : ¬ IsReport p := by unfold IsReport; rw [s3]; exact hrep
          have hlr : r + announced q ≤ buf.length := by
            have : q.length = buf.length - r := by rw [hq, List.length_drop]
            omega
          obtain ⟨o2, v, e2, r2, f2, g2⟩ := ih (r + announced q) o (by omega) hr (by omega) hlr
          rw [hlen] at e2
          have hcast : ((q.length - announced q : Nat) : Int) = (q.length : Int) - announced q := by omega
          rw [hcast] at e2
          have hwp : Whole p := ⟨by omega, by rw [s1, s2], fun h => absurd h hpr⟩
          refine ⟨o2, v, e2, r2, fun hv => ?_, fun hp1 hps => ?_⟩
          · obtain ⟨hv0, ps, hf, hw, htx⟩ := f2 hv
            refine ⟨hv0, p :: ps, ?_, ?_, ?_⟩
            · rw [List.flatten_cons, hf, hdrop, hp, List.take_append_drop]
            · intro x hx
              rcases List.mem_cons.1 hx with rfl | hx
              · exact hwp
              · exact hw x hx
            · rw [htx, List.map_cons, List.flatten_cons]
              have : text p = [] := by unfold text; rw [if_neg hpr]
              rw [this, List.nil_append]
          · obtain ⟨ps, hf, hw⟩ := hps
            obtain ⟨p', ps', h1, h2, h3, h5, h6, h7⟩ := hfirst ps hf hw
            refine g2 hp1 ⟨ps', ?_, h7⟩
            rw [hdrop, ← h1, ← h5, List.drop_left]
        · -- the length runs past the end
          unfold loop
          rw [dif_pos (by omega)]
          refine ⟨o, _, rfl, hr, (fun h => by omega), ?_⟩
          rintro _ ⟨ps, hf, hw⟩
          exfalso
          obtain ⟨p, ps', h1, h2, h3, h5, h6, _⟩ := hfirst ps hf hw
          have hl : q.length = p.length + ps'.flatten.length := by rw [← h5, List.length_append]
          omega

end Verif.Rtcp
