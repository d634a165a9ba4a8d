import Verif.Heard.Spec
import Verif.Pproc.Props

/-! # The handlers of the stream, and what a packet leaves behind -/

namespace Verif.Heard

open Verif.Pproc

def fp : Option Nat → Proc Ctx
  | none => playP
  | some k => gagP k

def wp : Option Nat → Proc Ctx
  | none => dtmfP
  | some k => copyP k

def chain (F W : List (Option Nat)) : List (Proc Ctx) := F.map fp ++ recordP :: (W.map wp ++ [relayP])

theorem fp_order (x : Option Nat) : (fp x).order = 7 := by cases x <;> rfl
theorem wp_order (x : Option Nat) : (wp x).order = 8 := by cases x <;> rfl
theorem fp_inj {x y : Option Nat} (h : (fp x).key = (fp y).key) : x = y := by
  cases x <;> cases y <;> simp [fp, playP, gagP, kPlay, kGag] at h ⊢ <;> omega
theorem wp_inj {x y : Option Nat} (h : (wp x).key = (wp y).key) : x = y := by
  cases x <;> cases y <;> simp [wp, dtmfP, copyP, kDtmf, kCopy] at h ⊢ <;> omega
theorem fp_wp (x y : Option Nat) : (fp x).key ≠ (wp y).key := by
  cases x <;> cases y <;> simp [wp, fp, playP, gagP, dtmfP, copyP, kDtmf, kCopy, kPlay, kGag] <;> omega
theorem rec_wp (y : Option Nat) : recordP.key ≠ (wp y).key := by
  cases y <;> simp [wp, recordP, dtmfP, copyP, kDtmf, kCopy, kRecord] <;> omega
theorem relay_wp (y : Option Nat) : relayP.key ≠ (wp y).key := by
  cases y <;> simp [wp, relayP, dtmfP, copyP, kDtmf, kCopy, kRelay] <;> omega

theorem reg_front (F W : List (Option Nat)) (x : Option Nat) : register (chain F W) (fp x) = chain (F ++ [x]) W := by
  induction F with
  | nil =>
    show register (recordP :: _) (fp x) = _
    rw [register_cons_lt _ _ _ (by rw [fp_order]; decide)]; rfl
  | cons y F ih =>
    show register (fp y :: chain F W) (fp x) = _
    rw [register_cons_le _ _ _ (by simp [fp_order]), ih]; rfl

theorem reg_wit (F W : List (Option Nat)) (x : Option Nat) : register (chain F W) (wp x) = chain F (W ++ [x]) := by
  induction F with
  | nil =>
    show register (recordP :: _) (wp x) = _
    rw [register_cons_le _ _ _ (by rw [wp_order]; decide)]
    show recordP :: register (W.map wp ++ [relayP]) (wp x) = recordP :: ((W ++ [x]).map wp ++ [relayP])
    congr 1
    induction W with
    | nil =>
      show register (relayP :: _) (wp x) = _
      rw [register_cons_lt _ _ _ (by rw [wp_order]; decide)]; rfl
    | cons y W ih =>
      show register (wp y :: (W.map wp ++ [relayP])) (wp x) = _
      rw [register_cons_le _ _ _ (by simp [wp_order]), ih]; rfl
  | cons y F ih =>
    show register (fp y :: chain F W) (wp x) = _
    rw [register_cons_le _ _ _ (by simp [fp_order, wp_order]), ih]; rfl

theorem unreg_front (F W : List (Option Nat)) (x : Option Nat) (h : x ∈ F) :
    unregister (chain F W) (fp x).key = .ok (chain (F.erase x) W) := by
  induction F with
  | nil => simp at h
  | cons y F ih =>
    show unregister (fp y :: chain F W) _ = _
    by_cases hy : y = x
    · subst hy
      rw [unregister_cons_eq _ _ _ rfl, List.erase_cons_head]
    · rw [unregister_cons_ne _ _ _ (fun e => hy (fp_inj e)), ih (by
        rcases List.mem_cons.1 h with e | e
        · exact absurd e.symm hy
        · exact e), List.erase_cons_tail (by simpa using hy)]
      rfl

theorem unreg_wit (F W : List (Option Nat)) (x : Option Nat) (h : x ∈ W) :
    unregister (chain F W) (wp x).key = .ok (chain F (W.erase x)) := by
  induction F with
  | nil =>
    show unregister (recordP :: (W.map wp ++ [relayP])) _ = _
    have : unregister (W.map wp ++ [relayP]) (wp x).key = .ok ((W.erase x).map wp ++ [relayP]) := by
      induction W with
      | nil => simp at h
      | cons y W ih =>
        show unregister (wp y :: (W.map wp ++ [relayP])) _ = _
        by_cases hy : y = x
        · subst hy
          rw [unregister_cons_eq _ _ _ rfl, List.erase_cons_head]
        · rw [unregister_cons_ne _ _ _ (fun e => hy (wp_inj e)), ih (by
            rcases List.mem_cons.1 h with e | e
            · exact absurd e.symm hy
            · exact e), List.erase_cons_tail (by simpa using hy)]
          rfl
    rw [unregister_cons_ne _ _ _ (rec_wp x), this]; rfl
  | cons y F ih =>
    show unregister (fp y :: chain F W) _ = _
    rw [unregister_cons_ne _ _ _ (fp_wp y x), ih]; rfl

theorem look (F W : List (Option Nat)) : (lookup (chain F W) kDtmf).isSome = true ↔ none ∈ W := by
  have h := (C31_lookup (chain F W) kDtmf).2
  rw [Option.isSome_iff_ne_none, ne_eq, h]
  constructor
  · intro hn
    refine Classical.byContradiction fun hw => hn ?_
    intro p hp
    simp only [chain, List.mem_append, List.mem_map, List.mem_cons, List.not_mem_nil, or_false] at hp
    rcases hp with ⟨x, -, rfl⟩ | rfl | ⟨x, hx, rfl⟩ | rfl
    · exact fp_wp x none
    · exact rec_wp none
    · intro e
      have : x = none := wp_inj e
      exact hw (this ▸ hx)
    · exact relay_wp none
  · intro hw hn
    refine hn dtmfP ?_ rfl
    simp only [chain, List.mem_append, List.mem_map, List.mem_cons]
    exact .inr (.inr (.inl ⟨none, hw, rfl⟩))

/-! ## What a packet leaves behind -/

def Stops (c : Ctx) : Prop := isDtmf c = true ∧ dtmfEnq c = drop

instance (c : Ctx) : Decidable (Stops c) := by unfold Stops; infer_instance

def wout (c : Ctx) : List (Option Nat) → List Out
  | [] => if c.addr then [.relayed c.pkt] else []
  | some k :: W => .copied k c.pkt :: wout c W
  | none :: W => if isDtmf c then (if c.room then [.caught c.pkt] else []) ++ (if Stops c then [] else wout c W) else wout c W

def rout (c : Ctx) : List Out := if c.recd && !c.player then [.recorded c.pkt] else []

theorem out_copy (c : Ctx) (k : Nat) : outOf c (kCopy k) = some (.copied k c.pkt) := by
  unfold outOf kRelay kRecord kDtmf kCopy
  rw [if_neg (by omega), if_neg (by omega), if_neg (by omega), if_pos (by omega)]
  have : (4 + 2 * k - 4) / 2 = k := by omega
  rw [this]

theorem out_fp (c : Ctx) (x : Option Nat) : outOf c (fp x).key = none := by
  cases x with
  | none => rfl
  | some k =>
    show outOf c (kGag k) = none
    unfold outOf kRelay kRecord kDtmf kGag
    rw [if_neg (by omega), if_neg (by omega), if_neg (by omega), if_neg (by omega)]

theorem wants_wp (c : Ctx) (n : Nat) (hn : n ≤ 8) (x : Option Nat) :
    wants n c (wp x) = (match x with | none => isDtmf c | some _ => true) := by
  cases x <;> simp [wants, wp, dtmfP, copyP, hn]

theorem tail_out (c : Ctx) (n : Nat) (hn : n ≤ 8) (W : List (Option Nat)) :
    (upto c ((W.map wp ++ [relayP]).filter (wants n c))).filterMap (fun q => outOf c q.key) = wout c W := by
  induction W with
  | nil =>
    have hw : wants n c relayP = true := by
      have : n ≤ 12 := by omega
      simp [wants, relayP, this]
    simp only [List.map_nil, List.nil_append, List.filter_cons, hw, if_true, List.filter_nil, upto, wout]
    cases ha : c.addr <;> simp [ends, relayP, outOf, ha, drop, take]
  | cons x W ih =>
    simp only [List.map_cons, List.cons_append, List.filter_cons, wants_wp c n hn]
    cases x with
    | some k =>
      have he : ends c (wp (some k)) = false := rfl
      simp only [if_true, upto, he, Bool.false_eq_true, if_false, List.filterMap_cons]
      rw [show (wp (some k)).key = kCopy k from rfl, out_copy, ih]; rfl
    | none =>
      cases hd : isDtmf c with
      | false =>
        rw [if_neg (by simp), ih]; simp [wout, hd]
      | true =>
        simp only [if_true, upto, wout, hd]
        have hk : outOf c (wp none).key = if c.room then some (.caught c.pkt) else none := rfl
        have he : ends c (wp none) = decide (Stops c) := by
          show ((dtmfEnq c).take || (dtmfEnq c).drop) = _
          have h2 : dtmfEnq c = drop ∨ dtmfEnq c = tee := by
            unfold dtmfEnq
            split
            · exact .inl rfl
            · split
              · exact .inl rfl
              · exact .inr rfl
          rcases h2 with e | e
          · rw [decide_eq_true (show Stops c from ⟨hd, e⟩), e]; rfl
          · rw [decide_eq_false (show ¬ Stops c from fun h => by rw [h.2] at e; cases e), e]; rfl
        rw [he]
        by_cases hs : Stops c
        · cases hr : c.room <;> simp [hs, hk, hr]
        · cases hr : c.room <;> simp [-List.filter_append, hs, hk, hr, ih]

theorem pass_front (s : St) (F W : List (Option Nat)) (h : s.t = chain F W) (hF : F ≠ []) (p pt : Nat) (r : Bool) :
    pass s 0 p pt r = [] := by
  cases F with
  | nil => exact absurd rfl hF
  | cons x F =>
    unfold pass
    rw [C31_runs, h]
    have hw : wants 0 (s.ctx p pt r) (fp x) = true := by cases x <;> rfl
    have he : ends (s.ctx p pt r) (fp x) = true := by cases x <;> rfl
    simp only [chain, List.map_cons, List.cons_append, List.filter_cons, hw, if_true, upto, he]
    simp [out_fp]

theorem pass_tail (s : St) (F W : List (Option Nat)) (h : s.t = chain F W) (n : Nat) (hn : n = 8 ∨ (n = 0 ∧ F = []))
    (p pt : Nat) (r : Bool) : pass s n p pt r = rout (s.ctx p pt r) ++ wout (s.ctx p pt r) W := by
  unfold pass
  rw [C31_runs, h]
  generalize s.ctx p pt r = c
  have h1 : (F.map fp).filter (wants n c) = [] := by
    rcases hn with e | ⟨-, e⟩
    · subst e
      rw [List.filter_eq_nil_iff]
      intro q hq
      obtain ⟨x, -, rfl⟩ := List.mem_map.1 hq
      cases x <;> simp [wants, fp, playP, gagP]
    · subst e; rfl
  have h8 : n ≤ 8 := by omega
  have h2 : wants n c recordP = true := by simp [wants, recordP, h8]
  have he : ends c recordP = false := rfl
  rw [chain, List.filter_append, h1, List.nil_append, List.filter_cons_of_pos h2, upto, he, if_neg (by simp),
    List.filterMap_cons, tail_out c n h8 W]
  have hk : outOf c recordP.key = if c.recd && !c.player then some (Out.recorded c.pkt) else none := rfl
  rw [hk, rout]
  cases c.recd && !c.player <;> rfl

theorem wout_relayed (c : Ctx) (W : List (Option Nat)) :
    Out.relayed c.pkt ∈ wout c W ↔ c.addr = true ∧ ¬ (none ∈ W ∧ Stops c) := by
  induction W with
  | nil => cases h : c.addr <;> simp [wout, h]
  | cons x W ih =>
    cases x with
    | some k => simp [wout, ih]
    | none =>
      simp only [wout]
      cases hd : isDtmf c with
      | false =>
        have : ¬ Stops c := fun h => by rw [h.1] at hd; cases hd
        simp [ih, this]
      | true =>
        by_cases hs : Stops c
        · cases hr : c.room <;> simp [hs]
        · cases hr : c.room <;> simp [hs, ih]

theorem wout_caught (c : Ctx) (W : List (Option Nat)) :
    Out.caught c.pkt ∈ wout c W ↔ none ∈ W ∧ isDtmf c = true ∧ c.room = true := by
  induction W with
  | nil => cases h : c.addr <;> simp [wout, h]
  | cons x W ih =>
    cases x with
    | some k => simp [wout, ih]
    | none =>
      simp only [wout]
      cases hd : isDtmf c with
      | false => simp [ih, hd]
      | true =>
        by_cases hs : Stops c
        · cases hr : c.room <;> simp [hs]
        · cases hr : c.room <;> simp [hs, ih, hr]

theorem wout_copied (c : Ctx) (W : List (Option Nat)) (k : Nat) :
    Out.copied k c.pkt ∈ wout c W ↔ some k ∈ W ∧ (none ∈ W ∧ Stops c → some k ∈ W.takeWhile (· ≠ none)) := by
  induction W with
  | nil => cases h : c.addr <;> simp [wout, h]
  | cons x W ih =>
    cases x with
    | some j =>
      simp only [wout, List.mem_cons, ih, Out.copied.injEq, and_true, Option.some.injEq, reduceCtorEq, false_or, ne_eq,
        not_false_eq_true, decide_true, List.takeWhile_cons_of_pos]
      by_cases e : k = j
      · simp [e]
      · simp [e]
    | none =>
      simp only [wout]
      cases hd : isDtmf c with
      | false =>
        have : ¬ Stops c := fun h => by rw [h.1] at hd; cases hd
        simp [ih, this]
      | true =>
        by_cases hs : Stops c
        · cases hr : c.room <;> simp [hs]
        · cases hr : c.room <;> simp [hs, ih]

theorem wout_recorded (c : Ctx) (W : List (Option Nat)) (p : Nat) : Out.recorded p ∉ wout c W := by
  induction W with
  | nil => cases h : c.addr <;> simp [wout, h]
  | cons x W ih =>
    cases x with
    | some j => simp [wout, ih]
    | none =>
      simp only [wout]
      split
      · split <;> split <;> simp [ih]
      · exact ih

theorem wout_nodup (c : Ctx) (W : List (Option Nat)) (h : W.Nodup) : (wout c W).Nodup := by
  induction W with
  | nil => cases h : c.addr <;> simp [wout, h]
  | cons x W ih =>
    have h' := List.nodup_cons.1 h
    cases x with
    | some j =>
      simp only [wout]
      refine List.nodup_cons.2 ⟨?_, ih h'.2⟩
      rw [wout_copied]
      exact fun e => h'.1 e.1
    | none =>
      simp only [wout]
      split
      · split
        · split
          · simp
          · refine List.nodup_cons.2 ⟨?_, ih h'.2⟩
            show Out.caught c.pkt ∉ wout c W
            rw [wout_caught]
            exact fun e => h'.1 e.1
        · split
          · simp
          · exact ih h'.2
      · exact ih h'.2

end Verif.Heard
