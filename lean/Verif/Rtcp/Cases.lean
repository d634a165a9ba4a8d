import Verif.Rtcp.Props
import Mathlib.Data.List.Chain

/-!
# C39: cases and counterexamples
-/

namespace Verif.Rtcp

open Str Json

/-- The buffer of the module (`rtpp_sbuf_ctor(512)`). -/
def out0 : Out := ⟨[], 512, []⟩

/-- A sender report of SSRC 1 with one block that says 5 of 7 lost. -/
def srPkt : List UInt8 :=
  [0x81, 200, 0, 12, 0, 0, 0, 1, 0, 0, 0, 2, 0, 0, 0, 3, 0, 0, 0, 4, 0, 0, 0, 5, 0, 0, 0, 6,
   0, 0, 0, 7, 8, 0, 0, 5, 0, 0, 0, 9, 0, 0, 0, 10, 0, 0, 0, 11, 0, 0, 0, 12]

/-- A receiver report with one block, the loss given by three bytes. -/
def rrPkt (a b c : UInt8) : List UInt8 :=
  [0x81, 201, 0, 7, 0, 0, 0, 1, 0, 0, 0, 7, 8, a, b, c, 0, 0, 0, 9, 0, 0, 0, 10, 0, 0, 0, 11, 0, 0, 0, 12]

/-- An empty receiver report, and a BYE. -/
def rr0 : List UInt8 := [0x80, 201, 0, 1, 0, 0, 0, 1]
def bye : List UInt8 := [0x81, 203, 0, 1, 0, 0, 0, 1]

instance (p : List UInt8) : Decidable (Whole p) := by unfold Whole; infer_instance
instance (p : List UInt8) (i : Nat) : Decidable (Mild p i) := by unfold Mild; infer_instance
instance (p : List UInt8) : Decidable (MildAll p) := by unfold MildAll; infer_instance

theorem out0_fresh : Fresh out0 ∧ Plenty out0 := ⟨⟨rfl, by decide⟩, by intro b hb; cases hb⟩

/-- A sender report alone. -/
example : Whole srPkt ∧ IsReport srPkt ∧ version srPkt = 2 ∧ MildAll srPkt ∧ lost srPkt 33 = 5 := by decide +kernel
example : (rtcp2json out0 srPkt).toOption.map Prod.snd = some 0 := by decide +kernel

/-- A sender report with a BYE: accepted; with a byte less, or a byte more: refused. -/
example : Compound (srPkt ++ bye) [srPkt, bye] := by
  refine ⟨by simp, by simp, ?_, by decide⟩
  intro p hp
  rcases List.mem_cons.1 hp with rfl | hp
  · decide +kernel
  · rw [List.mem_singleton.1 hp]; decide +kernel
example : (rtcp2json out0 (srPkt ++ bye)).toOption.map Prod.snd = some 0 := by decide +kernel
example : (rtcp2json out0 (srPkt ++ bye.dropLast)).toOption.map Prod.snd = some (-1) := by decide +kernel
example : (rtcp2json out0 (srPkt ++ [0])).toOption.map Prod.snd = some (-1) := by decide +kernel
example : (rtcp2json out0 ([0x82] ++ srPkt.tail)).toOption.map Prod.snd = some (-1) := by decide +kernel

/-- `RTCP_GET_LOST` is not the signed 24-bit number: 65536 lost packets are printed as -1, 131072 as 65536, -2 as -1, and the smallest number as
4194304. -/
theorem C39_lost_counterexample :
    (lost [1, 0, 0] 0 = 65536 ∧ getLost 1 0 0 = -1) ∧ (lost [2, 0, 0] 0 = 131072 ∧ getLost 2 0 0 = 65536) ∧
    (lost [255, 255, 254] 0 = -2 ∧ getLost 255 255 254 = -1) ∧ (lost [128, 0, 0] 0 = -8388608 ∧ getLost 128 0 0 = 4194304) := by
  decide +kernel

/-- What the numbers printed say: the text for 65536 lost packets is the one for -1, and the text for the smallest number says 4194304. -/
theorem C39_lost_text_counterexample :
    ((rtcp2json out0 (rrPkt 1 0 0)).toOption.map fun r => r.1.text) = (rtcp2json out0 (rrPkt 255 255 255)).toOption.map (fun r => r.1.text) ∧
    ∃ o', rtcp2json out0 (rrPkt 128 0 0) = .ok (o', 0) ∧ (toks o'.text).map (fun ts => decide (Tok.num 4194304 ∈ ts)) = some true := by
  refine ⟨by decide +kernel, ?_⟩
  have h : (rtcp2json out0 (rrPkt 128 0 0)).toOption.map (fun r => (r.2, (toks r.1.text).map (fun ts => decide (Tok.num 4194304 ∈ ts)))) =
    some (0, some true) := by decide +kernel
  cases hr : rtcp2json out0 (rrPkt 128 0 0) with
  | error e => rw [hr] at h; cases h
  | ok x =>
    obtain ⟨o', v⟩ := x
    rw [hr] at h
    simp only [Except.toOption, Option.map_some, Option.some.injEq, Prod.mk.injEq] at h
    obtain ⟨rfl, h2⟩ := h
    exact ⟨o', rfl, h2⟩

/-! ### Two reports -/

/-- No `}` in front of a `{`. -/
def Apart (a b : Tok) : Prop := ¬ (a = .rb ∧ b = .lb)

theorem apart_right {a b : Tok} (h : b ≠ .lb) : Apart a b := fun ⟨_, hb⟩ => h hb
theorem apart_left {a b : Tok} (h : a ≠ .rb) : Apart a b := fun ⟨ha, _⟩ => h ha

theorem chain_wrap {ts : List Tok} (a b : Tok) (ha : a ≠ .rb) (hb : b ≠ .lb) (h : ts.IsChain Apart) :
    (a :: (ts ++ [b])).IsChain Apart := by
  rw [List.isChain_cons]
  refine ⟨fun _ _ => apart_left ha, ?_⟩
  rw [List.isChain_append]
  refine ⟨h, List.isChain_singleton _, fun _ _ y hy => ?_⟩
  simp at hy
  subst hy
  exact apart_right hb

theorem chain_comma {ts us : List Tok} (h : ts.IsChain Apart) (g : us.IsChain Apart) : (ts ++ .comma :: us).IsChain Apart := by
  rw [List.isChain_append]
  refine ⟨h, ?_, fun _ _ y hy => ?_⟩
  · rw [List.isChain_cons]
    exact ⟨fun _ _ => apart_left (by simp), g⟩
  · simp at hy
    subst hy
    exact apart_right (by simp)

theorem chain_key {ts : List Tok} (k : List UInt8) (h : ts.IsChain Apart) : (.str k :: .colon :: ts).IsChain Apart := by
  rw [List.isChain_cons]
  refine ⟨fun _ _ => apart_left (by simp), ?_⟩
  rw [List.isChain_cons]
  exact ⟨fun _ _ => apart_left (by simp), h⟩

mutual
theorem val_chain : ∀ {ts : List Tok} {v : J}, Val ts v → ts.IsChain Apart
  | _, _, .num _ => List.isChain_singleton _
  | _, _, .none => chain_wrap (ts := []) _ _ (by simp) (by simp) .nil
  | _, _, .arr h => chain_wrap _ _ (by simp) (by simp) (elems_chain h)
  | _, _, .empty => chain_wrap (ts := []) _ _ (by simp) (by simp) .nil
  | _, _, .obj h => chain_wrap _ _ (by simp) (by simp) (members_chain h)
theorem elems_chain : ∀ {ts : List Tok} {l : List J}, Elems ts l → ts.IsChain Apart
  | _, _, .one h => val_chain h
  | _, _, .cons h g => chain_comma (val_chain h) (elems_chain g)
theorem members_chain : ∀ {ts : List Tok} {l : List (List UInt8 × J)}, Members ts l → ts.IsChain Apart
  | _, _, .one h => chain_key _ (val_chain h)
  | _, _, .cons h g => chain_key _ (chain_comma (val_chain h) (members_chain g))
end

instance (a b : Tok) : Decidable (Apart a b) := by unfold Apart; infer_instance

/-- Two reports in one packet: accepted, and the output is no JSON text. -/
theorem C39_two_counterexample : Compound (rr0 ++ rr0) [rr0, rr0] ∧
    ∃ o', rtcp2json out0 (rr0 ++ rr0) = .ok (o', 0) ∧ ¬ ∃ v, Reads o'.text v := by
  refine ⟨⟨by simp, by simp, ?_, by decide⟩, ?_⟩
  · intro p hp
    have : p = rr0 := by
      rcases List.mem_cons.1 hp with rfl | hp
      · rfl
      · exact List.mem_singleton.1 hp
    rw [this]; decide +kernel
  · have h : (rtcp2json out0 (rr0 ++ rr0)).toOption.map (fun r => (r.2, (toks r.1.text).map (fun ts => decide (ts.IsChain Apart)))) =
      some (0, some false) := by decide +kernel
    cases hr : rtcp2json out0 (rr0 ++ rr0) with
    | error e => rw [hr] at h; cases h
    | ok x =>
      obtain ⟨o', v⟩ := x
      rw [hr] at h
      simp only [Except.toOption, Option.map_some, Option.some.injEq, Prod.mk.injEq] at h
      obtain ⟨rfl, h2⟩ := h
      refine ⟨o', rfl, ?_⟩
      rintro ⟨j, ts, ht, hv⟩
      rw [ht] at h2
      have := val_chain hv
      simp [this] at h2

/-- Only the version of the first packet is looked at. -/
theorem C39_version_counterexample :
    version ([0x00] ++ rr0.tail) = 0 ∧ (rtcp2json out0 (bye ++ ([0x00] ++ rr0.tail))).toOption.map Prod.snd = some 0 ∧
    ((rtcp2json out0 (bye ++ ([0x00] ++ rr0.tail))).toOption.map fun r => r.1.text) = (rtcp2json out0 rr0).toOption.map fun r => r.1.text := by
  decide +kernel

end Verif.Rtcp
