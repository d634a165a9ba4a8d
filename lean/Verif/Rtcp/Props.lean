import Verif.Rtcp.Read
import Verif.Rtcp.Loop

/-!
# C39: RTCP reports

The text buffer starts empty (`rtpp_sbuf_reset`, rtpp_acct_rtcp_hep.c:210) with any size that is not zero; a datagram has at most 65535 bytes.
-/

namespace Verif.Rtcp

open Str Json

/-- A text buffer as the caller leaves it before a packet. -/
def Fresh (o : Out) : Prop := o.text = [] ∧ 0 < o.alen

/-- No byte string makes the parser read outside the packet, overflow the text buffer or stop; whatever the allocations do. -/
theorem C39_safe (o : Out) (buf : List UInt8) (hf : Fresh o) (hb : buf.length ≤ 65535) (e : Fault) : rtcp2json o buf ≠ .error e := by
  unfold rtcp2json
  split
  · intro h; cases h
  · rename_i h4
    rw [header_eq (q := buf) (r := 0) rfl (by omega)]
    simp only
    split
    · intro h; cases h
    · obtain ⟨o', v, he, _⟩ := loop_spec buf buf.length 0 o (by simp) (by unfold Room; rw [hf.1]; exact hf.2)
        (by rw [hf.1, List.drop_zero]; simp only [List.length_nil]; omega) (by omega)
      rw [List.drop_zero] at he
      rw [he]
      intro h; cases h

/-- What the loop gives for a whole buffer. -/
theorem top (o : Out) (buf : List UInt8) (hf : Fresh o) (hb : buf.length ≤ 65535) (o' : Out) (v : Int)
    (h : rtcp2json o buf = .ok (o', v)) :
    (0 ≤ v → v = 0 ∧ ∃ ps, Compound buf ps ∧ o'.text = (ps.map text).flatten) ∧
    (Plenty o → (∃ ps, Compound buf ps) → 0 ≤ v) := by
  unfold rtcp2json at h
  split at h
  · rename_i h4
    simp only [Except.ok.injEq, Prod.mk.injEq] at h
    obtain ⟨rfl, rfl⟩ := h
    refine ⟨(fun h => by omega), ?_⟩
    rintro _ ⟨ps, hne, hfl, hw, _⟩
    exfalso
    cases ps with
    | nil => exact hne rfl
    | cons p ps =>
      have := (hw p (by simp)).1
      rw [← hfl, List.flatten_cons, List.length_append] at h4
      omega
  · rename_i h4
    rw [header_eq (q := buf) (r := 0) rfl (by omega)] at h
    simp only at h
    split at h
    · rename_i hv
      simp only [Except.ok.injEq, Prod.mk.injEq] at h
      obtain ⟨rfl, rfl⟩ := h
      refine ⟨(fun h => by omega), ?_⟩
      rintro _ ⟨ps, _, _, _, hv2⟩
      exact absurd hv2 hv
    · rename_i hv
      obtain ⟨o1, v1, he, _, f, g⟩ := loop_spec buf buf.length 0 o (by simp) (by unfold Room; rw [hf.1]; exact hf.2)
        (by rw [hf.1, List.drop_zero]; simp only [List.length_nil]; omega) (by omega)
      rw [List.drop_zero] at he f g
      rw [he] at h
      obtain ⟨rfl, rfl⟩ := Prod.mk.inj (Except.ok.inj h)
      refine ⟨fun h0 => ?_, fun hp hps => g hp ?_⟩
      · obtain ⟨hv0, ps, h1, h2, h3⟩ := f h0
        refine ⟨hv0, ps, ⟨?_, h1, h2, by omega⟩, by rw [h3, hf.1, List.nil_append]⟩
        rintro rfl
        rw [← h1] at h4
        simp at h4
      · obtain ⟨ps, _, h1, h2, _⟩ := hps
        exact ⟨ps, h1, h2⟩

/-- When memory lasts, a byte string is accepted exactly when it is a compound packet: whole packets and nothing else, the reports with room for
their blocks. -/
theorem C39_accepts (o : Out) (buf : List UInt8) (hf : Fresh o) (hb : buf.length ≤ 65535) (hp : Plenty o) (o' : Out) (v : Int)
    (h : rtcp2json o buf = .ok (o', v)) : 0 ≤ v ↔ ∃ ps, Compound buf ps := by
  obtain ⟨h1, h2⟩ := top o buf hf hb o' v h
  exact ⟨fun h0 => by obtain ⟨_, ps, hc, _⟩ := h1 h0; exact ⟨ps, hc⟩, h2 hp⟩

/-- The parts of a compound packet are determined. -/
theorem parts_unique : ∀ (ps qs : List (List UInt8)), ps.flatten = qs.flatten → (∀ p ∈ ps, Whole p) → (∀ q ∈ qs, Whole q) → ps = qs
  | [], [], _, _, _ => rfl
  | [], q :: qs, h, _, hq => by
    have := (hq q (by simp)).1
    have hl := congrArg List.length h
    rw [List.flatten_cons, List.length_append, List.flatten_nil, List.length_nil] at hl
    omega
  | p :: ps, [], h, hp, _ => by
    have := (hp p (by simp)).1
    have hl := congrArg List.length h
    rw [List.flatten_cons, List.length_append, List.flatten_nil, List.length_nil] at hl
    omega
  | p :: ps, q :: qs, h, hp, hq => by
    rw [List.flatten_cons, List.flatten_cons] at h
    have a := whole_first (rest := ps.flatten) (hp p (by simp))
    have b := whole_first (rest := qs.flatten) (hq q (by simp))
    rw [h] at a
    have hl : p.length = q.length := by rw [← a.1, b.1]
    obtain ⟨h1, h2⟩ := List.append_inj h hl
    rw [h1, parts_unique ps qs h2 (fun x hx => hp x (List.mem_cons_of_mem _ hx)) (fun x hx => hq x (List.mem_cons_of_mem _ hx))]

/-- The losses in a report are mild. -/
def MildAll (p : List UInt8) : Prop := ∀ k, k < count p → Mild p (base p + 24 * k + 5)

/-- `ts` are the texts of the packets `ps`: of a report with mild losses the text is a JSON text of the report; other packets have none. -/
inductive Texts : List (List UInt8) → List (List UInt8) → Prop
  | nil : Texts [] []
  | report {p t : List UInt8} {ps ts : List (List UInt8)} (hr : IsReport p) (h : MildAll p → Reads t (reportJ p)) (r : Texts ps ts) :
      Texts (p :: ps) (t :: ts)
  | other {p : List UInt8} {ps ts : List (List UInt8)} (hr : ¬ IsReport p) (r : Texts ps ts) : Texts (p :: ps) ts

/-- What is handed to the collector for an accepted packet: the reports in order, each as JSON with the fields of RFC 3550.  Missing: losses beyond
16 bits and below -1 (`C39_lost_counterexample`), and that the whole is JSON when there are several reports (`C39_two_counterexample`). -/
theorem C39_reports_partial (o : Out) (buf : List UInt8) (hf : Fresh o) (hb : buf.length ≤ 65535) (o' : Out) (v : Int)
    (h : rtcp2json o buf = .ok (o', v)) (h0 : 0 ≤ v) (ps : List (List UInt8)) (hc : Compound buf ps) :
    ∃ ts, Texts ps ts ∧ o'.text = ts.flatten := by
  obtain ⟨_, qs, hq, ht⟩ := (top o buf hf hb o' v h).1 h0
  have : qs = ps := parts_unique qs ps (by rw [hq.2.1, hc.2.1]) hq.2.2.1 hc.2.2.1
  subst this
  rw [ht]
  clear ht hc hq h
  induction qs with
  | nil => exact ⟨[], .nil, rfl⟩
  | cons p ps ih =>
    obtain ⟨ts, h1, h2⟩ := ih
    rw [List.map_cons, List.flatten_cons, h2]
    by_cases hr : IsReport p
    · refine ⟨text p :: ts, .report hr (fun hm => ?_) h1, by simp⟩
      unfold text
      rw [if_pos hr]
      exact report_reads p hm
    · refine ⟨ts, .other hr h1, ?_⟩
      unfold text
      rw [if_neg hr, List.nil_append]

/-- One report alone: the output is a JSON text of it. -/
theorem C39_single (o : Out) (p : List UInt8) (hf : Fresh o) (hb : p.length ≤ 65535) (hp : Plenty o) (hw : Whole p) (hr : IsReport p)
    (hv : version p = 2) (hm : MildAll p) (o' : Out) (v : Int) (h : rtcp2json o p = .ok (o', v)) : v = 0 ∧ Reads o'.text (reportJ p) := by
  have hc : Compound p [p] := ⟨by simp, by simp, by simpa using hw, hv⟩
  have h0 := (C39_accepts o p hf hb hp o' v h).2 ⟨_, hc⟩
  obtain ⟨ts, h1, h2⟩ := C39_reports_partial o p hf hb o' v h h0 [p] hc
  refine ⟨((top o p hf hb o' v h).1 h0).1, ?_⟩
  cases h1 with
  | report _ hrd r =>
    cases r
    rw [h2]
    simpa using hrd hm
  | other hn _ => exact absurd hr hn

end Verif.Rtcp
