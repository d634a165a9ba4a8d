import Verif.Eaud.MixProps
import Verif.Eaud.DecCases

/-!
# C63: calls and cases
-/

namespace Verif.Mix
open Verif.Eaud
open Verif.G711 (Sample)

variable {T K : Type}

/-- `decoder_get` as the main loop sees it; that there is nothing to skip is `C48_safe_partial`. -/
def pull (fp : Fp T) (l : Lib K) (d : Dec T K) : Except Fault (Dec T K × Got) :=
  match get fp l d with
  | .error f => .error f
  | .ok (d, .sample x) => .ok (d, .sample x)
  | .ok (d, .eof) => .ok (d, .eof)
  | .ok (d, .error) => .ok (d, .error)
  | .ok (_, .skip) => .error .abort

theorem yields_of (fp : Fp T) (l : Lib K) : ∀ (os : List Out) (d d' : Dec T K), gets fp l (os.length + 1) d = .ok (d', os ++ [.eof]) →
    (∀ o ∈ os, o ≠ .error ∧ o ≠ .skip ∧ ∀ x, o = .sample x → Sample x) →
    ∃ xs : List Int, Yields (pull fp l) d xs ∧ (∀ x ∈ xs, Sample x) ∧ ∀ ys : List Int, os = ys.map .sample → xs = ys
  | [], d, d', h, _ => by
    refine ⟨[], ?_, by simp, fun ys hy => by cases ys <;> simp at hy ⊢⟩
    rw [List.length_nil, gets] at h
    split at h
    · cases h
    · rename_i d1 o hg
      simp only [gets] at h
      simp only [Except.ok.injEq, Prod.mk.injEq, List.nil_append, List.cons.injEq, and_true] at h
      obtain ⟨-, rfl⟩ := h
      exact .nil (d' := d1) (by unfold pull; rw [hg])
  | o :: os, d, d', h, ho => by
    rw [List.length_cons, gets] at h
    split at h
    · cases h
    · rename_i d1 o' hg
      split at h
      · cases h
      · rename_i d2 os' hgs
        simp only [Except.ok.injEq, Prod.mk.injEq, List.cons_append, List.cons.injEq] at h
        obtain ⟨rfl, rfl, rfl⟩ := h
        obtain ⟨a1, a2, a3⟩ := ho o' (by simp)
        cases o' with
        | error => exact absurd rfl a1
        | skip => exact absurd rfl a2
        | eof =>
          refine ⟨[], .nil (d' := d1) (by unfold pull; rw [hg]), by simp, fun ys hy => ?_⟩
          cases ys <;> simp at hy
        | sample x =>
          obtain ⟨xs, b1, b2, b3⟩ := yields_of fp l os d1 d2 hgs (fun o ho' => ho o (by simp [ho']))
          refine ⟨x :: xs, .cons (d' := d1) (by unfold pull; rw [hg]) b1, ?_, fun ys hy => ?_⟩
          · intro y hy
            rcases List.mem_cons.1 hy with rfl | hy
            · exact a3 _ rfl
            · exact b2 y hy
          · cases ys with
            | nil => simp at hy
            | cons y ys =>
              simp only [List.map_cons, List.cons.injEq, Out.sample.injEq] at hy
              rw [hy.1, b3 ys hy.2]

theorem samples_ok (p : Packet T) : ∀ x ∈ samples p, Sample x := by
  intro x hx
  obtain ⟨c, -, rfl⟩ := List.mem_map.1 hx
  split
  · exact (G711.C49_decode_inside.2.2 c).1
  · exact (G711.C49_decode_inside.2.2 c).2

theorem render_ok : ∀ (ps : List (Packet T)) (n : Nat), ∀ x ∈ render n ps, Sample x
  | [], _, _, h => by cases h
  | p :: ps, n, x, h => by
    rcases List.mem_append.1 h with h | h
    · rcases List.mem_append.1 h with h | h
      · rw [List.eq_of_mem_replicate h]; exact sample_zero
      · exact samples_ok p x h
    · exact render_ok ps _ x h

/-- The decoder of a stream as in `C48_timeline_partial`. -/
theorem yields_render (fp : Fp T) (l : Lib K) (p : Packet T) (ps : List (Packet T)) (h : Timely fp p.time p.info.ts p.info.ts (p :: ps)) :
    Yields (pull fp l) (Dec.new (p :: ps) false) (render p.info.ts (p :: ps)) := by
  obtain ⟨d, e⟩ := C48_timeline_partial fp l p ps h 1
  obtain ⟨xs, h1, -, h3⟩ := yields_of fp l ((render p.info.ts (p :: ps)).map .sample) (Dec.new (p :: ps) false) d (by rw [List.length_map]; exact e)
    (fun o ho => by
      obtain ⟨x, hx, rfl⟩ := List.mem_map.1 ho
      exact ⟨by simp, by simp, fun y hy => by cases hy; exact render_ok _ _ _ hx⟩)
  rw [h3 _ rfl] at h1
  exact h1

/-- A call of two G.711 streams: what is written, from the packets.  The one that comes second begins at its place. -/
theorem C63_call_partial (fp : Fp T) (l : Lib K) (before : Nat → Nat → Bool) (p q : Packet T) (ps qs : List (Packet T))
    (hp : Timely fp p.time p.info.ts p.info.ts (p :: ps)) (hq : Timely fp q.time q.info.ts q.info.ts (q :: qs)) (skip : Nat) (k : Nat) :
    let a := render p.info.ts (p :: ps)
    let b := List.replicate skip 0 ++ render q.info.ts (q :: qs)
    ∃ s, loop ⟨pull fp l, before, false, true⟩ (max a.length b.length + 1 + k)
        (St.init [⟨0, .a, Dec.new (p :: ps) false⟩, ⟨skip, .b, Dec.new (q :: qs) false⟩]) = .ok (some s) ∧
      s.file = (List.range (max a.length b.length)).flatMap fun t => [a.getD t 0, b.getD t 0] := by
  intro a b
  have e : lasts [((⟨0, .a, Dec.new (p :: ps) false⟩ : Ch (Dec T K)), render p.info.ts (p :: ps)),
      (⟨skip, .b, Dec.new (q :: qs) false⟩, render q.info.ts (q :: qs))] = max a.length b.length := by
    simp [lasts, a, b]
  obtain ⟨s, fr, h1, h2, h3⟩ := C63_mix ⟨pull fp l, before, false, true⟩ rfl
    [((⟨0, .a, Dec.new (p :: ps) false⟩ : Ch (Dec T K)), render p.info.ts (p :: ps)),
      (⟨skip, .b, Dec.new (q :: qs) false⟩, render q.info.ts (q :: qs))]
    (fun r hr => by
      rcases List.mem_cons.1 hr with rfl | hr
      · exact yields_render fp l p ps hp
      · rw [List.mem_singleton.1 hr]; exact yields_render fp l q qs hq)
    (fun r hr => by
      rcases List.mem_cons.1 hr with rfl | hr
      · exact render_ok _ _
      · rw [List.mem_singleton.1 hr]; exact render_ok _ _) k
  rw [e] at h1 h2 h3
  refine ⟨s, h1, h2.trans (List.flatMap_congr fun t ht => ?_)⟩
  obtain ⟨as, bs, ha, hb, hf⟩ := h3 t (List.mem_range.1 ht)
  rw [hf, if_pos rfl]
  have hA : heard [((⟨0, .a, Dec.new (p :: ps) false⟩ : Ch (Dec T K)), render p.info.ts (p :: ps)),
      (⟨skip, .b, Dec.new (q :: qs) false⟩, render q.info.ts (q :: qs))] .a t = (a[t]?).toList := by
    cases hat : (render p.info.ts (p :: ps))[t]? <;> simp [heard, a, hat]
  have hB : heard [((⟨0, .a, Dec.new (p :: ps) false⟩ : Ch (Dec T K)), render p.info.ts (p :: ps)),
      (⟨skip, .b, Dec.new (q :: qs) false⟩, render q.info.ts (q :: qs))] .b t = if skip ≤ t then ((render q.info.ts (q :: qs))[t - skip]?).toList else [] := by
    by_cases hs : skip ≤ t
    · cases hat : (render q.info.ts (q :: qs))[t - skip]? <;> simp [heard, hat, hs]
    · simp [heard, hs]
  rw [hA] at ha
  rw [hB] at hb
  have h1 : avg as = a.getD t 0 := by
    rw [List.getD_eq_getElem?_getD]
    cases hat : a[t]? with
    | none => rw [hat] at ha; rw [List.perm_nil.1 ha]; rfl
    | some x => rw [hat] at ha; rw [List.perm_singleton.1 ha]; rfl
  have h2 : avg bs = b.getD t 0 := by
    rw [List.getD_eq_getElem?_getD]
    by_cases hs : skip ≤ t
    · rw [if_pos hs] at hb
      have : b[t]? = (render q.info.ts (q :: qs))[t - skip]? := by
        simp only [b]
        rw [List.getElem?_append_right (by simpa using hs), List.length_replicate]
      rw [this]
      cases hat : (render q.info.ts (q :: qs))[t - skip]? with
      | none => rw [hat] at hb; rw [List.perm_nil.1 hb]; rfl
      | some x => rw [hat] at hb; rw [List.perm_singleton.1 hb]; rfl
    · rw [if_neg hs] at hb
      have : b[t]? = some 0 := by
        simp only [b]
        rw [List.getElem?_append_left (by simp; omega), List.getElem?_replicate, if_pos (by omega)]
      rw [List.perm_nil.1 hb, this]
      rfl
  rw [h1, h2]

/-- Decoders of any codecs, as in `C48_steady_partial`: there are samples that mixing can be said about. -/
theorem C63_sources_partial (l : Lib K) (hl : l.Ok) (hb : l.g729 = true → l.bcg = true) (p : Packet ℚ) (ps : List (Packet ℚ))
    (hps : ∀ q ∈ p :: ps, Whole l q) (hs : Steady p.time p.info.ts (p :: ps)) :
    ∃ xs, Yields (pull exact l) (Dec.new (p :: ps) false) xs ∧ ∀ x ∈ xs, Sample x := by
  obtain ⟨os, h1, h2⟩ := C48_steady_partial l hl hb p ps false hps hs
  obtain ⟨d, e⟩ := h2 1
  obtain ⟨xs, a1, a2, -⟩ := yields_of exact l os (Dec.new (p :: ps) false) d e
    (fun o ho => ⟨(h1 o ho).1, (fun hc => by have := (h1 o ho).2.1 hc; cases this), (h1 o ho).2.2⟩)
  exact ⟨xs, a1, a2⟩

/-! ## Cases -/

/-- Decoders that are lists. -/
def feed : List Int → Except Fault (List Int × Got)
  | [] => .ok ([], .eof)
  | x :: xs => .ok (xs, .sample x)

theorem feed_yields : ∀ xs, Yields feed xs xs
  | [] => .nil (d' := []) rfl
  | _ :: xs => .cons (d' := xs) rfl (feed_yields xs)

def cfg (nosync stereo : Bool) : Cfg (List Int) := ⟨feed, fun i j => decide (i < j), nosync, stereo⟩

/-- Three channels, two of one side; the third begins after the first has ended. -/
def three : List (Ch (List Int) × List Int) := [(⟨0, .a, [100, 200, 300]⟩, [100, 200, 300]), (⟨1, .a, [-100, -101, 7, 8]⟩, [-100, -101, 7, 8]), (⟨5, .b, [40]⟩, [40])]

def fileOf (r : Except Fault (Option (St (List Int)))) : Option (List Int × Nat) :=
  match r with
  | .ok (some s) => some (s.file, s.nws)
  | _ => none

def faultOf (r : Except Fault (Option (St (List Int)))) : Option Fault :=
  match r with
  | .error f => some f
  | _ => none

example : ∃ s fr, loop (cfg false false) (6 + 1 + 0) (St.init (three.map (·.1))) = .ok (some s) ∧ s.file = (List.range 6).flatMap fr ∧
    ∀ t < 6, Frame false three t (fr t) :=
  C63_mix (cfg false false) rfl three (fun p hp => by
    simp only [three, List.mem_cons, List.not_mem_nil, or_false] at hp
    rcases hp with rfl | rfl | rfl <;> exact feed_yields _) (fun p hp => by
    simp only [three, List.mem_cons, List.not_mem_nil, or_false] at hp
    rcases hp with rfl | rfl | rfl <;> intro x hx <;> simp at hx <;> unfold Sample <;> omega) 0

example : (fileOf (loop (cfg false false) 7 (St.init (three.map (·.1))))).map (·.1) = some [50, 25, 49, 3, 4, 20] := by decide +kernel

/-- The number of samples that is reported as written is half of them. -/
theorem C63_report_counterexample : fileOf (loop (cfg false false) 7 (St.init (three.map (·.1)))) = some ([50, 25, 49, 3, 4, 20], 3) := by decide +kernel

/-- With the option that leaves out silence (`-n`) the first end of a channel reads freed memory. -/
theorem C63_nosync_counterexample : faultOf (loop (cfg true false) 4 (St.init [⟨0, .a, [1, 2, 3]⟩])) = some .ub := by decide +kernel

end Verif.Mix
