import Verif.Heard.Inv

/-! # The state of the stream follows from the history -/

namespace Verif.Heard

open Verif.Pproc

/-- What the handlers are, told by two lists. -/
structure Shape (past : List Ev) (F W : List (Option Nat)) : Prop where
  fn : F.Nodup
  wn : W.Nodup
  play : none ∈ F ↔ playing past = true
  gag : ∀ k, some k ∈ F ↔ gaggedBy k past = true
  cat : none ∈ W ↔ (catching past).isSome = true
  copy : ∀ k, some k ∈ W ↔ copiedTo k past = true
  before : ∀ k, some k ∈ W.takeWhile (· ≠ none) ↔ before k past = true

structure Inv (past : List Ev) (s : St) : Prop where
  recd : s.recd = recording past
  player : s.player = playing past
  addr : s.addr = reachable past
  cat : s.cat = catching past
  shape : ∃ F W, s.t = chain F W ∧ Shape past F W

theorem tw_of_mem {x : Option Nat} : ∀ {W : List (Option Nat)}, none ∈ W →
    (W ++ [x]).takeWhile (· ≠ none) = W.takeWhile (· ≠ none)
  | none :: W, _ => by simp
  | some k :: W, h => by
    have := tw_of_mem (x := x) (W := W) (by simpa using h)
    simp only [List.cons_append, ne_eq, reduceCtorEq, not_false_eq_true, decide_true, List.takeWhile_cons_of_pos]
    congr 1

theorem tw_of_not_mem : ∀ {W : List (Option Nat)}, none ∉ W → W.takeWhile (· ≠ none) = W
  | [], _ => rfl
  | none :: W, h => by simp at h
  | some k :: W, h => by
    have := tw_of_not_mem (W := W) (by simpa using h)
    simp only [ne_eq, reduceCtorEq, not_false_eq_true, decide_true, List.takeWhile_cons_of_pos]
    congr 1

theorem tw_erase (k : Nat) : ∀ (W : List (Option Nat)),
    (W.erase (some k)).takeWhile (· ≠ none) = (W.takeWhile (· ≠ none)).erase (some k)
  | [] => rfl
  | none :: W => by simp
  | some j :: W => by
    have ih := tw_erase k W
    by_cases e : j = k
    · subst e; simp
    · have e' : ¬ (some j == some k) = true := by simpa using e
      rw [List.erase_cons_tail e']
      simp only [ne_eq, reduceCtorEq, not_false_eq_true, decide_true, List.takeWhile_cons_of_pos]
      rw [List.erase_cons_tail e']
      congr 1

theorem nodup_snoc {l : List (Option Nat)} {x : Option Nat} (h : l.Nodup) (hx : x ∉ l) : (l ++ [x]).Nodup := by
  rw [List.nodup_append]
  refine ⟨h, by simp, ?_⟩
  intro a ha b hb e
  simp only [List.mem_singleton] at hb
  subst hb; subst e; exact hx ha

theorem tw_sub (W : List (Option Nat)) {x : Option Nat} (h : x ∈ W.takeWhile (· ≠ none)) : x ∈ W :=
  (List.takeWhile_sublist _).subset h

theorem inv_init : Inv [] init := by
  refine ⟨rfl, rfl, rfl, rfl, [], [], rfl, ?_⟩
  constructor <;> simp [playing, gaggedBy, catching, copiedTo, before]

theorem step_inv {past : List Ev} {s : St} (h : Inv past s) (e : Ev) (hp : Proper (e :: past)) :
    ∃ s' o, step s e = .ok (s', o) ∧ Inv (e :: past) s' := by
  obtain ⟨h1, h2, h3, h4, F, W, ht, hs⟩ := h
  cases e with
  | record on =>
    exact ⟨_, _, rfl, rfl, h2, h3, h4, F, W, ht, hs.fn, hs.wn, hs.play, hs.gag, hs.cat, hs.copy, hs.before⟩
  | addr b =>
    exact ⟨_, _, rfl, h1, h2, rfl, h4, F, W, ht, hs.fn, hs.wn, hs.play, hs.gag, hs.cat, hs.copy, hs.before⟩
  | pkt p pt r =>
    exact ⟨_, _, rfl, h1, h2, h3, h4, F, W, ht, hs.fn, hs.wn, hs.play, hs.gag, hs.cat, hs.copy, hs.before⟩
  | inject p pt r =>
    exact ⟨_, _, rfl, h1, h2, h3, h4, F, W, ht, hs.fn, hs.wn, hs.play, hs.gag, hs.cat, hs.copy, hs.before⟩
  | play =>
    refine ⟨_, _, rfl, h1, rfl, h3, h4, F ++ [none], W, ?_, ?_, hs.wn, ?_, ?_, hs.cat, hs.copy, hs.before⟩
    · show register s.t (fp none) = _
      rw [ht, reg_front]
    · refine nodup_snoc hs.fn ?_
      rw [hs.play, hp.1]; simp
    · simp [playing]
    · intro k
      rw [List.mem_append, hs.gag k]; simp [gaggedBy]
  | gag k =>
    refine ⟨_, _, rfl, h1, h2, h3, h4, F ++ [some k], W, ?_, ?_, hs.wn, ?_, ?_, hs.cat, hs.copy, hs.before⟩
    · show register s.t (fp (some k)) = _
      rw [ht, reg_front]
    · refine nodup_snoc hs.fn ?_
      rw [hs.gag, hp.1]; simp
    · rw [List.mem_append, hs.play]; simp [playing]
    · intro j
      rw [List.mem_append, hs.gag j]
      simp only [List.mem_singleton, Option.some.injEq, gaggedBy, Bool.or_eq_true, beq_iff_eq]
      constructor
      · rintro (h | h)
        · exact .inr h
        · exact .inl h.symm
      · rintro (h | h)
        · exact .inr h.symm
        · exact .inl h
  | stop =>
    have hm : none ∈ F := hs.play.2 hp.1
    have hu : unregister s.t kPlay = .ok (chain (F.erase none) W) := by rw [ht]; exact unreg_front F W none hm
    refine ⟨{ s with t := chain (F.erase none) W, player := false }, [], ?_, h1, rfl, h3, h4, F.erase none, W, rfl,
      hs.fn.erase _, hs.wn, ?_, ?_, hs.cat, hs.copy, hs.before⟩
    · simp only [step, St.without, hu]; rfl
    · rw [hs.fn.mem_erase_iff]; simp [playing]
    · intro k
      rw [hs.fn.mem_erase_iff, hs.gag k]; simp [gaggedBy]
  | ungag k =>
    have hm : some k ∈ F := (hs.gag k).2 hp.1
    have hu : unregister s.t (kGag k) = .ok (chain (F.erase (some k)) W) := by rw [ht]; exact unreg_front F W (some k) hm
    refine ⟨{ s with t := chain (F.erase (some k)) W }, [], ?_, h1, h2, h3, h4, F.erase (some k), W, rfl,
      hs.fn.erase _, hs.wn, ?_, ?_, hs.cat, hs.copy, hs.before⟩
    · simp only [step, St.without, hu]; rfl
    · rw [hs.fn.mem_erase_iff, hs.play]; simp [playing]
    · intro j
      rw [hs.fn.mem_erase_iff, hs.gag j]
      simp only [ne_eq, Option.some.injEq, gaggedBy, Bool.and_eq_true, Bool.not_eq_true', beq_eq_false_iff_ne]
      exact and_congr_left fun _ => ⟨fun h e => h e.symm, fun h e => h e.symm⟩
  | copy k =>
    have hk : some k ∉ W := by rw [hs.copy, hp.1]; simp
    refine ⟨_, _, rfl, h1, h2, h3, h4, F, W ++ [some k], ?_, hs.fn, nodup_snoc hs.wn hk, hs.play, hs.gag, ?_, ?_, ?_⟩
    · show register s.t (wp (some k)) = _
      rw [ht, reg_wit]
    · rw [List.mem_append, hs.cat]; simp [catching]
    · intro j
      rw [List.mem_append, hs.copy j]
      simp only [List.mem_singleton, Option.some.injEq, copiedTo, Bool.or_eq_true, beq_iff_eq]
      constructor
      · rintro (h | h)
        · exact .inr h
        · exact .inl h.symm
      · rintro (h | h)
        · exact .inr h.symm
        · exact .inl h
    · intro j
      by_cases hn : none ∈ W
      · rw [tw_of_mem hn]
        have hc := hs.cat.1 hn
        simp only [before]
        split
        · next e =>
          subst e
          obtain ⟨v, hv⟩ := Option.isSome_iff_exists.1 hc
          simp only [hv, Option.isNone_some, Bool.false_eq_true, iff_false]
          exact fun h => hk (tw_sub W h)
        · exact hs.before j
      · have hn' : none ∉ W ++ [some k] := by simp [hn]
        rw [tw_of_not_mem hn']
        have hb := hs.before j
        rw [tw_of_not_mem hn] at hb
        have hc : (catching past).isNone = true := by
          cases hv : catching past with
          | none => rfl
          | some v => exact absurd (hs.cat.2 (by rw [hv]; rfl)) hn
        simp only [before]
        split
        · next e => subst e; simp [hc]
        · next e =>
          rw [← hb]
          simp only [List.mem_append, List.mem_singleton, Option.some.injEq, or_iff_left_iff_imp]
          exact fun h => absurd h.symm e
  | uncopy k =>
    have hm : some k ∈ W := (hs.copy k).2 hp.1
    have hu : unregister s.t (kCopy k) = .ok (chain F (W.erase (some k))) := by rw [ht]; exact unreg_wit F W (some k) hm
    refine ⟨{ s with t := chain F (W.erase (some k)) }, [], ?_, h1, h2, h3, h4, F, W.erase (some k), rfl,
      hs.fn, hs.wn.erase _, hs.play, hs.gag, ?_, ?_, ?_⟩
    · simp only [step, St.without, hu]; rfl
    · rw [hs.wn.mem_erase_iff, hs.cat]; simp [catching]
    · intro j
      rw [hs.wn.mem_erase_iff, hs.copy j]
      simp only [ne_eq, Option.some.injEq, copiedTo, Bool.and_eq_true, Bool.not_eq_true', beq_eq_false_iff_ne]
      exact and_congr_left fun _ => ⟨fun h e => h e.symm, fun h e => h e.symm⟩
    · intro j
      rw [tw_erase, (hs.wn.sublist (List.takeWhile_sublist _)).mem_erase_iff, hs.before j]
      simp only [ne_eq, Option.some.injEq, before, Bool.and_eq_true, Bool.not_eq_true', beq_eq_false_iff_ne]
      exact and_congr_left fun _ => ⟨fun h e => h e.symm, fun h e => h e.symm⟩
  | dtmf pt hide =>
    by_cases hn : none ∈ W
    · have hl : (lookup s.t kDtmf).isSome = true := by rw [ht]; exact (look F W).2 hn
      refine ⟨_, _, rfl, h1, h2, h3, rfl, F, W, ?_, hs.fn, hs.wn, hs.play, hs.gag, ?_, hs.copy, hs.before⟩
      · show (if (lookup s.t kDtmf).isSome = true then s.t else _) = _
        rw [if_pos hl, ht]
      · simp [hn, catching]
    · have hl : ¬ (lookup s.t kDtmf).isSome = true := by rw [ht]; exact fun h => hn ((look F W).1 h)
      refine ⟨_, _, rfl, h1, h2, h3, rfl, F, W ++ [none], ?_, hs.fn, nodup_snoc hs.wn hn, hs.play, hs.gag, ?_, ?_, ?_⟩
      · show (if (lookup s.t kDtmf).isSome = true then s.t else register s.t (wp none)) = _
        rw [if_neg hl, ht, reg_wit]
      · simp [catching]
      · intro k
        rw [List.mem_append, hs.copy k]; simp [copiedTo]
      · intro k
        have hb := hs.before k
        rw [tw_of_not_mem hn] at hb
        have : (W ++ [none]).takeWhile (· ≠ none) = W := by
          rw [List.takeWhile_append_of_pos]
          · simp
          · intro x hx
            simp only [ne_eq, decide_not, Bool.not_eq_true', decide_eq_false_iff_not]
            exact fun e => hn (e ▸ hx)
        rw [this, hb]; rfl

theorem Proper.tail {e : Ev} {past : List Ev} (h : Proper (e :: past)) : Proper past := by
  cases e <;> first | exact h | exact h.2

theorem run_inv : ∀ (past : List Ev), Proper past → ∃ s l, run past = .ok (s, l) ∧ Inv past s
  | [], _ => ⟨_, _, rfl, inv_init⟩
  | e :: past, h => by
    obtain ⟨s, l, e1, hi⟩ := run_inv past h.tail
    obtain ⟨s', o, e2, hi'⟩ := step_inv hi e h
    exact ⟨s', l ++ o, by simp only [run, e1, e2], hi'⟩

end Verif.Heard
