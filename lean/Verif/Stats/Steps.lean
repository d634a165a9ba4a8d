import Verif.Stats.Spec
import Verif.Cmd.ReplyProps
import Verif.Pearson.Props
import Mathlib.Data.List.Induction

/-! # Lemmas about the statistics and the command `G` -/

namespace Verif.Stats

open Verif.Cmd (Rep appendf appendf_fit appendf_nofit used used_length)

abbrev Hash := Pearson.Table × Pearson.Table

/-! ## The table of names -/

theorem names_nodup : names.Nodup := by decide +kernel

theorem names_length : names.length = 29 := by decide +kernel

theorem table_length : table.length = 29 := by decide

theorem names_inj {i j : Nat} {n : List UInt8} (hi : names[i]? = some n) (hj : names[j]? = some n) : i = j := by
  have hl : i < names.length := Classical.byContradiction fun hc => by
    rw [List.getElem?_eq_none (by omega)] at hi; cases hi
  exact (List.getElem?_inj hl names_nodup).1 (hi.trans hj.symm)

theorem names_lt {i : Nat} {n : List UInt8} (hi : names[i]? = some n) : i < 29 := by
  have := names_length
  exact Classical.byContradiction fun hc => by rw [List.getElem?_eq_none (by omega)] at hi; cases hi

theorem getidx_known {rs : List Nat} {h : Hash} (hb : Pearson.build names rs = some h) {i : Nat} {n : List UInt8}
    (hi : names[i]? = some n) : getidx h n = .ok i := by
  obtain ⟨r, h1, h2⟩ := Pearson.C32_exact names (by rw [names_length]; omega) rs h hb n
  unfold getidx
  rw [h1, (h2 i).2 hi]

theorem getidx_unknown {rs : List Nat} {h : Hash} (hb : Pearson.build names rs = some h) {n : List UInt8}
    (hi : n ∉ names) : getidx h n = .ok (-1) := by
  obtain ⟨r, h1, h2⟩ := Pearson.C32_exact names (by rw [names_length]; omega) rs h hb n
  unfold getidx
  rw [h1]
  cases r with
  | none => rfl
  | some i => exact absurd (List.mem_of_getElem? ((h2 i).1 rfl)) hi

theorem getidx_cases {rs : List Nat} {h : Hash} (hb : Pearson.build names rs = some h) (n : List UInt8) :
    (n ∉ names ∧ getidx h n = .ok (-1)) ∨ ∃ i : Nat, names[i]? = some n ∧ getidx h n = .ok i := by
  by_cases hm : n ∈ names
  · obtain ⟨i, hi⟩ := List.mem_iff_getElem?.1 hm
    exact .inr ⟨i, hi, getidx_known hb hi⟩
  · exact .inl ⟨hm, getidx_unknown hb hm⟩

theorem Exact.cases {look : Look} (hb : Exact look) (n : List UInt8) :
    (n ∉ names ∧ look n = .ok (-1)) ∨ ∃ i : Nat, names[i]? = some n ∧ look n = .ok i := by
  obtain ⟨rs, h, h1, rfl⟩ := hb
  exact getidx_cases h1 n

/-! ## Runs -/

theorem run_append (h : Look) (fmtF : Rat → List UInt8) : ∀ (es es' : List Ev) (s : St),
    run h fmtF s (es ++ es') = match run h fmtF s es with
      | some (.ok s') => run h fmtF s' es'
      | x => x
  | [], _, _ => rfl
  | e :: es, es', s => by
    simp only [List.cons_append, run]
    cases step h fmtF s e with
    | none => rfl
    | some r =>
      cases r with
      | error f => rfl
      | ok s' => exact run_append h fmtF es es' s'

theorem run_split {h : Look} {fmtF : Rat → List UInt8} {s s' : St} {es es' : List Ev}
    (hr : run h fmtF s (es ++ es') = some (.ok s')) :
    ∃ m, run h fmtF s es = some (.ok m) ∧ run h fmtF m es' = some (.ok s') := by
  rw [run_append] at hr
  cases hm : run h fmtF s es with
  | none => rw [hm] at hr; cases hr
  | some r =>
    cases r with
    | error f => rw [hm] at hr; cases hr
    | ok m => rw [hm] at hr; exact ⟨m, rfl, hr⟩

theorem run_one {h : Look} {fmtF : Rat → List UInt8} {s s' : St} {e : Ev} :
    run h fmtF s [e] = some (.ok s') ↔ step h fmtF s e = some (.ok s') := by
  simp only [run]
  cases step h fmtF s e with
  | none => simp
  | some r => cases r <;> simp

/-- Induction along an execution. -/
theorem run_ind {h : Look} {fmtF : Rat → List UInt8} {s0 : St} (P : List Ev → St → Prop) (h0 : P [] s0)
    (hs : ∀ es s e s', run h fmtF s0 es = some (.ok s) → P es s → step h fmtF s e = some (.ok s') → P (es ++ [e]) s')
    {es : List Ev} {s : St} (hr : run h fmtF s0 es = some (.ok s)) : P es s := by
  induction es using List.reverseRecOn generalizing s with
  | nil => simp only [run, Option.some.injEq, Except.ok.injEq] at hr; subst hr; exact h0
  | append_singleton es e ih =>
    obtain ⟨m, h1, h2⟩ := run_split hr
    exact hs es m e s h1 (ih h1) (run_one.1 h2)

/-! ## One step and the values -/

theorem given_snoc (n : List UInt8) (i : Nat) (es : List Ev) (e : Ev) : given n i (es ++ [e]) = given n i es + e.plus n i := by
  simp [given]

theorem givenD_snoc (n : List UInt8) (es : List Ev) (e : Ev) : givenD n (es ++ [e]) = givenD n es + e.plusD n := by
  simp [givenD]

theorem out_same {s s' : St} {r : Except Fault (List UInt8)} (ho : out s r = .ok s') :
    s'.u = s.u ∧ s'.d = s.d ∧ s'.pend = s.pend ∧ s'.lastTs = s.lastTs ∧ s'.lastVal = s.lastVal := by
  unfold out at ho
  cases r with
  | error e => cases ho
  | ok t => simp only [Except.ok.injEq] at ho; subst ho; exact ⟨rfl, rfl, rfl, rfl, rfl⟩

theorem gNext_same {h : Look} {fmtF : Rat → List UInt8} {s s' : St} (hs : step h fmtF s .gNext = some (.ok s')) :
    s'.u = s.u ∧ s'.d = s.d ∧ s'.pend = s.pend ∧ s'.lastTs = s.lastTs ∧ s'.lastVal = s.lastVal := by
  simp only [step] at hs
  cases hg : s.g with
  | none => rw [hg] at hs; cases hs
  | some g =>
    rw [hg] at hs
    simp only at hs
    cases hr : g.rest with
    | nil => rw [hr] at hs; cases hs
    | cons n ns =>
      rw [hr] at hs
      simp only [Option.some.injEq] at hs
      cases hx : round h fmtF s g.verbose g.more g.b n with
      | error e => rw [hx] at hs; cases hs
      | ok x =>
        rw [hx] at hs
        cases x with
        | err b c => exact out_same hs
        | go b => simp only [Except.ok.injEq] at hs; subst hs; exact ⟨rfl, rfl, rfl, rfl, rfl⟩

theorem gEnd_same {h : Look} {fmtF : Rat → List UInt8} {s s' : St} (hs : step h fmtF s .gEnd = some (.ok s')) :
    s'.u = s.u ∧ s'.d = s.d ∧ s'.pend = s.pend ∧ s'.lastTs = s.lastTs ∧ s'.lastVal = s.lastVal := by
  simp only [step] at hs
  cases hg : s.g with
  | none => rw [hg] at hs; cases hs
  | some g =>
    rw [hg] at hs
    simp only at hs
    cases hr : g.rest with
    | cons n ns => rw [hr] at hs; cases hs
    | nil => rw [hr] at hs; simp only [Option.some.injEq] at hs; exact out_same hs

theorem gStart_same {h : Look} {fmtF : Rat → List UInt8} {s s' : St} {b v ns} (hs : step h fmtF s (.gStart b v ns) = some (.ok s')) :
    s.g = none ∧ s' = { s with g := some ⟨b, v, false, ns⟩ } := by
  simp only [step] at hs
  cases hg : s.g with
  | some g => rw [hg] at hs; cases hs
  | none =>
    rw [hg] at hs
    simp only [Option.isSome_none, Bool.false_eq_true, if_false, Option.some.injEq, Except.ok.injEq] at hs
    exact ⟨rfl, hs.symm⟩

theorem addU_eq {s s' : St} {i : Int} {n : Nat} (ha : addU s i n = .ok s') :
    ((i < 0 ∨ 29 ≤ i) ∧ s' = s) ∨ (∃ k : Nat, i = k ∧ k < 29 ∧ kind k = .u64 ∧
      s' = { s with u := fun j => if j = k then (s.u j + n) % 2 ^ 64 else s.u j }) := by
  unfold addU at ha
  rw [table_length] at ha
  by_cases h1 : i < 0 ∨ i ≥ (29 : Nat)
  · rw [if_pos h1] at ha
    simp only [Except.ok.injEq] at ha
    exact .inl ⟨h1.imp id (fun x => by simpa using x), ha.symm⟩
  · rw [if_neg h1] at ha
    by_cases h2 : kind i.toNat ≠ .u64
    · rw [if_pos h2] at ha; cases ha
    · rw [if_neg h2] at ha
      simp only [Except.ok.injEq] at ha
      exact .inr ⟨i.toNat, by omega, by omega, Classical.byContradiction h2, ha.symm⟩

theorem addF_eq {s s' : St} {i : Int} {x : Rat} (ha : addF s i x = .ok s') :
    ((i < 0 ∨ 29 ≤ i) ∧ s' = s) ∨ (∃ k : Nat, i = k ∧ k < 29 ∧ kind k = .dbl ∧
      s' = { s with d := fun j => if j = k then s.d j + x else s.d j }) := by
  unfold addF at ha
  rw [table_length] at ha
  by_cases h1 : i < 0 ∨ i ≥ (29 : Nat)
  · rw [if_pos h1] at ha
    simp only [Except.ok.injEq] at ha
    exact .inl ⟨h1.imp id (fun x => by simpa using x), ha.symm⟩
  · rw [if_neg h1] at ha
    by_cases h2 : kind i.toNat ≠ .dbl
    · rw [if_pos h2] at ha; cases ha
    · rw [if_neg h2] at ha
      simp only [Except.ok.injEq] at ha
      exact .inr ⟨i.toNat, by omega, by omega, Classical.byContradiction h2, ha.symm⟩

/-- `add` in terms of the position of the name. -/
theorem add_eq {h : Look} (hb : Exact h) {fmtF : Rat → List UInt8} {s s' : St}
    {m : List UInt8} {n : Nat} (hs : step h fmtF s (.add m n) = some (.ok s')) :
    (m ∉ names ∧ s' = s) ∨ (∃ k : Nat, names[k]? = some m ∧ kind k = .u64 ∧
      s' = { s with u := fun j => if j = k then (s.u j + n) % 2 ^ 64 else s.u j }) := by
  simp only [step, Option.some.injEq] at hs
  rcases hb.cases m with ⟨h1, h2⟩ | ⟨i, h1, h2⟩
  · rw [h2] at hs
    rcases addU_eq hs with ⟨-, h3⟩ | ⟨k, h3, -⟩
    · exact .inl ⟨h1, h3⟩
    · omega
  · rw [h2] at hs
    have hl := names_lt h1
    rcases addU_eq hs with ⟨h3, -⟩ | ⟨k, h3, -, h4, h5⟩
    · omega
    · have : k = i := by omega
      subst this
      exact .inr ⟨k, h1, h4, h5⟩

theorem addD_eq {h : Look} (hb : Exact h) {fmtF : Rat → List UInt8} {s s' : St}
    {m : List UInt8} {n : Rat} (hs : step h fmtF s (.addD m n) = some (.ok s')) :
    (m ∉ names ∧ s' = s) ∨ (∃ k : Nat, names[k]? = some m ∧ kind k = .dbl ∧
      s' = { s with d := fun j => if j = k then s.d j + n else s.d j }) := by
  simp only [step, Option.some.injEq] at hs
  rcases hb.cases m with ⟨h1, h2⟩ | ⟨i, h1, h2⟩
  · rw [h2] at hs
    rcases addF_eq hs with ⟨-, h3⟩ | ⟨k, h3, -⟩
    · exact .inl ⟨h1, h3⟩
    · omega
  · rw [h2] at hs
    have hl := names_lt h1
    rcases addF_eq hs with ⟨h3, -⟩ | ⟨k, h3, -, h4, h5⟩
    · omega
    · have : k = i := by omega
      subst this
      exact .inr ⟨k, h1, h4, h5⟩

theorem tick_eq {h : Look} {fmtF : Rat → List UInt8} {s s' : St} {t : Rat} (hs : step h fmtF s (.tick t) = some (.ok s')) :
    s.pend = none ∧ s.lastTs < t ∧ s' = { s with
      lastVal := s.u src
      pend := some ((((2 ^ 64 + s.u src - s.lastVal) % 2 ^ 64 : Nat) : Rat) / (t - s.lastTs), t) } := by
  simp only [step] at hs
  cases hp : s.pend with
  | some x => rw [hp] at hs; cases hs
  | none =>
    rw [hp] at hs
    simp only [Option.isSome_none, Bool.false_eq_true, if_false] at hs
    by_cases ht : t ≤ s.lastTs
    · rw [if_pos ht] at hs; cases hs
    · rw [if_neg ht] at hs
      simp only [Option.some.injEq, Except.ok.injEq] at hs
      exact ⟨rfl, Rat.not_le.1 ht, hs.symm⟩

theorem tock_eq {h : Look} {fmtF : Rat → List UInt8} {s s' : St} (hs : step h fmtF s .tock = some (.ok s')) :
    ∃ v t, s.pend = some (v, t) ∧
      s' = { s with d := fun j => if j = dst then v else s.d j, lastTs := t, pend := none } := by
  simp only [step] at hs
  cases hp : s.pend with
  | none => rw [hp] at hs; cases hs
  | some x =>
    obtain ⟨v, t⟩ := x
    rw [hp] at hs
    simp only [Option.some.injEq, Except.ok.injEq] at hs
    exact ⟨v, t, rfl, hs.symm⟩

/-! ## The sums -/

theorem u_sum {h : Look} (hb : Exact h) {fmtF : Rat → List UInt8} {t0 : Rat}
    {es : List Ev} {s : St} (hr : run h fmtF (init t0) es = some (.ok s)) {i : Nat} {n : List UInt8}
    (hn : names[i]? = some n) : s.u i = given n i es % 2 ^ 64 := by
  refine run_ind (P := fun es s => s.u i = given n i es % 2 ^ 64) (h0 := by rfl) ?_ hr
  intro es s e s' _ ih hs
  rw [given_snoc]
  have same : s'.u = s.u → e.plus n i = 0 → s'.u i = (given n i es + e.plus n i) % 2 ^ 64 := by
    intro h1 h2; rw [h1, h2, ih]; rfl
  cases e with
  | add m k =>
    rcases add_eq hb hs with ⟨h1, h2⟩ | ⟨j, h1, -, h2⟩
    · refine same (by rw [h2]) ?_
      simp only [Ev.plus]
      rw [if_neg]
      rintro rfl
      exact h1 (List.mem_of_getElem? hn)
    · by_cases hj : j = i
      · subst hj
        have : m = n := by rw [hn] at h1; exact (Option.some.inj h1).symm
        rw [h2]; simp only [Ev.plus, if_true, this, ih, Nat.mod_add_mod]
      · have e1 : s'.u i = s.u i := by rw [h2]; simp only; rw [if_neg (Ne.symm hj)]
        have e2 : Ev.plus n i (.add m k) = 0 := by
          simp only [Ev.plus]; rw [if_neg]; rintro rfl; exact hj (names_inj h1 hn)
        rw [e1, e2, ih]; rfl
  | addIdx j k =>
    rcases addU_eq (show addU s j k = .ok s' from Option.some.inj hs) with ⟨h1, h2⟩ | ⟨l, h1, -, -, h2⟩
    · refine same (by rw [h2]) ?_
      have := names_lt hn
      simp only [Ev.plus]
      rw [if_neg]; omega
    · subst h1
      by_cases hj : l = i
      · subst hj
        rw [h2]; simp only [Ev.plus, if_true, ih, Nat.mod_add_mod]
      · have e1 : s'.u i = s.u i := by rw [h2]; simp only; rw [if_neg (Ne.symm hj)]
        have e2 : Ev.plus n i (.addIdx l k) = 0 := by simp only [Ev.plus]; rw [if_neg]; omega
        rw [e1, e2, ih]; rfl
  | addD m x =>
    rcases addD_eq hb hs with ⟨-, h2⟩ | ⟨j, -, -, h2⟩ <;> exact same (by rw [h2]) rfl
  | tick t => obtain ⟨-, -, h2⟩ := tick_eq hs; exact same (by rw [h2]) rfl
  | tock => obtain ⟨v, t, -, h2⟩ := tock_eq hs; exact same (by rw [h2]) rfl
  | gStart b v ns => exact same (by rw [(gStart_same hs).2]) rfl
  | gNext => exact same (gNext_same hs).1 rfl
  | gEnd => exact same (gEnd_same hs).1 rfl

end Verif.Stats
