import Verif.Stats.Reply

/-! # C75: what the statistics count and what `G` answers -/

namespace Verif.Stats

open Verif.Cmd (Rep used used_length)

theorem kinds : ∀ i < 29, i ≠ 17 → i ≠ 28 → kind i = .u64 := by decide

theorem name17 : names[17]? = some (bytes "total_duration") := by decide +kernel
theorem name28 : names[28]? = some (bytes "pps_in") := by decide +kernel

theorem d_sum {h : Look} (hb : Exact h) {fmtF : Rat → List UInt8} {t0 : Rat}
    {es : List Ev} {s : St} (hr : run h fmtF (init t0) es = some (.ok s)) :
    s.d 17 = givenD (bytes "total_duration") es := by
  refine run_ind (P := fun es s => s.d 17 = givenD (bytes "total_duration") es) (h0 := by rfl) ?_ hr
  intro es s e s' _ ih hs
  rw [givenD_snoc]
  have same : s'.d = s.d → e.plusD (bytes "total_duration") = 0 →
      s'.d 17 = givenD (bytes "total_duration") es + e.plusD (bytes "total_duration") := by
    intro h1 h2; rw [h1, h2, ih, Rat.add_zero]
  cases e with
  | addD m x =>
    rcases addD_eq hb hs with ⟨h1, h2⟩ | ⟨j, h1, -, h2⟩
    · refine same (by rw [h2]) ?_
      simp only [Ev.plusD]; rw [if_neg]; rintro rfl; exact h1 (List.mem_of_getElem? name17)
    · by_cases hj : j = 17
      · subst hj
        have : m = bytes "total_duration" := by rw [name17] at h1; exact (Option.some.inj h1).symm
        rw [h2]; simp only [Ev.plusD, if_true, this, ih]
      · have e1 : s'.d 17 = s.d 17 := by rw [h2]; simp only; rw [if_neg (Ne.symm hj)]
        have e2 : Ev.plusD (bytes "total_duration") (.addD m x) = 0 := by
          simp only [Ev.plusD]; rw [if_neg]; rintro rfl; exact hj (names_inj h1 name17)
        rw [e1, e2, ih, Rat.add_zero]
  | add m k => rcases add_eq hb hs with ⟨-, h2⟩ | ⟨j, -, -, h2⟩ <;> exact same (by rw [h2]) rfl
  | addIdx j k =>
    rcases addU_eq (show addU s j k = .ok s' from Option.some.inj hs) with ⟨-, h2⟩ | ⟨l, -, -, -, h2⟩ <;>
      exact same (by rw [h2]) rfl
  | tick t => obtain ⟨-, -, h2⟩ := tick_eq hs; exact same (by rw [h2]) rfl
  | tock =>
    obtain ⟨v, t, -, h2⟩ := tock_eq hs
    rw [h2]
    simp only [Ev.plusD, Rat.add_zero]
    rw [if_neg (by decide), ih]
  | gStart b v ns => exact same (by rw [(gStart_same hs).2]) rfl
  | gNext => exact same (gNext_same hs).2.1 rfl
  | gEnd => exact same (gEnd_same hs).2.1 rfl

theorem prints_shown {h : Look} (hb : Exact h) {fmtF : Rat → List UInt8} {t0 : Rat}
    {es : List Ev} {s : St} (hr : run h fmtF (init t0) es = some (.ok s)) {n w : List UInt8} (hp : Prints fmtF s n w) :
    Shown h fmtF t0 es n w := by
  obtain ⟨i, h1, h2⟩ := hp
  refine ⟨List.mem_of_getElem? h1, ?_, ?_, ?_⟩
  · intro j hj h3 h4
    have := names_inj hj h1
    subst this
    rw [h2, show_, kinds j (names_lt h1) h3 h4]
    simp only
    rw [u_sum hb hr h1]
  · rintro rfl
    have := names_inj name17 h1
    subst this
    rw [h2]
    show fmtF (s.d 17) = _
    rw [d_sum hb hr]
  · rintro rfl
    have := names_inj name28 h1
    subst this
    exact ⟨s, hr, h2⟩

/-- What holds while a `G` is being answered, and of the replies sent. -/
structure GInv (h : Look) (fmtF : Rat → List UInt8) (t0 : Rat) (es : List Ev) (s : St) : Prop where
  open_ : ∀ g, s.g = some g → ∃ (es1 : List Ev) (b : Rep) (v : Bool) (ns : List (List UInt8)) (rd : List Read),
    (es1 ++ [.gStart b v ns]) <+: es ∧ Reads h fmtF t0 (es1 ++ [.gStart b v ns]) es rd ∧
    rd.map Read.name ++ g.rest = ns ∧ g.verbose = v ∧ g.more = (!(rd.map (Read.item v)).isEmpty) ∧
    Good (used b) (spaced (rd.map (Read.item v))) g.b ∧ (used b).length = b.ulen ∧ b.ulen ≤ 1000
  outs : ∀ t ∈ s.outs, Answer h fmtF t0 es t

theorem Reads.later {h : Look} {fmtF : Rat → List UInt8} {t0 : Rat} {es0 es es' : List Ev} {rd : List Read}
    (hr : Reads h fmtF t0 es0 es rd) (hp : es <+: es') : Reads h fmtF t0 es0 es' rd :=
  ⟨fun r h1 => ⟨(hr.each r h1).1, (hr.each r h1).2.1, (hr.each r h1).2.2.trans hp⟩, hr.order⟩

theorem Answer.later {h : Look} {fmtF : Rat → List UInt8} {t0 : Rat} {es es' : List Ev} {t : List UInt8}
    (ha : Answer h fmtF t0 es t) (hp : es <+: es') : Answer h fmtF t0 es' t := by
  obtain ⟨es1, b, v, ns, rd, h1, h2, h3⟩ := ha
  refine ⟨es1, b, v, ns, rd, h1.trans hp, h2.later hp, ?_⟩
  rcases h3 with h3 | h3 | ⟨n, rest, h4, h5, h6⟩
  · exact .inl h3
  · exact .inr (.inl h3)
  · refine .inr (.inr ⟨n, rest, h4, h5, ?_⟩)
    rcases h6 with h6 | ⟨w, p, h6, h7, h8⟩
    · exact .inl h6
    · exact .inr ⟨w, p, h6, h7.trans hp, h8⟩

theorem out_ok {s s' : St} {t : List UInt8} (ho : out s (.ok t) = .ok s') : s' = { s with g := none, outs := s.outs ++ [t] } := by
  simp only [out, Except.ok.injEq] at ho; exact ho.symm

/-- A step that has nothing to do with `G`. -/
theorem GInv.other {h : Look} {fmtF : Rat → List UInt8} {t0 : Rat} {es : List Ev} {s s' : St} (hi : GInv h fmtF t0 es s) (e : Ev)
    (hg : s'.g = s.g) (ho : s'.outs = s.outs) : GInv h fmtF t0 (es ++ [e]) s' := by
  have hp : es <+: es ++ [e] := ⟨[e], rfl⟩
  refine ⟨fun g h1 => ?_, fun t ht => (hi.outs t (ho ▸ ht)).later hp⟩
  obtain ⟨es1, b, v, ns, rd, h2, h3, h4⟩ := hi.open_ g (hg ▸ h1)
  exact ⟨es1, b, v, ns, rd, h2.trans hp, h3.later hp, h4⟩

theorem GInv.answered {h : Look} {fmtF : Rat → List UInt8} {t0 : Rat} {es : List Ev} {s : St} (hi : GInv h fmtF t0 es s) (e : Ev)
    {t : List UInt8} (ha : Answer h fmtF t0 (es ++ [e]) t) :
    GInv h fmtF t0 (es ++ [e]) { s with g := none, outs := s.outs ++ [t] } := by
  have hp : es <+: es ++ [e] := ⟨[e], rfl⟩
  refine ⟨by rintro g ⟨⟩, fun t' ht => ?_⟩
  rcases List.mem_append.1 ht with h1 | h1
  · exact (hi.outs t' h1).later hp
  · rw [List.mem_singleton.1 h1]; exact ha

theorem ginv_step {h : Look} (hb : Exact h) {fmtF : Rat → List UInt8} {t0 : Rat}
    {es : List Ev} {s : St} {e : Ev} (hro : e.roomy) (hr : run h fmtF (init t0) es = some (.ok s)) (hi : GInv h fmtF t0 es s) :
    (∀ s', step h fmtF s e = some (.ok s') → GInv h fmtF t0 (es ++ [e]) s') ∧
    ((e = .gNext ∨ ∃ b v ns, e = .gStart b v ns) → ∀ f, step h fmtF s e ≠ some (.error f)) ∧
    (∀ f, e = .gEnd → step h fmtF s e = some (.error f) → f = .abort ∧ ∃ g, s.g = some g ∧ g.rest = [] ∧ g.b.ulen = 1023) := by
  have hp : es <+: es ++ [e] := ⟨[e], rfl⟩
  cases e with
  | add m k =>
    refine ⟨fun s' hs => ?_, (by rintro (h1 | ⟨_, _, _, h1⟩) <;> cases h1), (by intro f h1; cases h1)⟩
    rcases add_eq hb hs with ⟨-, h2⟩ | ⟨j, -, -, h2⟩ <;> exact hi.other _ (by rw [h2]) (by rw [h2])
  | addIdx j k =>
    refine ⟨fun s' hs => ?_, (by rintro (h1 | ⟨_, _, _, h1⟩) <;> cases h1), (by intro f h1; cases h1)⟩
    rcases addU_eq (show addU s j k = .ok s' from Option.some.inj hs) with ⟨-, h2⟩ | ⟨l, -, -, -, h2⟩ <;>
      exact hi.other _ (by rw [h2]) (by rw [h2])
  | addD m x =>
    refine ⟨fun s' hs => ?_, (by rintro (h1 | ⟨_, _, _, h1⟩) <;> cases h1), (by intro f h1; cases h1)⟩
    rcases addD_eq hb hs with ⟨-, h2⟩ | ⟨j, -, -, h2⟩ <;> exact hi.other _ (by rw [h2]) (by rw [h2])
  | tick t =>
    refine ⟨fun s' hs => ?_, (by rintro (h1 | ⟨_, _, _, h1⟩) <;> cases h1), (by intro f h1; cases h1)⟩
    obtain ⟨-, -, h2⟩ := tick_eq hs; exact hi.other _ (by rw [h2]) (by rw [h2])
  | tock =>
    refine ⟨fun s' hs => ?_, (by rintro (h1 | ⟨_, _, _, h1⟩) <;> cases h1), (by intro f h1; cases h1)⟩
    obtain ⟨v, t, -, h2⟩ := tock_eq hs; exact hi.other _ (by rw [h2]) (by rw [h2])
  | gStart b v ns =>
    refine ⟨fun s' hs => ?_, fun _ f => ?_, by intro f h1; cases h1⟩
    · obtain ⟨-, h2⟩ := gStart_same hs
      obtain ⟨r1, r2, r3, r4⟩ := hro
      have hu := used_length r1 (show b.ulen ≤ 1024 by omega)
      subst h2
      refine ⟨?_, fun t ht => (hi.outs t ht).later hp⟩
      rintro g ⟨⟩
      refine ⟨es, b, v, ns, [], List.prefix_refl _, ⟨by simp, by simp⟩, rfl, rfl, rfl, ⟨r1, r3, ?_, by simp only; omega, ?_⟩, hu, r4⟩
      · simp only; omega
      · simp only [List.map_nil, spaced, List.append_nil]
    · simp only [step]
      split <;> simp
  | gNext =>
    have main : (∀ s', step h fmtF s .gNext = some (.ok s') → GInv h fmtF t0 (es ++ [.gNext]) s') ∧
        ∀ f, step h fmtF s .gNext ≠ some (.error f) := by
      simp only [step]
      cases hg : s.g with
      | none => exact ⟨(by intro s' h1; cases h1), (by intro f h1; cases h1)⟩
      | some g =>
        simp only
        cases hrest : g.rest with
        | nil => exact ⟨(by intro s' h1; cases h1), (by intro f h1; cases h1)⟩
        | cons n ns' =>
          simp only
          obtain ⟨es1, b, v, ns, rd, h1, h2, h3, h4, h5, h6, h7, h8⟩ := hi.open_ g hg
          have h3' := h3
          rw [hrest] at h3
          have hwhere : (used b).length ≤ 1000 := by omega
          have hspec := round_spec hb fmtF s v (rd.map (Read.item v)) h6 n
          rw [← h5, ← h4] at hspec
          rcases hspec with ⟨b', w, e1, e2, e3⟩ | ⟨b', body, e1, e2, e3⟩ | ⟨b', body, e1, e2, e3⟩
          · rw [e1]
            refine ⟨?_, by intro f hf; cases hf⟩
            rintro s' ⟨⟩
            refine ⟨?_, fun t ht => (hi.outs t ht).later hp⟩
            rintro g' ⟨⟩
            refine ⟨es1, b, v, ns, rd ++ [⟨n, w, es⟩], h1.trans hp, ⟨?_, ?_⟩, ?_, h4, ?_, ?_, h7, h8⟩
            · intro r hrd
              rcases List.mem_append.1 hrd with h9 | h9
              · exact (h2.later hp).each r h9
              · rw [List.mem_singleton.1 h9]
                exact ⟨prints_shown hb hr e2, h1, hp⟩
            · rw [List.pairwise_append]
              refine ⟨h2.order, by simp, ?_⟩
              intro r hrd r' hr'
              rw [List.mem_singleton.1 hr']
              exact (h2.each r hrd).2.2
            · rw [← h3]; simp
            · simp
            · rw [h4] at e3
              simpa [Read.item] using e3
          · have hd := e2.error hwhere 25 (by decide)
            rw [e1]
            simp only
            rw [hd]
            refine ⟨?_, by intro f hf; cases hf⟩
            rintro s' ⟨⟩
            refine hi.answered _ ⟨es1, b, v, ns, rd, h1.trans hp, h2.later hp, .inr (.inl ⟨n, ns', h3.symm, ?_, ?_⟩)⟩
            · rw [fmtD25]; rfl
            · rw [h4] at e3; rw [← h7]; exact e3
          · have hd := e2.error hwhere 68 (by decide)
            rw [e1]
            simp only
            rw [hd]
            refine ⟨?_, by intro f hf; cases hf⟩
            rintro s' ⟨⟩
            refine hi.answered _ ⟨es1, b, v, ns, rd, h1.trans hp, h2.later hp, .inr (.inr ⟨n, ns', h3.symm, ?_, ?_⟩)⟩
            · rw [fmtD68]; rfl
            · rcases e3 with e3 | ⟨w, e3, e4⟩
              · exact .inl e3
              · rw [h4] at e4
                exact .inr ⟨w, es, prints_shown hb hr e3, hp, by rw [← h7]; exact e4⟩
    exact ⟨main.1, fun _ => main.2, by intro f h1; cases h1⟩
  | gEnd =>
    have main : (∀ s', step h fmtF s .gEnd = some (.ok s') → GInv h fmtF t0 (es ++ [.gEnd]) s') ∧
        ∀ f, step h fmtF s .gEnd = some (.error f) → f = .abort ∧ ∃ g, s.g = some g ∧ g.rest = [] ∧ g.b.ulen = 1023 := by
      simp only [step]
      cases hg : s.g with
      | none => exact ⟨(by intro s' h1; cases h1), (by intro f h1; cases h1)⟩
      | some g =>
        simp only
        cases hrest : g.rest with
        | cons n ns' => exact ⟨(by intro s' h1; cases h1), (by intro f h1; cases h1)⟩
        | nil =>
          simp only
          obtain ⟨es1, b, v, ns, rd, h1, h2, h3, h4, h5, h6, h7, h8⟩ := hi.open_ g hg
          rw [hrest, List.append_nil] at h3
          rcases h6.finish with ⟨e1, e2⟩ | ⟨e1, e2⟩
          · rw [e2]
            refine ⟨?_, by intro f hf; cases hf⟩
            rintro s' ⟨⟩
            exact hi.answered _ ⟨es1, b, v, ns, rd, h1.trans hp, h2.later hp, .inl ⟨h3, rfl⟩⟩
          · rw [e2]
            refine ⟨(by intro s' hf; cases hf), ?_⟩
            rintro f ⟨⟩
            exact ⟨rfl, g, rfl, hrest, h6.size.trans e1⟩
    exact ⟨main.1, (by rintro (h1 | ⟨_, _, _, h1⟩) <;> cases h1), fun f _ => main.2 f⟩

theorem ginv {h : Look} (hb : Exact h) {fmtF : Rat → List UInt8} {t0 : Rat} {es : List Ev}
    (hro : ∀ e ∈ es, e.roomy) {s : St} (hr : run h fmtF (init t0) es = some (.ok s)) : GInv h fmtF t0 es s := by
  have := run_ind (h := h) (fmtF := fmtF) (s0 := init t0)
    (P := fun es s => (∀ e ∈ es, e.roomy) → GInv h fmtF t0 es s)
    (h0 := fun _ => ⟨by rintro g ⟨⟩, by rintro t ⟨⟩⟩)
    (fun es s e s' h1 h2 h3 h4 => (ginv_step hb (h4 e (by simp)) h1 (h2 fun e he => h4 e (by simp [he]))).1 s' h3) hr
  exact this hro

/-! ## The properties -/

/-- **C75.**  However the threads interleave, a counter holds the sum of everything added to it under its name or its
index, modulo 2^64; what is added under a name that does not exist changes nothing. -/
theorem C75_sum (h : Look) (hb : Exact h) (fmtF : Rat → List UInt8) (t0 : Rat)
    (es : List Ev) (s : St) (hr : run h fmtF (init t0) es = some (.ok s)) :
    (∀ i n, names[i]? = some n → i ≠ 17 → i ≠ 28 → s.u i = given n i es % 2 ^ 64) ∧
    s.d 17 = givenD (bytes "total_duration") es :=
  ⟨fun _ _ hn _ _ => u_sum hb hr hn, d_sum hb hr⟩

/-- **C75.**  Every reply sent answers a `G` received before: it lists, in the order asked for and separated by spaces,
each statistic with the value it had at some moment between the arrival of the command and the reply; or it is an error
for a name that does not exist or a text that does not fit. -/
theorem C75_reply (h : Look) (hb : Exact h) (fmtF : Rat → List UInt8) (t0 : Rat)
    (es : List Ev) (hro : ∀ e ∈ es, e.roomy) (s : St) (hr : run h fmtF (init t0) es = some (.ok s)) :
    ∀ t ∈ s.outs, Answer h fmtF t0 es t := (ginv hb hro hr).outs

/-- The times at which the rates are derived are later than `t` and increase. -/
def Clock : Rat → List Ev → Prop
  | _, [] => True
  | t, .tick t' :: es => t < t' ∧ Clock t' es
  | t, _ :: es => Clock t es

/-- The last of these times, `t` if there is none. -/
def lastTick : Rat → List Ev → Rat
  | t, [] => t
  | _, .tick t' :: es => lastTick t' es
  | t, _ :: es => lastTick t es

theorem lastTick_snoc : ∀ (es : List Ev) (t : Rat) (e : Ev), lastTick t (es ++ [e]) = match e with
    | .tick t' => t'
    | _ => lastTick t es
  | [], t, e => by cases e <;> rfl
  | e' :: es, t, e => by
    cases e' <;> exact lastTick_snoc es _ e

theorem clock_snoc : ∀ (es : List Ev) (t t' : Rat), Clock t (es ++ [.tick t']) → lastTick t es < t'
  | [], _, _, hc => hc.1
  | e' :: es, t, t', hc => by
    cases e' with
    | tick t2 => exact clock_snoc es t2 t' hc.2
    | _ => exact clock_snoc es t t' hc

theorem clock_prefix : ∀ (es es' : List Ev) (t : Rat), Clock t (es ++ es') → Clock t es
  | [], _, _, _ => trivial
  | e' :: es, es', t, hc => by
    cases e' with
    | tick t2 => exact ⟨hc.1, clock_prefix es es' t2 hc.2⟩
    | _ => exact clock_prefix es es' t hc

theorem pend_inv {h : Look} (hb : Exact h) {fmtF : Rat → List UInt8} {t0 : Rat}
    {es : List Ev} {s : St} (hr : run h fmtF (init t0) es = some (.ok s)) :
    (s.pend = none ∧ s.lastTs = lastTick t0 es) ∨ ∃ v, s.pend = some (v, lastTick t0 es) := by
  refine run_ind (P := fun es s => (s.pend = none ∧ s.lastTs = lastTick t0 es) ∨ ∃ v, s.pend = some (v, lastTick t0 es))
    (h0 := .inl ⟨rfl, rfl⟩) ?_ hr
  intro es s e s' _ ih hs
  rw [lastTick_snoc]
  cases e with
  | add m k => rcases add_eq hb hs with ⟨-, h2⟩ | ⟨j, -, -, h2⟩ <;> (subst h2; exact ih)
  | addIdx j k =>
    rcases addU_eq (show addU s j k = .ok s' from Option.some.inj hs) with ⟨-, h2⟩ | ⟨l, -, -, -, h2⟩ <;> (subst h2; exact ih)
  | addD m k => rcases addD_eq hb hs with ⟨-, h2⟩ | ⟨j, -, -, h2⟩ <;> (subst h2; exact ih)
  | tick t => obtain ⟨-, -, h2⟩ := tick_eq hs; subst h2; exact .inr ⟨_, rfl⟩
  | tock =>
    obtain ⟨v, t, h1, h2⟩ := tock_eq hs
    subst h2
    rcases ih with ⟨h3, -⟩ | ⟨v', h3⟩
    · rw [h3] at h1; cases h1
    · rw [h3] at h1; cases h1
      exact .inl ⟨rfl, rfl⟩
  | gStart b v ns => rw [(gStart_same hs).2]; exact ih
  | gNext => obtain ⟨-, -, h3, h4, -⟩ := gNext_same hs; simp only [h3, h4]; exact ih
  | gEnd => obtain ⟨-, -, h3, h4, -⟩ := gEnd_same hs; simp only [h3, h4]; exact ih

theorem kind_dbl : ∀ i < 29, kind i = .dbl → i = 17 ∨ i = 28 := by decide

theorem typed_nofault {h : Look} (hb : Exact h) {fmtF : Rat → List UInt8} {t0 : Rat}
    {es : List Ev} {s : St} (hr : run h fmtF (init t0) es = some (.ok s)) {e : Ev} (ht : e.typed) (hro : e.roomy)
    (hc : Clock t0 (es ++ [e])) (hi : GInv h fmtF t0 es s) {f : Fault} (hs : step h fmtF s e = some (.error f)) :
    e = .gEnd ∧ f = .abort ∧ ∃ g, s.g = some g ∧ g.rest = [] ∧ g.b.ulen = 1023 := by
  have hg := ginv_step hb (e := e) hro hr hi
  have hk : ∀ j : Nat, j < 29 → j ≠ 17 → j ≠ 28 → ∀ n, addU s j n ≠ .error f := by
    intro j h1 h2 h3 n hx
    unfold addU at hx
    rw [table_length] at hx
    rw [if_neg (by omega), Int.toNat_natCast, if_neg (by rw [kinds j h1 h2 h3]; simp)] at hx
    cases hx
  cases e with
  | add m k =>
    exfalso
    simp only [step, Option.some.injEq] at hs
    rcases hb.cases m with ⟨-, h2⟩ | ⟨i, h1, h2⟩
    · rw [h2] at hs
      simp only [addU] at hs
      rw [if_pos (by omega)] at hs
      cases hs
    · rw [h2] at hs
      refine hk i (names_lt h1) ?_ ?_ k hs
      · rintro rfl; rw [name17] at h1; exact ht.1 (Option.some.inj h1).symm
      · rintro rfl; rw [name28] at h1; exact ht.2 (Option.some.inj h1).symm
  | addIdx i k =>
    exfalso
    simp only [step, Option.some.injEq] at hs
    have ht' : i ≠ 17 ∧ i ≠ 28 := ht
    by_cases hl : i < 0 ∨ i ≥ (29 : Nat)
    · simp only [addU, table_length] at hs
      rw [if_pos hl] at hs; cases hs
    · obtain ⟨j, rfl⟩ : ∃ j : Nat, i = j := ⟨i.toNat, by omega⟩
      exact hk j (by omega) (by omega) (by omega) k hs
  | addD m x =>
    exfalso
    simp only [step, Option.some.injEq] at hs
    rcases hb.cases m with ⟨-, h2⟩ | ⟨i, h1, h2⟩
    · rw [h2] at hs
      simp only [addF] at hs
      rw [if_pos (by omega)] at hs
      cases hs
    · rw [h2] at hs
      have : m = bytes "total_duration" := by
        rcases ht with h3 | h3
        · exact absurd (List.mem_of_getElem? h1) h3
        · exact h3
      subst this
      have := names_inj name17 h1
      subst this
      simp only [addF, table_length] at hs
      rw [if_neg (by omega), Int.toNat_natCast, if_neg (by decide)] at hs
      cases hs
  | tick t =>
    exfalso
    have h1 := clock_snoc _ _ _ hc
    simp only [step] at hs
    rcases pend_inv hb hr with ⟨h2, h3⟩ | ⟨v, h2⟩
    · rw [h2, h3, if_neg (by simp), if_neg (Rat.not_le.2 h1)] at hs
      cases hs
    · rw [h2] at hs; simp at hs
  | tock =>
    exfalso
    simp only [step] at hs
    cases hp : s.pend with
    | none => rw [hp] at hs; cases hs
    | some x => rw [hp] at hs; cases hs
  | gStart b v ns => exact absurd hs (hg.2.1 (.inr ⟨b, v, ns, rfl⟩) f)
  | gNext => exact absurd hs (hg.2.1 (.inl rfl) f)
  | gEnd => exact ⟨rfl, hg.2.2 f rfl hs⟩

/-- **C75.**  If the callers use the statistics with their types, the clock moves on, and the cookies leave room for an
error, nothing undefined happens and no assertion fails, except for a `G` whose answer takes up exactly all but one of
the bytes there are (`C75_full_counterexample`). -/
theorem C75_no_fault_partial (h : Look) (hb : Exact h) (fmtF : Rat → List UInt8)
    (t0 : Rat) (es : List Ev) (ht : ∀ e ∈ es, e.typed) (hro : ∀ e ∈ es, e.roomy) (hc : Clock t0 es) (f : Fault)
    (hr : run h fmtF (init t0) es = some (.error f)) :
    f = .abort ∧ ∃ es1 es2 s g, es = es1 ++ .gEnd :: es2 ∧ run h fmtF (init t0) es1 = some (.ok s) ∧ s.g = some g ∧
      g.rest = [] ∧ g.b.ulen = 1023 := by
  induction es using List.reverseRecOn with
  | nil => cases hr
  | append_singleton es e ih =>
    rw [run_append] at hr
    cases hm : run h fmtF (init t0) es with
    | none => rw [hm] at hr; cases hr
    | some r =>
      rw [hm] at hr
      cases r with
      | error f' =>
        simp only [Option.some.injEq, Except.error.injEq] at hr
        subst hr
        obtain ⟨h1, es1, es2, s, g, h2, h3⟩ := ih (fun e he => ht e (by simp [he])) (fun e he => hro e (by simp [he]))
          (clock_prefix _ _ _ hc) hm
        exact ⟨h1, es1, es2 ++ [e], s, g, by rw [h2]; simp, h3⟩
      | ok s =>
        simp only [run] at hr
        cases hx : step h fmtF s e with
        | none => rw [hx] at hr; cases hr
        | some r =>
          rw [hx] at hr
          cases r with
          | ok s' => cases hr
          | error f' =>
            simp only [Option.some.injEq, Except.error.injEq] at hr
            subst hr
            obtain ⟨h1, h2, g, h3⟩ := typed_nofault hb hm (ht e (by simp)) (hro e (by simp)) hc
              (ginv hb (fun e he => hro e (by simp [he])) hm) hx
            exact ⟨h2, es, [], s, g, by rw [h1], hm, h3⟩

/-! ## The rate -/

/-- Events other than `tick` keep what the last one noted. -/
theorem keep_tick {h : Look} (hb : Exact h) {fmtF : Rat → List UInt8} {x : Rat × Rat} :
    ∀ (es : List Ev) (s s' : St), (∀ e ∈ es, e.isTick = false) → run h fmtF s es = some (.ok s') →
    (s.pend = some x ∨ (s.pend = none ∧ s.lastTs = x.2)) →
    s'.lastVal = s.lastVal ∧ (s'.pend = some x ∨ (s'.pend = none ∧ s'.lastTs = x.2))
  | [], s, s', _, hr, hx => by
    simp only [run, Option.some.injEq, Except.ok.injEq] at hr; subst hr; exact ⟨rfl, hx⟩
  | e :: es, s, s', hn, hr, hx => by
    obtain ⟨m, h1, h2⟩ := run_split (es := [e]) hr
    have hs := run_one.1 h1
    have key : m.lastVal = s.lastVal ∧ (m.pend = some x ∨ (m.pend = none ∧ m.lastTs = x.2)) := by
      have same : m.lastVal = s.lastVal → m.pend = s.pend → m.lastTs = s.lastTs → _ := fun h1 h2 h3 =>
        (⟨h1, by rw [h2, h3]; exact hx⟩ : m.lastVal = s.lastVal ∧ (m.pend = some x ∨ (m.pend = none ∧ m.lastTs = x.2)))
      cases e with
      | add m k => rcases add_eq hb hs with ⟨-, h2⟩ | ⟨j, -, -, h2⟩ <;> (subst h2; exact same rfl rfl rfl)
      | addIdx j k =>
        rcases addU_eq (Option.some.inj hs) with ⟨-, h2⟩ | ⟨l, -, -, -, h2⟩ <;> (subst h2; exact same rfl rfl rfl)
      | addD m k => rcases addD_eq hb hs with ⟨-, h2⟩ | ⟨j, -, -, h2⟩ <;> (subst h2; exact same rfl rfl rfl)
      | tick t => have := hn (.tick t) (by simp); cases this
      | tock =>
        obtain ⟨v, t, q1, h2⟩ := tock_eq hs
        subst h2
        rcases hx with h3 | ⟨h3, -⟩
        · rw [h3] at q1; cases q1
          exact ⟨rfl, .inr ⟨rfl, rfl⟩⟩
        · rw [h3] at q1; cases q1
      | gStart b v ns => rw [(gStart_same hs).2]; exact ⟨rfl, hx⟩
      | gNext => obtain ⟨-, -, h3, h4, h5⟩ := gNext_same hs; exact same h5 h3 h4
      | gEnd => obtain ⟨-, -, h3, h4, h5⟩ := gEnd_same hs; exact same h5 h3 h4
    obtain ⟨h3, h4⟩ := keep_tick hb es m s' (fun e he => hn e (by simp [he])) h2 key.2
    exact ⟨h3.trans key.1, h4⟩

/-- Events other than `tock` keep the rate. -/
theorem keep_rate {h : Look} (hb : Exact h) {fmtF : Rat → List UInt8} :
    ∀ (es : List Ev) (s s' : St), (∀ e ∈ es, e.isTock = false) → (∀ e ∈ es, e.typed) → run h fmtF s es = some (.ok s') →
    s'.d dst = s.d dst
  | [], s, s', _, _, hr => by
    simp only [run, Option.some.injEq, Except.ok.injEq] at hr; subst hr; rfl
  | e :: es, s, s', hn, ht, hr => by
    obtain ⟨m, h1, h2⟩ := run_split (es := [e]) hr
    have hs := run_one.1 h1
    rw [keep_rate hb es m s' (fun e he => hn e (by simp [he])) (fun e he => ht e (by simp [he])) h2]
    cases e with
    | add m k => rcases add_eq hb hs with ⟨-, h2⟩ | ⟨j, -, -, h2⟩ <;> (subst h2; rfl)
    | addIdx j k =>
      rcases addU_eq (Option.some.inj hs) with ⟨-, h2⟩ | ⟨l, -, -, -, h2⟩ <;> (subst h2; rfl)
    | addD m k =>
      rcases addD_eq hb hs with ⟨-, h2⟩ | ⟨j, h3, -, h2⟩
      · subst h2; rfl
      · subst h2
        have hj : dst ≠ j := by
          rintro rfl
          have h4 : m = bytes "pps_in" := by
            have := name28.symm.trans h3
            exact (Option.some.inj this).symm
          rcases ht (.addD m k) (by simp) with h5 | h5
          · exact h5 (List.mem_of_getElem? h3)
          · rw [h4] at h5; revert h5; decide
        show (if dst = j then _ else _) = _
        rw [if_neg hj]
    | tick t => obtain ⟨-, -, h2⟩ := tick_eq hs; subst h2; rfl
    | tock => have := hn .tock (by simp); cases this
    | gStart b v ns => rw [(gStart_same hs).2]
    | gNext => rw [(gNext_same hs).2.1]
    | gEnd => rw [(gEnd_same hs).2.1]

theorem given_append (n : List UInt8) (i : Nat) (es es' : List Ev) : given n i (es ++ es') = given n i es + given n i es' := by
  simp [given]

/-- **C75.**  The rate shown is the number of packets received between the last two times the rates were derived, divided
by the time between them. -/
theorem C75_rate (h : Look) (hb : Exact h) (fmtF : Rat → List UInt8) (t0 t1 t2 : Rat)
    (es1 es2 es3 es4 : List Ev) (s : St) (h2 : ∀ e ∈ es2, e.isTick = false) (h3 : ∀ e ∈ es3, e.isTick = false)
    (h4 : ∀ e ∈ es4, e.isTock = false) (h4' : ∀ e ∈ es4, e.typed)
    (hm : given (bytes "npkts_rcvd") 10 es2 < 2 ^ 64)
    (hr : run h fmtF (init t0) (es1 ++ .tick t1 :: es2 ++ .tick t2 :: es3 ++ .tock :: es4) = some (.ok s)) :
    t1 < t2 ∧ s.d dst = (given (bytes "npkts_rcvd") 10 es2 : Rat) / (t2 - t1) := by
  have name10 : names[10]? = some (bytes "npkts_rcvd") := by decide +kernel
  obtain ⟨s5, hr, hr5⟩ := run_split hr
  obtain ⟨s3, hr, hr4⟩ := run_split hr
  obtain ⟨s1, hr1, hr2⟩ := run_split hr
  obtain ⟨s2, hr2', hr3⟩ := run_split (es := [.tick t1]) hr2
  have hu1 := u_sum hb hr1 name10
  have hu3 := u_sum hb hr name10
  obtain ⟨-, -, e2⟩ := tick_eq (run_one.1 hr2')
  have k1 := keep_tick hb (x := ((((2 ^ 64 + s1.u src - s1.lastVal) % 2 ^ 64 : Nat) : Rat) / (t1 - s1.lastTs), t1))
    es2 s2 s3 h2 hr3 (.inl (by rw [e2]))
  obtain ⟨s4, hr4', hr4''⟩ := run_split (es := [.tick t2]) hr4
  obtain ⟨p1, p2, e4⟩ := tick_eq (run_one.1 hr4')
  have hts : s3.lastTs = t1 := by
    rcases k1.2 with h5 | ⟨-, h5⟩
    · rw [p1] at h5; cases h5
    · exact h5
  have hlv : s3.lastVal = given (bytes "npkts_rcvd") 10 es1 % 2 ^ 64 := by
    rw [k1.1, e2]; exact hu1
  have hg : given (bytes "npkts_rcvd") 10 (es1 ++ .tick t1 :: es2) =
      given (bytes "npkts_rcvd") 10 es1 + given (bytes "npkts_rcvd") 10 es2 := by
    rw [given_append]
    congr 1
    simp [given, Ev.plus]
  have hdiff : (2 ^ 64 + s3.u src - s3.lastVal) % 2 ^ 64 = given (bytes "npkts_rcvd") 10 es2 := by
    rw [hlv, show s3.u src = given (bytes "npkts_rcvd") 10 (es1 ++ .tick t1 :: es2) % 2 ^ 64 from hu3, hg]
    omega
  have k2 := keep_tick hb (x := ((((2 ^ 64 + s3.u src - s3.lastVal) % 2 ^ 64 : Nat) : Rat) / (t2 - s3.lastTs), t2))
    es3 s4 s5 h3 hr4'' (.inl (by rw [e4]))
  obtain ⟨s6, hr6, hr7⟩ := run_split (es := [.tock]) hr5
  obtain ⟨v, t, q1, q2⟩ := tock_eq ((run_one (e := .tock)).1 hr6)
  have hv : v = (given (bytes "npkts_rcvd") 10 es2 : Rat) / (t2 - t1) := by
    rcases k2.2 with h5 | ⟨h5, -⟩
    · rw [q1] at h5
      have := congrArg Prod.fst (Option.some.inj h5)
      simp only at this
      rw [this, hdiff, hts]
    · rw [q1] at h5; cases h5
  refine ⟨by rw [← hts]; exact p2, ?_⟩
  rw [keep_rate hb es4 s6 s h4 h4' hr7, q2, ← hv]
  simp only [if_true]

end Verif.Stats
