import Verif.Ended.Spec
import Mathlib.Data.List.Induction

/-!
# C82: counting the packets of a stream
-/

namespace Verif.Ended

def counted (ts : List Ts) : Cnt := ts.foldl reg cnt0

theorem counted_snoc (ts : List Ts) (t : Ts) : counted (ts ++ [t]) = reg (counted ts) t := by
  simp [counted]

/-- The account is true of any packets, at times after the start of the clock.  Missing: that `gap` is a pause also when times go back
(`C82_gap_counterexample`). -/
theorem C82_times_partial (ts : List Ts) (hp : ∀ t ∈ ts, 0 < t.mono) : Describes (ts.foldl reg cnt0) ts := by
  show Describes (counted ts) ts
  induction ts using List.reverseRecOn with
  | nil =>
    refine ⟨rfl, ?_, ?_, ?_, ?_, ?_⟩
    · intro t r h; cases h
    · intro h; exact absurd rfl h
    · intro a ha; cases ha
    · intro lo _ h; exact absurd rfl h
    · intro _; exact .inl rfl
  | append_singleton ts t ih =>
    have hp' : ∀ x ∈ ts, 0 < x.mono := fun x hx => hp x (by simp [hx])
    have ht : 0 < t.mono := hp t (by simp)
    have d := ih hp'
    rw [counted_snoc]
    rcases ts with _ | ⟨f, r⟩
    · have h0 : (reg (counted []) t) = ⟨1, t, t, 0⟩ := by
        simp [counted, reg, cnt0, ht]
      rw [h0]
      refine ⟨rfl, ?_, ?_, ?_, ?_, ?_⟩
      · intro x y h; cases h; rfl
      · intro _; simp
      · intro a ha b hb; simp at ha hb; subst ha hb; simp
      · intro lo h _
        have := h t (by simp)
        simp only at *
        omega
      · intro _; exact .inl rfl
    · generalize hts : f :: r = ts at *
      have hne : ts ≠ [] := by rw [← hts]; simp
      generalize counted ts = c at *
      have hf : c.first = f := d.first f r hts.symm
      have hfm : f ∈ ts := by rw [← hts]; simp
      have hf0 : ¬ c.first.mono = 0 := by rw [hf]; have := hp' f hfm; omega
      obtain ⟨hl, hmax⟩ := d.last hne
      have hn : (reg c t).n = c.n + 1 := rfl
      have hfirst : (reg c t).first = c.first := by simp [reg, hf0]
      have hlast : (reg c t).last = if c.last.mono < t.mono then t else c.last := rfl
      have hgap : (reg c t).gap = if c.gap < ((t.mono - c.last.mono).natAbs : Int) then ((t.mono - c.last.mono).natAbs : Int) else c.gap := by
        simp [reg, hf0]
      have hge : c.gap ≤ (reg c t).gap := by rw [hgap]; split <;> omega
      have hge2 : t.mono - c.last.mono ≤ (reg c t).gap ∧ c.last.mono - t.mono ≤ (reg c t).gap := by
        rw [hgap]; split <;> omega
      refine ⟨by rw [hn, d.number]; simp, ?_, ?_, ?_, ?_, ?_⟩
      · intro x y h
        rw [hfirst, hf]
        rw [← hts] at h
        simp at h
        exact h.1
      · intro _
        rw [hlast]
        split
        · next hlt =>
          refine ⟨by simp, fun x hx => ?_⟩
          rcases List.mem_append.1 hx with hx | hx
          · have := hmax x hx; omega
          · simp at hx; subst hx; omega
        · next hlt =>
          refine ⟨by simp [hl], fun x hx => ?_⟩
          rcases List.mem_append.1 hx with hx | hx
          · exact hmax x hx
          · simp at hx; subst hx; omega
      · intro a ha b hb hab hno
        have hno' : ∀ x ∈ ts, ¬ (a.mono < x.mono ∧ x.mono < b.mono) := fun x hx => hno x (by simp [hx])
        have ha0 := List.mem_append.1 ha
        have hb0 := List.mem_append.1 hb
        clear ha hb
        rcases ha0 with ha | ha <;> rcases hb0 with hb | hb
        · exact Int.le_trans (d.pauses a ha b hb hab hno') hge
        · simp at hb
          subst hb
          -- `b` is the new packet
          by_cases hlt : c.last.mono ≤ a.mono
          · have := hmax a ha; omega
          · have hlb : ¬ c.last.mono < b.mono := fun h => hno' c.last hl ⟨by omega, h⟩
            -- the least of the earlier ones that is not before `b`
            obtain ⟨m, hm, hbm, hmin⟩ : ∃ m ∈ ts, b.mono ≤ m.mono ∧ ∀ x ∈ ts, b.mono ≤ x.mono → m.mono ≤ x.mono := by
              have : ∀ l : List Ts, (∃ x ∈ l, b.mono ≤ x.mono) → ∃ m ∈ l, b.mono ≤ m.mono ∧ ∀ x ∈ l, b.mono ≤ x.mono → m.mono ≤ x.mono := by
                intro l
                induction l with
                | nil => rintro ⟨x, hx, _⟩; cases hx
                | cons y l ih =>
                  intro hex
                  by_cases hl' : ∃ x ∈ l, b.mono ≤ x.mono
                  · obtain ⟨m, hm, h1, h2⟩ := ih hl'
                    by_cases hy : b.mono ≤ y.mono ∧ y.mono < m.mono
                    · refine ⟨y, by simp, hy.1, fun x hx hbx => ?_⟩
                      rcases List.mem_cons.1 hx with rfl | hx
                      · omega
                      · have := h2 x hx hbx; omega
                    · refine ⟨m, by simp [hm], h1, fun x hx hbx => ?_⟩
                      rcases List.mem_cons.1 hx with rfl | hx
                      · omega
                      · exact h2 x hx hbx
                  · obtain ⟨x, hx, hbx⟩ := hex
                    rcases List.mem_cons.1 hx with rfl | hx
                    · refine ⟨x, by simp, hbx, fun z hz hbz => ?_⟩
                      rcases List.mem_cons.1 hz with rfl | hz
                      · omega
                      · exact absurd ⟨z, hz, hbz⟩ hl'
                    · exact absurd ⟨x, hx, hbx⟩ hl'
              exact this ts ⟨c.last, hl, by omega⟩
            have := d.pauses a ha m hm (by omega) (fun x hx hh => by
              by_cases hxb : b.mono ≤ x.mono
              · have := hmin x hx hxb; omega
              · exact hno' x hx ⟨hh.1, by omega⟩)
            omega
        · simp at ha
          subst ha
          by_cases hlt : c.last.mono ≤ a.mono
          · have := hmax b hb; have := hge2.1; have h0 := (d.span 0 (fun x hx => by have := hp' x hx; omega) hne).1; omega
          · have hlb : ¬ c.last.mono < b.mono := fun h => by have := hmax b hb; omega
            have : b.mono - a.mono ≤ c.last.mono - a.mono := by omega
            omega
        · simp at ha hb
          subst ha hb
          have h0 := (d.span 0 (fun x hx => by have := hp' x hx; omega) hne).1
          omega
      · intro lo h _
        obtain ⟨h0, h1⟩ := d.span lo (fun x hx => h x (by simp [hx])) hne
        have h2 := h t (by simp)
        have h3 := h c.last (by simp [hl])
        refine ⟨by omega, ?_⟩
        rw [hgap, hlast]
        split <;> split <;> omega
      · intro hs
        have hs' := (List.pairwise_append.1 hs).1
        have hle : c.last.mono ≤ t.mono := (List.pairwise_append.1 hs).2.2 c.last hl t (by simp)
        rw [hgap]
        split
        · next hg =>
          right
          -- the latest is the one before
          obtain ⟨l, a, ha⟩ : ∃ l a, ts = l ++ [a] := ⟨ts.dropLast, ts.getLast hne, (List.dropLast_concat_getLast hne).symm⟩
          refine ⟨l, a, t, [], by rw [ha]; simp, ?_⟩
          have h1 : a.mono ≤ c.last.mono := hmax a (by rw [ha]; simp)
          have h2 : c.last.mono ≤ a.mono := by
            rw [ha] at hl hs'
            rcases List.mem_append.1 hl with h | h
            · exact (List.pairwise_append.1 hs').2.2 c.last h a (by simp)
            · simp at h; rw [h]; exact Int.le_refl _
          omega
        · rcases d.longest hs' with h | ⟨l, a, b, r', h, hg⟩
          · exact .inl h
          · exact .inr ⟨l, a, b, r' ++ [t], by rw [h]; simp, hg⟩

end Verif.Ended
