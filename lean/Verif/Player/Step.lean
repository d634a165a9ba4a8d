import Verif.Player.Inv

/-!
# One call of `get`
-/

namespace Verif.Player

structure Good (a : Par) (p : Nat) : Prop where
  bytes : Codec.bytes a.codec p = some a.n
  ms : a.ms = Codec.ms a.codec p
  ptime : a.ptime = (p : Int)
  pos : 0 < p
  le : p ≤ 999

theorem left_pos {a : Par} (hm : 0 < a.m) {k : Nat} (hk : 0 < k) (hd : k % a.m = 0) (hr : InRange a.times a.m k)
    (hp : More a.times a.m (k - 1)) :
    (left a k = 0 ↔ ¬ More a.times a.m k) ∧
      (left a k ≠ 0 → (left a k = -1 ∧ a.times = -1) ∨ (left a k ≠ intMin ∧ left a k ≠ -1)) := by
  have hdm := Nat.div_add_mod k a.m
  rw [hd] at hdm
  have hq : 0 < k / a.m := by
    rcases Nat.eq_zero_or_pos (k / a.m) with z | z
    · rw [z] at hdm; omega
    · exact z
  have e2 : (k - 1) / a.m = k / a.m - 1 := by
    have hk' : k - 1 = (a.m - 1) + a.m * (k / a.m - 1) := by
      have : a.m * (k / a.m - 1) + a.m = a.m * (k / a.m) := by
        rw [← Nat.mul_succ]; congr 1; omega
      omega
    have hz : (a.m - 1) / a.m = 0 := Nat.div_eq_of_lt (by omega)
    rw [hk', Nat.add_mul_div_left _ _ hm, hz]
    omega
  unfold InRange at hr
  unfold left
  rw [e2]
  generalize hj : k / a.m = j at hdm hq hr
  have hkj : k = j * a.m := by rw [Nat.mul_comm]; omega
  have hmore : More a.times a.m k ↔ (a.times < 0 ∨ j < (max a.times 1).toNat) := by
    unfold More
    rw [hkj]
    constructor
    · rintro ⟨_, h | h⟩
      · exact Or.inl h
      · exact Or.inr (Nat.lt_of_mul_lt_mul_right h)
    · rintro (h | h)
      · exact ⟨hm, Or.inl h⟩
      · exact ⟨hm, Or.inr (Nat.mul_lt_mul_of_pos_right h hm)⟩
  have hprev : a.times < 0 ∨ j ≤ (max a.times 1).toNat := by
    rcases hp.2 with h | h
    · exact Or.inl h
    · right
      by_contra hc
      have : ((max a.times 1).toNat + 1) * a.m ≤ j * a.m := Nat.mul_le_mul_right _ (by omega)
      rw [Nat.add_mul, Nat.one_mul] at this
      omega
  have hT : ∀ t : Int, (t > 0 → (max t 1).toNat = t.toNat) ∧ (¬ t > 0 → (max t 1).toNat = 1) := by
    intro t
    constructor
    · intro h; rw [max_eq_left (by omega)]
    · intro h; rw [max_eq_right (by omega)]; rfl
  rw [hmore]
  clear hmore hkj hdm hd hp e2
  unfold intMin
  simp only
  by_cases ht : a.times > 0
  · rw [if_pos ht, if_neg (by omega)]
    rw [(hT _).1 ht] at *
    constructor
    · omega
    · intro h; right; omega
  · rw [if_neg ht]
    rw [(hT _).2 ht] at *
    by_cases h1 : a.times = -1
    · rw [if_pos h1]
      constructor
      · omega
      · intro _; exact Or.inl ⟨rfl, h1⟩
    · rw [if_neg h1]
      constructor
      · omega
      · intro h; right; omega

/-- What is read for packet `k`. -/
theorem fill_spec {a : Par} {p : Nat} (g : Good a p) {k e : Nat} {s : Srv} (h : Inv a k e s) (hr : InRange a.times a.m k) (d : Nat) :
    (More a.times a.m k → fill a.f { s with dts := d } a.n = .ok ({ s with dts := d, pos := place a (k + 1), loop := left a (k + 1) }, some (piece a.f a.n k))) ∧
    (¬ More a.times a.m k → ∃ s', fill a.f { s with dts := d } a.n = .ok (s', none)) := by
  obtain ⟨hn, hn2, _⟩ := codec_bounds g.bytes g.pos g.le
  have hml : a.m * a.n ≤ a.f.length := Nat.div_mul_le_self _ _
  have hla : ∀ q, (readAt a.f q a.n).length ≤ a.n := fun q => by rw [readAt_length]; omega
  have hb : ∀ q, ¬ bufLen < 12 + (readAt a.f q a.n).length := by
    intro q
    have := hla q
    unfold bufLen
    omega
  unfold fill
  simp only
  rw [if_neg (hb _)]
  by_cases hm : 0 < a.m
  · obtain ⟨p1, p2⟩ := place_spec a hn hm k
    by_cases hc : 0 < k ∧ k % a.m = 0
    · obtain ⟨q1, q2, q3, q4⟩ := p2 hc
      have hpv : More a.times a.m (k - 1) := by
        rcases h.prev with z | z
        · omega
        · exact z
      obtain ⟨l1, l2⟩ := left_pos hm hc.1 hc.2 hr hpv
      have hlen : ¬ (readAt a.f s.pos a.n).length = a.n := by
        rw [readAt_length, h.pos]; omega
      have hlen0 : (readAt a.f 0 a.n).length = a.n := by
        rw [readAt_length]
        have : 1 * a.n ≤ a.m * a.n := Nat.mul_le_mul_right _ hm
        omega
      rw [if_neg hlen]
      constructor
      · intro hmo
        have h0 : left a k ≠ 0 := fun e => (l1.1 e) hmo
        rw [if_neg (by rw [h.loop]; exact h0), if_neg (hb _), if_neg (by rw [hlen0]; exact fun h => h rfl)]
        have hpc : piece a.f a.n k = readAt a.f 0 a.n := by
          unfold piece readAt
          have : k % pieces a.f a.n = 0 := hc.2
          rw [this, Nat.zero_mul]
        rcases l2 h0 with ⟨e1, e2⟩ | ⟨e1, e2⟩
        · rw [if_pos (by rw [h.loop]; exact e1), hpc, q3, q4, if_pos ⟨e1, by omega, by omega⟩, hlen0]
          have : s.loop = -1 := by rw [h.loop]; exact e1
          rw [← this]
        · rw [if_neg (by rw [h.loop]; exact e2), if_neg (by rw [h.loop]; exact e1), hpc, q3, q4, if_neg (fun h => e2 h.1), hlen0, h.loop]
      · intro hmo
        rw [if_pos (by rw [h.loop]; exact l1.2 hmo)]
        exact ⟨_, rfl⟩
    · obtain ⟨q1, q2, q3, q4⟩ := p1 hc
      have hlen : (readAt a.f s.pos a.n).length = a.n := by
        rw [readAt_length, h.pos]; omega
      rw [if_pos hlen]
      have hmo : More a.times a.m k := by
        refine ⟨hm, ?_⟩
        by_cases hk : k = 0
        · right
          subst hk
          apply Nat.mul_pos _ hm
          have := le_max_right a.times 1
          omega
        · rcases h.prev with z | z
          · exact absurd z hk
          · rcases z.2 with z | z
            · exact Or.inl z
            · right
              by_contra hcon
              have : k = (max a.times 1).toNat * a.m := by omega
              exact hc ⟨by omega, by rw [this, Nat.mul_mod_left]⟩
      constructor
      · intro _
        have hpc : readAt a.f s.pos a.n = piece a.f a.n k := by
          unfold piece readAt
          rw [h.pos, q1]; rfl
        rw [hlen, hpc, q3, q4, h.pos]
        have hl : s.loop = left a k := h.loop
        rw [← hl]
      · intro n; exact absurd hmo n
  · have hmo : ¬ More a.times a.m k := fun h => hm h.1
    refine ⟨fun h => absurd h hmo, fun _ => ?_⟩
    have hlf : a.f.length < a.n := by
      by_contra hc
      apply hm
      exact Nat.div_pos (by omega) hn
    have hl : ∀ q, (readAt a.f q a.n).length ≠ a.n := fun q => by rw [readAt_length]; omega
    rw [if_neg (hl _)]
    split
    · exact ⟨_, rfl⟩
    · rw [if_neg (hb _), if_pos (hl _)]
      exact ⟨_, rfl⟩

/-- One call. -/
theorem get_spec {a : Par} {p : Nat} (g : Good a p) {k e : Nat} {s : Srv} (h : Inv a k e s) (hr : InRange a.times a.m k) (rnd : ℚ → ℚ) (t : ℚ)
    (mem : Bool) :
    (t < due rnd a.btime ((k + e) * a.ms) → get rnd a.f s t mem = .ok (s, .later)) ∧
    (due rnd a.btime ((k + e) * a.ms) ≤ t →
      (mem = false → ∃ s', get rnd a.f s t mem = .ok (s', .enomem) ∧ Inv a k (e + 1) s') ∧
      (mem = true → ¬ More a.times a.m k → ∃ s', get rnd a.f s t mem = .ok (s', .eof)) ∧
      (mem = true → More a.times a.m k → ∃ s' b, get rnd a.f s t mem = .ok (s', .pkt b) ∧ Inv a (k + 1) e s' ∧ b.length = 12 + a.n ∧
        decode b = some (wanted a.f a.codec a.n a.ms a.seq a.ts a.ssrc k))) := by
  obtain ⟨hn, hn2, hms, hms2, hcd⟩ := codec_bounds g.bytes g.pos g.le
  rw [← g.ms] at hms hms2
  obtain ⟨b, tp, hfr, htp, hbp, e1, e2⟩ := codec_spec g.bytes
  rw [← g.ms] at e2
  have hpt : frames s.ptime tp = frames (p : Int) tp := by rw [h.ptime, g.ptime]
  unfold get
  have hdue : due rnd a.btime ((k + e) * a.ms) = due rnd s.btime s.dts := by rw [h.btime, h.dts]
  have hfr' : frame s.pt = some (b, tp) := by rw [h.pt]; exact hfr
  rw [hdue]
  constructor
  · intro ht
    rw [if_pos (Or.inr ht)]
  · intro ht
    rw [if_neg (by
      rintro (hh | hh)
      · rw [h.started] at hh; cases hh
      · exact absurd ht (not_le.2 hh))]
    rw [hfr']
    simp only
    rw [hpt, e1, e2, if_neg (by unfold intMax; omega)]
    have hd : s.dts + a.ms = (k + e + 1) * a.ms := by rw [h.dts, Nat.add_mul (k + e), Nat.one_mul]
    refine ⟨?_, ?_, ?_⟩
    · intro hm
      rw [if_pos hm]
      refine ⟨_, rfl, ?_⟩
      exact { h with dts := by show s.dts + a.ms = _; rw [hd]; rfl }
    · intro hm hmo
      rw [if_neg (by rw [hm]; decide)]
      obtain ⟨s', hs⟩ := (fill_spec g h hr (s.dts + a.ms)).2 hmo
      rw [hs]
      exact ⟨_, rfl⟩
    · intro hm hmo
      rw [if_neg (by rw [hm]; decide)]
      rw [(fill_spec g h hr (s.dts + a.ms)).1 hmo]
      simp only [emit]
      refine ⟨_, _, rfl, ?_, ?_, ?_⟩
      · exact {
          pt := h.pt
          mbt := by rw [if_neg (Nat.succ_ne_zero k)]
          seq := by
            show (s.seq + 1) % 2 ^ 16 = _
            rw [h.seq, Nat.mod_add_mod, Nat.add_assoc]
          ts := by
            show (s.ts + 8000 * a.ms / 1000) % 2 ^ 32 = _
            have : 8000 * a.ms / 1000 = 8 * a.ms := by omega
            rw [this, h.ts, Nat.mod_add_mod, Nat.add_assoc, Nat.add_mul k 1, Nat.one_mul]
          ssrc := h.ssrc
          pos := rfl
          loop := rfl
          dts := by show s.dts + a.ms = _; rw [hd]; congr 1; omega
          ptime := h.ptime
          started := h.started
          btime := h.btime
          prev := Or.inr hmo }
      · rw [List.length_append]
        have : (piece a.f a.n k).length = a.n := by
          unfold piece
          rw [List.length_take, List.length_drop]
          have hlt : k % pieces a.f a.n < pieces a.f a.n := Nat.mod_lt _ hmo.1
          have h1 : (k % pieces a.f a.n + 1) * a.n ≤ pieces a.f a.n * a.n := Nat.mul_le_mul_right _ hlt
          have h2 : pieces a.f a.n * a.n ≤ a.f.length := Nat.div_mul_le_self _ _
          rw [Nat.add_mul, Nat.one_mul] at h1
          omega
        rw [this]
        rfl
      · rw [decode_header]
        · unfold wanted
          congr 2
          · show decide (s.mbt = 1) = _
            rw [h.mbt]
            by_cases hk : k = 0
            · subst hk; rfl
            · rw [if_neg hk]; simp [hk]
          · exact h.pt
          · exact h.seq
          · exact h.ts
          · exact h.ssrc
        · show s.mbt ≤ 1
          rw [h.mbt]; split <;> decide
        · show s.pt < 128
          rw [h.pt]; exact hcd
        · show s.seq < 2 ^ 16
          rw [h.seq]; exact Nat.mod_lt _ (by decide)
        · show s.ts < 2 ^ 32
          rw [h.ts]; exact Nat.mod_lt _ (by decide)
        · show s.ssrc < 2 ^ 32
          rw [h.ssrc]; exact Nat.mod_lt _ (by decide)

end Verif.Player
