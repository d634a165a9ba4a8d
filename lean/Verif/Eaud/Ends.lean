import Verif.Eaud.Render

/-!
# Decoding ends (C48)
-/

namespace Verif.Eaud
open Verif.G711 (Sample)

variable {T K : Type}

/-- How much silence is owed because of the times of arrival; half of it being made makes it less. -/
structure Pays (fp : Fp T) (debt : T → T → Nat → Nat) : Prop where
  mono : ∀ t s a b, a ≤ b → debt t s b ≤ debt t s a
  pay : ∀ t s d x, fp.late t s d = true → fp.half t s d = some x → 0 < x → debt t s (d + min x 4000) < debt t s d

def owed (debt : T → T → Nat → Nat) (st : T) (d : Dec T K) : Nat :=
  match d.pp with
  | [] => 0
  | p :: _ => (p.info.ts - d.nticks) + debt p.time st d.dticks

theorem emit_shape {d d' : Dec T K} {o : Out} (h : emit d = .ok (d', o)) :
    d' = { d with oblen := u32 (d.oblen + 4294967295), obp := d.obp + 1 } := by
  unfold emit at h
  split at h
  · cases h
  · cases h
    rfl

theorem zeros_shape {d d' : Dec T K} {a b c : Nat} {j : Int} (h : zeros d a b c = .ok (d', j)) : d'.pp = d.pp ∧ d'.dticks = d.dticks := by
  unfold zeros at h
  split at h
  · cases h
  · cases h
    exact ⟨rfl, rfl⟩

theorem silence_shape {l : Lib K} {d d' : Dec T K} {t : Nat} {j : Int} (h : silence l d t = .ok (d', j)) : d'.pp = d.pp ∧ d'.dticks = d.dticks := by
  unfold silence at h
  split at h
  · exact zeros_shape h
  split at h
  · split at h
    · exact zeros_shape h
    · split at h
      · have := zeros_shape h
        exact this
      · split at h
        · cases h
        · split at h
          · have := zeros_shape h
            exact this
          · cases h
            exact ⟨rfl, rfl⟩
  · cases h
    exact ⟨rfl, rfl⟩

theorem gap_shape {l : Lib K} {d d' : Dec T K} {adv : Bool} {t : Nat} {o : Out} (h : gap l d adv t = .ok (d', o)) (ho : o ≠ .error) :
    d'.pp = d.pp ∧ d'.nticks = (if adv then u32 (d.nticks + t) else d.nticks) ∧ d'.dticks = d.dticks + t := by
  unfold gap at h
  simp only at h
  split at h
  · cases h
    exact ⟨rfl, rfl, rfl⟩
  · split at h
    · cases h
    · rename_i hs
      obtain ⟨a, b⟩ := silence_shape hs
      split at h
      · cases h
        exact absurd rfl ho
      · have := emit_shape h
        subst this
        exact ⟨a, rfl, by simp only [b]⟩

theorem trust_shape {fp : Fp T} {d d' : Dec T K} {p : Packet T} {st : T} (h : trust fp d p st = .ok d') :
    d'.pp = d.pp ∧ d'.dticks = d.dticks ∧ (d'.nticks = d.nticks ∨ d'.nticks = p.info.ts) := by
  unfold trust at h
  split at h
  · split at h
    · cases h
    · cases h
      exact ⟨rfl, rfl, .inr rfl⟩
  · cases h
    exact ⟨rfl, rfl, .inl rfl⟩

theorem refill_len {fp : Fp T} {l : Lib K} : ∀ (ps : List (Packet T)) (d d' : Dec T K) (o : Out), refill fp l ps d = .ok (d', o) → o ≠ .error →
    d'.pp.length ≤ ps.length
  | [], d, d', o, h, _ => by cases h; simp
  | p :: ps, d, d', o, h, ho => by
    rw [refill] at h
    split at h
    · cases h
    split at h
    · cases h
    rename_i ht
    have ts := trust_shape ht
    split at h
    · rw [(gap_shape h ho).1, ts.1]
    split at h
    · split at h
      · cases h
      · rw [(gap_shape h ho).1, ts.1]
    split at h
    · cases h
    split at h
    · have := refill_len ps _ _ _ h ho
      simp only [List.length_cons]; omega
    · have := emit_shape h
      subst this
      simp

theorem refill_less {fp : Fp T} {l : Lib K} {debt : T → T → Nat → Nat} (hp : Pays fp debt) {st : T} (ps : List (Packet T)) (d d' : Dec T K) (o : Out)
    (h : refill fp l ps d = .ok (d', o)) (ho : o ≠ .error) (hpp : d.pp = ps) (hst : ps ≠ [] → d.stime = some st) (h32 : ∀ p ∈ ps, p.info.ts < 4294967296)
    (hh : ∀ p ∈ ps, ∀ d x, fp.late p.time st d = true → fp.half p.time st d = some x → 0 < x) :
    o = .eof ∨ d'.pp.length < ps.length ∨ d'.pp = ps ∧ owed debt st d' < owed debt st d := by
  cases ps with
  | nil => cases h; exact .inl rfl
  | cons p ps =>
    right
    have h32 := h32 p (by simp)
    rw [refill] at h
    split at h
    · cases h
    rename_i st' hst'
    rw [hst (by simp)] at hst'
    cases hst'
    split at h
    · cases h
    rename_i d1 ht
    obtain ⟨t1, t2, t3⟩ := trust_shape ht
    change d1.pp = p :: ps at t1
    change d1.dticks = d.dticks at t2
    split at h
    · rename_i hlt
      obtain ⟨g1, g2, g3⟩ := gap_shape h ho
      right
      refine ⟨g1.trans t1, ?_⟩
      unfold owed
      rw [g1, t1, hpp]
      simp only
      rw [g3, g2, if_pos rfl, t2]
      have := hp.mono p.time st d.dticks (d.dticks + min (p.info.ts - d1.nticks) 4000) (by omega)
      have e : u32 (d1.nticks + min (p.info.ts - d1.nticks) 4000) = d1.nticks + min (p.info.ts - d1.nticks) 4000 := by unfold u32; omega
      rw [e]
      rcases t3 with t3 | t3
      · change d1.nticks = d.nticks at t3
        omega
      · omega
    split at h
    · rename_i hlate
      split at h
      · cases h
      · rename_i x hx
        obtain ⟨g1, g2, g3⟩ := gap_shape h ho
        right
        refine ⟨g1.trans t1, ?_⟩
        unfold owed
        rw [g1, t1, hpp]
        simp only
        rw [g3, g2, if_neg (by simp), t2]
        have := hp.pay p.time st d1.dticks x hlate hx (hh p (by simp) _ _ hlate hx)
        rw [t2] at this
        rcases t3 with t3 | t3
        · change d1.nticks = d.nticks at t3
          omega
        · omega
    split at h
    · cases h
    left
    split at h
    · have := refill_len ps _ _ _ h ho
      simp only [List.length_cons]; omega
    · have := emit_shape h
      subst this
      simp

theorem gets_one (fp : Fp T) (l : Lib K) {d d' : Dec T K} {o : Out} (h : get fp l d = .ok (d', o)) : gets fp l 1 d = .ok (d', [o]) := by
  rw [gets, h]
  rfl

theorem finish {fp : Fp T} {l : Lib K} (hl : l.Ok) (hb : l.g729 = true → l.bcg = true) {debt : T → T → Nat → Nat} (hp : Pays fp debt) {st : T}
    (d : Dec T K) (h : DInv l d) (hst : d.stime = some st) (hps : ∀ p ∈ d.pp, Whole l p ∧ p.info.ts < 4294967296)
    (hdf : Defined fp st d.sticks d.pp) : ∃ N d' os, gets fp l N d = .ok (d', os) ∧ os.length = N ∧ d'.pp = [] ∧ d'.oblen = 0 := by
  obtain ⟨d1, o, e1, s1, df1⟩ := get_ok (fp := fp) hl hb h (fun _ => hst) (fun p hp => (hps p hp).1) hdf
  obtain ⟨a, ha⟩ := s1.sub
  by_cases ho : o = .eof
  · obtain ⟨f1, f2⟩ := s1.eof ho
    exact ⟨1, d1, [o], gets_one fp l e1, rfl, f1, f2⟩
  have hlt : d1.pp.length < d.pp.length ∨ d1.pp.length = d.pp.length ∧ (owed debt st d1 < owed debt st d ∨ owed debt st d1 = owed debt st d ∧ d1.oblen < d.oblen) := by
    unfold get at e1
    split at e1
    · rcases refill_less hp d.pp d d1 o e1 s1.out rfl (fun _ => hst) (fun p hp => (hps p hp).2) (fun p hp c x hlt hx => by
        obtain ⟨b, c', hbc⟩ := List.append_of_mem hp
        have : ∀ (b : List (Packet T)), Defined fp st d.sticks (b ++ p :: c') → Defined fp st d.sticks (p :: c') := by
          intro b
          induction b with
          | nil => exact id
          | cons q b ih => exact fun hq => ih ((Defined.sound fp st).next _ _ _ hq)
        obtain ⟨t, q1, q2⟩ := (Defined.sound fp st).half _ _ _ (this b (hbc ▸ hdf)) _ hlt
        rw [hx] at q1
        cases q1
        exact q2) with r | r | ⟨r1, r2⟩
      · exact absurd r ho
      · exact .inl r
      · exact .inr ⟨by rw [r1], .inl r2⟩
    · rename_i h0
      have hpos := h.pos
      have := emit_shape e1
      subst this
      exact .inr ⟨rfl, .inr ⟨rfl, by simp only; unfold u32; omega⟩⟩
  obtain ⟨N, d2, os, e2, l2, p2, o2⟩ := finish hl hb hp d1 s1.inv (s1.stime.trans hst) (fun p hp => hps p (by rw [ha]; simp [hp])) df1
  exact ⟨1 + N, d2, [o] ++ os, gets_add fp l 1 N d d1 d2 _ _ (gets_one fp l e1) e2, by simp [l2]; omega, p2, o2⟩
termination_by (d.pp.length, owed debt st d, d.oblen)
decreasing_by
  rcases hlt with h1 | ⟨h1, h2 | ⟨h2, h3⟩⟩
  · exact Prod.Lex.left _ _ h1
  · rw [h1]; exact Prod.Lex.right _ (Prod.Lex.left _ _ h2)
  · rw [h1, h2]; exact Prod.Lex.right _ (Prod.Lex.right _ h3)

theorem eof_for_ever (fp : Fp T) (l : Lib K) (d : Dec T K) (h1 : d.pp = []) (h2 : d.oblen = 0) : ∀ k, gets fp l k d = .ok (d, List.replicate k .eof)
  | 0 => rfl
  | k + 1 => by
    have e : get fp l d = .ok (d, .eof) := by
      rw [get, if_pos h2, h1, refill, ← h1]
    rw [gets, e]
    simp only
    rw [eof_for_ever fp l d h1 h2 k]
    rfl

/-- Decoding ends: from some call on the end is reported. -/
theorem C48_ends_partial (fp : Fp T) (l : Lib K) (hl : l.Ok) (hb : l.g729 = true → l.bcg = true) {debt : T → T → Nat → Nat} (hp : Pays fp debt)
    (sp : List (Packet T)) (nosync : Bool) (hps : ∀ p ∈ sp, Whole l p ∧ p.info.ts < 4294967296)
    (hdf : ∀ q, sp.head? = some q → Defined fp q.time q.info.ts sp) :
    ∃ os, ∀ k, ∃ d, gets fp l (os.length + k) (Dec.new sp nosync) = .ok (d, os ++ List.replicate k .eof) := by
  cases sp with
  | nil => exact ⟨[], fun k => ⟨_, by rw [List.length_nil, Nat.zero_add, List.nil_append]; exact eof_for_ever fp l (Dec.new [] nosync) rfl rfl k⟩⟩
  | cons p ps =>
    obtain ⟨N, d, os, e, hl, h1, h2⟩ := finish hl hb hp (Dec.new (p :: ps) nosync : Dec T K) (new_inv _ _ _) rfl hps (hdf p rfl)
    subst hl
    exact ⟨os, fun k => ⟨d, gets_add fp l _ k _ _ _ _ _ e (eof_for_ever fp l d h1 h2 k)⟩⟩

/-! ## Exact arithmetic -/

def debt (t s : ℚ) (d : Nat) : Nat := ⌈(t - s) * 8000 - d⌉.toNat

theorem pays_exact : Pays exact debt where
  mono := fun t s a b h => by
    unfold debt
    have : (a : ℚ) ≤ b := by exact_mod_cast h
    exact Int.toNat_le_toNat (Int.ceil_mono (by linarith))
  pay := fun t s d x hl hx h0 => by
    unfold exact toU32 at hx
    unfold exact at hl
    simp only [decide_eq_true_eq] at hl
    simp only at hx
    split at hx
    · rename_i hr
      cases hx
      unfold debt
      generalize hX : (t - s) * 8000 - d = X at *
      have hX1 : X > 1600 := by linarith
      generalize hm : min ⌊X / 2⌋.toNat 4000 = m
      have hfl : (⌊X / 2⌋ : ℚ) ≤ X / 2 := Int.floor_le _
      have hm1 : 0 < m := by omega
      have hm2 : (m : ℤ) ≤ ⌊X / 2⌋ := by omega
      have hm3 : (m : ℚ) ≤ X / 2 := le_trans (by exact_mod_cast hm2) hfl
      have : (t - s) * 8000 - ((d + m : Nat) : ℚ) = X - (m : ℤ) := by push_cast; linarith
      rw [this, Int.ceil_sub_intCast]
      have h1 : (0 : ℤ) < ⌈X⌉ - m := by
        have h2 : X ≤ ⌈X⌉ := Int.le_ceil X
        have h3 : ((m : ℤ) : ℚ) < (⌈X⌉ : ℚ) := by push_cast; linarith
        have := Int.cast_lt.1 h3
        omega
      omega
    · cases hx

/-- Time stamps that do not go back, none beyond 32 bits, and times of arrival that do not go before that of the first packet
nor twelve days after it. -/
structure Steady (st : ℚ) (s : Nat) (ps : List (Packet ℚ)) : Prop where
  base : ∀ p ∈ ps, s ≤ p.info.ts ∧ p.info.ts < 4294967296 ∧ st ≤ p.time ∧ p.time - st < 1000000
  sorted : ps.Pairwise fun p q => p.info.ts ≤ q.info.ts

theorem sound_exact (st : ℚ) : Sound exact st (Steady st) where
  resync := fun s p ps h ha => by
    obtain ⟨h1, h2, h3, -⟩ := h.base p (by simp)
    unfold exact at ha
    simp only [decide_eq_true_eq] at ha
    have e : u32 (p.info.ts + 4294967296 - s) = p.info.ts - s := by unfold u32; omega
    rw [e] at ha
    have a1 : (p.info.ts - s) / 8000 * 8000 ≤ p.info.ts := by omega
    have a2 : (((p.info.ts - s) / 8000 : Nat) : ℚ) * 8000 ≤ p.info.ts := by exact_mod_cast a1
    have a3 : (p.info.ts : ℚ) < 4294967296 := by exact_mod_cast h2
    have a4 : 0 ≤ (p.info.ts : ℚ) - (p.time - st) * 8000 := by linarith
    refine ⟨⌊(p.info.ts : ℚ) - (p.time - st) * 8000⌋.toNat, ?_, ?_, h.sorted⟩
    · unfold exact toU32
      simp only
      rw [if_pos ⟨by linarith, by linarith⟩]
    · have b0 : ⌊(p.info.ts : ℚ) - (p.time - st) * 8000⌋.toNat ≤ p.info.ts := by
        have : ⌊(p.info.ts : ℚ) - (p.time - st) * 8000⌋ ≤ (p.info.ts : ℤ) := by
          rw [← Int.floor_intCast (R := ℚ) (p.info.ts : ℤ)]
          exact Int.floor_mono (by push_cast; linarith)
        omega
      intro q hq
      obtain ⟨c1, c2, c3, c4⟩ := h.base q hq
      rcases List.mem_cons.1 hq with rfl | hq
      · exact ⟨b0, c2, c3, c4⟩
      · have := (List.pairwise_cons.1 h.sorted).1 q hq
        exact ⟨by omega, c2, c3, c4⟩
  half := fun s p ps h d hl => by
    obtain ⟨h1, h2, h3, h4⟩ := h.base p (by simp)
    unfold exact at hl
    simp only [decide_eq_true_eq] at hl
    have hd : (0 : ℚ) ≤ d := by exact_mod_cast Nat.zero_le d
    have hx : (800 : ℚ) ≤ ((p.time - st) * 8000 - d) / 2 := by linarith
    refine ⟨⌊((p.time - st) * 8000 - d) / 2⌋.toNat, ?_, ?_⟩
    · unfold exact toU32
      simp only
      rw [if_pos ⟨by linarith, by linarith⟩]
    · have : (800 : ℤ) ≤ ⌊((p.time - st) * 8000 - d) / 2⌋ := Int.le_floor.2 (by exact_mod_cast hx)
      omega
  next := fun _ _ _ h => ⟨fun q hq => h.base q (by simp [hq]), (List.pairwise_cons.1 h.sorted).2⟩

/-- With exact arithmetic: if the time stamps do not go back, whatever the gaps between them and whatever the times of
arrival within twelve days of the first, no call is in error and in the end the end is reported. -/
theorem C48_steady_partial (l : Lib K) (hl : l.Ok) (hb : l.g729 = true → l.bcg = true) (p : Packet ℚ) (ps : List (Packet ℚ)) (nosync : Bool)
    (hps : ∀ q ∈ p :: ps, Whole l q) (hs : Steady p.time p.info.ts (p :: ps)) :
    ∃ os, (∀ o ∈ os, o ≠ .error ∧ (o = .skip → nosync = true) ∧ ∀ x, o = .sample x → Sample x) ∧
      ∀ k, ∃ d, gets exact l (os.length + k) (Dec.new (p :: ps) nosync) = .ok (d, os ++ List.replicate k .eof) := by
  have hd : ∀ q, (p :: ps).head? = some q → Defined exact q.time q.info.ts (p :: ps) := fun q hq => by
    cases hq
    exact ⟨_, sound_exact _, hs⟩
  obtain ⟨os, h⟩ := C48_ends_partial exact l hl hb pays_exact (p :: ps) nosync (fun q hq => ⟨hps q hq, (hs.base q hq).2.1⟩) hd
  obtain ⟨d1, os1, e1, -, k1⟩ := C48_safe_partial exact l hl hb (p :: ps) nosync hps hd os.length
  obtain ⟨d0, e0⟩ := h 0
  rw [Nat.add_zero, e1] at e0
  cases e0
  refine ⟨os, fun o ho => k1 o (by simp [ho]), h⟩

end Verif.Eaud
