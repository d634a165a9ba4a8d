import Verif.Srtp.Keys

/-! # One handshake -/

namespace Verif.Srtp

/-- What a handshake that succeeds leaves: `(c, h)` before, `c'` after. -/
structure Done (c : Conn) (h : Hs) (c' : Conn) : Prop where
  keys : ∃ p q m d o i, h.sel = some p ∧ p ∈ offered ∧ params p = some q ∧ h.exp (2 * (q.key + q.salt)) = some m ∧
    h.cert = some d ∧ (c.fp = [] ∨ c.fp = fpGen d) ∧ c'.out = some o ∧ c'.inn = some i ∧
    Keyed q m (decide (c.mode = .active)) o.key ∧ Keyed q m (!decide (c.mode = .active)) i.key ∧
    (o.cipher = q.cipher ∧ i.cipher = q.cipher) ∧ (o.rtpTag = q.rtpTag ∧ i.rtpTag = q.rtpTag) ∧ o.rtcpTag = i.rtcpTag ∧
    (p ≠ .cm32 → o.rtcpTag = q.rtcpTag) ∧ o.ssrc = none ∧ i.ssrc = if c.ssrc = 0 then none else some c.ssrc
  rest : c'.fp = c.fp ∧ c'.mode = c.mode ∧ c'.ssrc = c.ssrc

/-- Everything `recv` can do. -/
theorem recv_cases (c : Conn) (h : Hs) (hs : h.Sane) : ∃ c', recv c h = .ok c' ∧
    (c'.fp = c.fp ∧ c'.mode = c.mode ∧ c'.ssrc = c.ssrc) ∧ c'.st ≠ .init ∧
    (c.st = .dead → c'.st = .dead) ∧
    (c'.st = .up → (c.st = .up ∧ c' = c) ∨ (c.st ≠ .up ∧ h.before = false ∧ Done c h c')) := by
  obtain ⟨st, mode, fp, ssrc, out, inn⟩ := c
  obtain ⟨he, hc, hp, hj⟩ := hs
  unfold recv
  by_cases hd : st = .dead
  · exact ⟨_, if_pos hd, ⟨rfl, rfl, rfl⟩, by simp [hd], fun _ => hd, fun hu => by simp [hd] at hu⟩
  rw [if_neg (by simpa using hd)]
  have hst : ∃ st', (if (⟨st, mode, fp, ssrc, out, inn⟩ : Conn).st = .init then
      { (⟨st, mode, fp, ssrc, out, inn⟩ : Conn) with st := .connecting } else ⟨st, mode, fp, ssrc, out, inn⟩) =
        (⟨st', mode, fp, ssrc, out, inn⟩ : Conn) ∧ st' ≠ .init ∧ st' ≠ .dead ∧ (st' = .up ↔ st = .up) := by
    cases st
    · exact ⟨.connecting, rfl, by simp, by simp, by simp⟩
    · exact ⟨.connecting, rfl, by simp, by simp, by simp⟩
    · exact ⟨.up, rfl, by simp, by simp, by simp⟩
    · exact absurd rfl hd
  obtain ⟨st', e1, n1, n2, n3⟩ := hst
  have n4 : st' = .up → (⟨st', mode, fp, ssrc, out, inn⟩ : Conn) = ⟨st, mode, fp, ssrc, out, inn⟩ := fun hu => by
    rw [hu, n3.1 hu]
  simp only [e1]
  by_cases h1 : h.bio = true
  case neg =>
    simp only [h1]
    exact ⟨_, rfl, ⟨rfl, rfl, rfl⟩, n1, fun h => absurd h hd, fun hu => .inl ⟨n3.1 hu, n4 hu⟩⟩
  by_cases h2 : h.before = true
  · simp only [h1, h2]
    exact ⟨_, rfl, ⟨rfl, rfl, rfl⟩, n1, fun h => absurd h hd, fun hu => .inl ⟨n3.1 hu, n4 hu⟩⟩
  by_cases h3 : st' = .up
  · simp only [h1, h2, h3]
    exact ⟨_, rfl, ⟨rfl, rfl, rfl⟩, by simp, fun _ => rfl, fun hu => by simp at hu⟩
  by_cases h4 : h.step = true
  case neg =>
    simp only [h1, h2, h3, h4]
    exact ⟨_, rfl, ⟨rfl, rfl, rfl⟩, by simp, fun _ => rfl, fun hu => by simp at hu⟩
  by_cases h5 : h.after = true
  case neg =>
    simp only [h1, h2, h3, h4, h5]
    exact ⟨_, rfl, ⟨rfl, rfl, rfl⟩, n1, fun h => absurd h hd, fun hu => absurd hu h3⟩
  simp only [h1, h2, h3, h4, h5]
  cases hsel : h.sel with
  | none => exact ⟨_, rfl, ⟨rfl, rfl, rfl⟩, by simp, fun _ => rfl, fun hu => by simp at hu⟩
  | some p =>
    obtain ⟨su, s, q, s1, s2, s3, s4, s5, s6, s7, s8, s9, s10⟩ := suite_of_offered (hp p hsel)
    cases hx : h.exp (2 * (su.keySize + su.ivSize)) with
    | none =>
      obtain ⟨j1, j2, j3⟩ := hj
      have : keyinfo (some p) h.exp h.junk = .ok none := by
        simp only [keyinfo, s1, bind, Except.bind, hx]
        rw [if_neg (by omega), if_neg (by omega)]
      simp only [this]
      exact ⟨_, rfl, ⟨rfl, rfl, rfl⟩, by simp, fun _ => rfl, fun hu => by simp at hu⟩
    | some m =>
      obtain ⟨ck, sk, cs, ss, hm, l1, l2, l3, l4⟩ := parts m _ _ (he _ _ hx)
      rw [hm] at hx
      obtain ⟨r1, r2, hk⟩ := keyinfo_eq s1 (by omega) hx l1 l2 l3 l4 hj
      simp only [hk]
      cases hcert : h.cert with
      | none => exact ⟨_, rfl, ⟨rfl, rfl, rfl⟩, by simp, fun _ => rfl, fun hu => by simp at hu⟩
      | some d =>
        by_cases hf : fp ≠ [] ∧ fp ≠ fpGen d
        · simp only [if_pos hf]
          exact ⟨_, rfl, ⟨rfl, rfl, rfl⟩, by simp, fun _ => rfl, fun hu => by simp at hu⟩
        simp only [if_neg hf]
        have a1 := fun z => setup_eq s2 (a := ck) (b := cs) (r := r1) (by omega) z
        have a2 := fun z => setup_eq s2 (a := sk) (b := ss) (r := r2) (by omega) z
        have hf' : fp = [] ∨ fp = fpGen d := by
          by_cases hf1 : fp = []
          · exact .inl hf1
          · exact .inr (Classical.not_not.1 fun hf2 => hf ⟨hf1, hf2⟩)
        have kc : ∀ b : Bool, Keyed q m b (if b then ck ++ cs else sk ++ ss) := fun b =>
          ⟨ck, sk, cs, ss, hm, l1.trans s4, l2.trans s4, l3.trans s5, l4.trans s5, rfl⟩
        rw [s4, s5, ← hm] at hx
        by_cases hmode : mode = .active
        · simp only [hmode, if_true, a1, a2]
          by_cases m1 : h.makes1 = true
          case neg =>
            simp only [m1]
            exact ⟨_, rfl, ⟨rfl, hmode.symm ▸ rfl, rfl⟩, by simp, fun _ => rfl, fun hu => by simp at hu⟩
          by_cases m2 : h.makes2 = true
          case neg =>
            simp only [m1, m2]
            exact ⟨_, rfl, ⟨rfl, hmode.symm ▸ rfl, rfl⟩, by simp, fun _ => rfl, fun hu => by simp at hu⟩
          simp only [m1, m2]
          refine ⟨_, rfl, ⟨rfl, rfl, rfl⟩, by simp, fun h => absurd h hd, fun _ => .inr ⟨fun h => h3 (n3.2 h), by trivial, ?_⟩⟩
          exact ⟨⟨p, q, m, d, _, _, hsel, hp p hsel, s3, hx, hcert, hf', rfl, rfl, by simpa using kc true, by simpa using kc false,
            ⟨s7, s7⟩, ⟨s6, s6⟩, rfl, s10, rfl, rfl⟩, rfl, rfl, rfl⟩
        · simp only [hmode, if_false, a1, a2]
          by_cases m1 : h.makes1 = true
          case neg =>
            simp only [m1]
            exact ⟨_, rfl, ⟨rfl, rfl, rfl⟩, by simp, fun _ => rfl, fun hu => by simp at hu⟩
          by_cases m2 : h.makes2 = true
          case neg =>
            simp only [m1, m2]
            exact ⟨_, rfl, ⟨rfl, rfl, rfl⟩, by simp, fun _ => rfl, fun hu => by simp at hu⟩
          simp only [m1, m2]
          refine ⟨_, rfl, ⟨rfl, rfl, rfl⟩, by simp, fun h => absurd h hd, fun _ => .inr ⟨fun h => h3 (n3.2 h), by trivial, ?_⟩⟩
          exact ⟨⟨p, q, m, d, _, _, hsel, hp p hsel, s3, hx, hcert, hf', rfl, rfl, by simpa [hmode] using kc false,
            by simpa [hmode] using kc true, ⟨s7, s7⟩, ⟨s6, s6⟩, rfl, s10, rfl, rfl⟩, rfl, rfl, rfl⟩

end Verif.Srtp
