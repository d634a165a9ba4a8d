import Verif.Srtp.Shake

/-!
# C85: keys, roles and fingerprints of DTLS

Full claim: a connection that comes up has the keys of RFC 5764 for its role and the profile agreed upon, is with the peer
whose certificate the latest command named, and takes only the source named; nothing is read or written outside the buffers.
It fails for the tag of RTCP with the short-tag profile (`C85_rtcp_tag_counterexample`), for commands that are refused
(`C85_refused_counterexample`), for fingerprints in small letters (`C85_small_letters_counterexample`) and for sources that
are not numbers of 32 bits (`C85_source_counterexample`); hence `_partial`.
-/

namespace Verif.Srtp

/-! ## Commands -/

/-- What an accepted command leaves. -/
theorem setmode_accepted {c c' : Conn} {s : Spec} {k : Bool} {my : Mode} (h : setmode c (some s) k = (c', some my)) :
    (my = pickmode s.peer ∧ c'.mode = my ∧ s.alg = algName ∧ s.fp.length = 95 ∧ c'.fp = algName ++ 32 :: s.fp) ∧
      (s.ssrc = none ∧ c'.ssrc = c.ssrc ∨ ∃ x, s.ssrc = some x ∧ ssrcOf x = some c'.ssrc) ∧
      (c'.out = c.out ∧ c'.inn = c.inn) ∧ (c.st ≠ .init → c.mode = my ∧ c'.st = c.st) ∧ (c'.st = .up → c.st = .up) := by
  unfold setmode at h
  simp only at h
  by_cases h1 : pickmode s.peer ≠ c.mode ∧ c.st ≠ .init
  · rw [if_pos h1] at h; cases h
  rw [if_neg h1] at h
  by_cases h2 : s.alg ≠ algName
  · rw [if_pos h2] at h; cases h
  rw [if_neg h2] at h
  by_cases h3 : s.fp.length ≠ 95
  · rw [if_pos h3] at h; cases h
  rw [if_neg h3] at h
  have h2 := Classical.not_not.1 h2
  have h3 := Classical.not_not.1 h3
  have h1' : c.st ≠ .init → pickmode s.peer = c.mode := fun hn => Classical.not_not.1 fun hm => h1 ⟨hm, hn⟩
  rw [h2] at h
  cases hs : s.ssrc with
  | none =>
    simp only [hs, Option.map_none] at h
    by_cases h4 : pickmode s.peer = .active ∧ c.st = .init
    · rw [if_pos h4] at h
      cases k
      · simp at h
      · simp only [if_true, Prod.mk.injEq, Option.some.injEq] at h
        obtain ⟨rfl, rfl⟩ := h
        exact ⟨⟨rfl, rfl, h2, h3, rfl⟩, .inl ⟨rfl, rfl⟩, ⟨rfl, rfl⟩, fun hn => absurd h4.2 hn, fun hu => by simp at hu⟩
    · rw [if_neg h4] at h
      simp only [Prod.mk.injEq, Option.some.injEq] at h
      obtain ⟨rfl, rfl⟩ := h
      exact ⟨⟨rfl, rfl, h2, h3, rfl⟩, .inl ⟨rfl, rfl⟩, ⟨rfl, rfl⟩, fun hn => ⟨(h1' hn).symm, rfl⟩, id⟩
  | some x =>
    simp only [hs, Option.map_some] at h
    cases hv : ssrcOf x with
    | none => simp [hv] at h
    | some v =>
      simp only [hv] at h
      by_cases h4 : pickmode s.peer = .active ∧ c.st = .init
      · rw [if_pos h4] at h
        cases k
        · simp at h
        · simp only [if_true, Prod.mk.injEq, Option.some.injEq] at h
          obtain ⟨rfl, rfl⟩ := h
          exact ⟨⟨rfl, rfl, h2, h3, rfl⟩, .inr ⟨x, rfl, hv⟩, ⟨rfl, rfl⟩, fun hn => absurd h4.2 hn, fun hu => by simp at hu⟩
      · rw [if_neg h4] at h
        simp only [Prod.mk.injEq, Option.some.injEq] at h
        obtain ⟨rfl, rfl⟩ := h
        exact ⟨⟨rfl, rfl, h2, h3, rfl⟩, .inr ⟨x, rfl, hv⟩, ⟨rfl, rfl⟩, fun hn => ⟨(h1' hn).symm, rfl⟩, id⟩

theorem ssrcOf_digits {x : Bytes} {n : Nat} (h : Str.DigitsDenote x n) (hn : n < 4294967296) : ssrcOf x = some n := by
  obtain ⟨h1, h2, h3⟩ := h.spec
  obtain ⟨a, t, rfl⟩ : ∃ a t, x = a :: t := by
    cases x with
    | nil => exact absurd rfl h1
    | cons a t => exact ⟨a, t, rfl⟩
  have ha := h2 a (by simp)
  have hs : (a :: t).takeWhile Str.isSpace = [] := by
    rw [List.takeWhile_cons, Str.not_space_of_digit ha]; rfl
  have hg : Str.signOf (a :: t) = (0, false) := by
    simp only [Str.isDigit, decide_eq_true_eq] at ha
    have e1 : a ≠ 45 := by rintro rfl; simp at ha
    have e2 : a ≠ 43 := by rintro rfl; simp at ha
    simp [Str.signOf, e1, e2]
  have hd : (a :: t).takeWhile Str.isDigit = a :: t := by
    have := Str.takeWhile_prefix (b := []) h2 (by simp)
    rwa [List.append_nil] at this
  simp only [ssrcOf, hs, List.length_nil, List.drop_zero, hg, Nat.add_zero, hd]
  rw [if_neg (by simp), h3, if_neg (by omega)]
  simp only [Bool.false_eq_true, if_false, Nat.mod_eq_of_lt hn]

/-- What is taken for a source: a numeral and nothing else. -/
theorem ssrcOf_iff (x : Bytes) : (ssrcOf x).isSome ↔ ∃ v, Str.Numeral x v := by
  have hused : (Str.strtol x).used = if ((x.drop ((x.takeWhile Str.isSpace).length +
      (Str.signOf (x.drop (x.takeWhile Str.isSpace).length)).1)).takeWhile Str.isDigit) = [] then 0 else
      (x.takeWhile Str.isSpace).length + (Str.signOf (x.drop (x.takeWhile Str.isSpace).length)).1 +
        ((x.drop ((x.takeWhile Str.isSpace).length +
          (Str.signOf (x.drop (x.takeWhile Str.isSpace).length)).1)).takeWhile Str.isDigit).length := by
    simp only [Str.strtol]
    repeat' split
    all_goals rfl
  have key : (ssrcOf x).isSome ↔ (Str.strtol x).used ≠ 0 ∧ (Str.strtol x).used = x.length := by
    rw [hused]
    simp only [ssrcOf]
    generalize (x.takeWhile Str.isSpace).length = ws
    generalize Str.signOf _ = sg
    generalize hds : (x.drop (ws + sg.1)).takeWhile Str.isDigit = ds
    by_cases h1 : ds = []
    · rw [if_pos (.inl h1), if_pos h1]; simp
    · have hpos : 0 < ds.length := List.length_pos_iff.2 h1
      rw [if_neg h1]
      by_cases h2 : ws + sg.1 + ds.length ≠ x.length
      · rw [if_pos (.inr h2)]; simp [h2]
      · rw [if_neg (by rintro (h | h); exacts [h1 h, h2 h])]
        have h2 := Classical.not_not.1 h2
        constructor
        · intro _; exact ⟨by omega, h2⟩
        · intro _
          split
          · rfl
          · split <;> rfl
  rw [key]
  constructor
  · rintro ⟨h1, h2⟩
    obtain ⟨p, rest, v, rfl, hn, hr⟩ := Str.strtol_prefix h1
    have := (Str.strtol_numeral hn hr).1
    rw [this, List.length_append] at h2
    have : rest = [] := List.length_eq_zero_iff.1 (by omega)
    rw [this, List.append_nil]
    exact ⟨v, hn⟩
  · rintro ⟨v, hn⟩
    obtain ⟨h1, -, h3⟩ := Str.strtol_numeral (rest := []) hn (by intro c hc; simp at hc)
    rw [List.append_nil] at h1
    exact ⟨by rw [h1]; exact fun h => h3 (List.length_eq_zero_iff.1 h), h1⟩

/-- What the connection has been told. -/
theorem told (past : List Ev) (ha : Accepted past) (hs : Sane past) : ∃ c, run past = .ok c ∧
    c.fp = ((expected past).map fun f => algName ++ 32 :: f).getD [] ∧
    c.mode = ((asked past).map pickmode).getD .actpass ∧
    (source past = none → c.ssrc = 0) ∧ (∀ x, source past = some x → ssrcOf x = some c.ssrc) := by
  induction past with
  | nil => exact ⟨_, rfl, rfl, rfl, fun _ => rfl, fun x hx => by cases hx⟩
  | cons e past ih =>
    cases e with
    | dgram h =>
      obtain ⟨c, hc, h1, h2, h3, h4⟩ := ih ha hs.2
      obtain ⟨c', hr, ⟨f1, f2, f3⟩, -⟩ := recv_cases c h hs.1
      refine ⟨c', by rw [run, hc]; exact hr, ?_, ?_, ?_, ?_⟩
      · rw [f1]; exact h1
      · rw [f2]; exact h2
      · rw [f3]; exact h3
      · rw [f3]; exact h4
    | godead =>
      obtain ⟨c, hc, h1, h2, h3, h4⟩ := ih ha hs
      exact ⟨godead c, by rw [run, hc]; rfl, h1, h2, h3, h4⟩
    | cmd sp k =>
      obtain ⟨c, hc, h1, h2, h3, h4⟩ := ih ha.2 hs
      have hacc := ha.1 c hc
      cases sp with
      | none => exact ⟨c, by rw [run, hc]; rfl, h1, h2, h3, h4⟩
      | some s =>
        obtain ⟨my, hmy⟩ := Option.isSome_iff_exists.1 hacc
        have hset : setmode c (some s) k = ((setmode c (some s) k).1, some my) := Prod.ext rfl hmy
        obtain ⟨⟨g1, g2, g3, g4, g5⟩, g6, -⟩ := setmode_accepted hset
        refine ⟨_, by rw [run, hc]; rfl, ?_, ?_, ?_, ?_⟩
        · rw [g5]; rfl
        · rw [g2, g1]; rfl
        · obtain ⟨pe, al, fp, sr⟩ := s
          cases sr with
          | none =>
            intro hn
            rcases g6 with ⟨-, g6⟩ | ⟨x, g6, -⟩
            · rw [g6]; exact h3 hn
            · cases g6
          | some x => intro hn; cases hn
        · obtain ⟨pe, al, fp, sr⟩ := s
          cases sr with
          | none =>
            intro x hx
            rcases g6 with ⟨-, g6⟩ | ⟨y, g6, -⟩
            · rw [g6]; exact h4 x hx
            · cases g6
          | some x =>
            intro y hy
            rcases g6 with ⟨g6, -⟩ | ⟨z, g6, g7⟩
            · cases g6
            · cases g6; cases hy; exact g7

/-! ## The claims -/

/-- C85. Nothing is read or written outside the buffers, and no check aborts, whatever is asked for and received. -/
theorem C85_safe (past : List Ev) (h : Sane past) : ∃ c, run past = .ok c := by
  induction past with
  | nil => exact ⟨_, rfl⟩
  | cons e past ih =>
    cases e with
    | dgram k =>
      obtain ⟨c, hc⟩ := ih h.2
      obtain ⟨c', hr, -⟩ := recv_cases c k h.1
      exact ⟨c', by rw [run, hc]; exact hr⟩
    | cmd sp k => obtain ⟨c, hc⟩ := ih h; exact ⟨_, by rw [run, hc]; rfl⟩
    | godead => obtain ⟨c, hc⟩ := ih h; exact ⟨_, by rw [run, hc]; rfl⟩

/-- C85. A connection that is up came up with some handshake.  The peer had the certificate named by the latest command
before it, if there was one.  What it sends is protected with the client's part of the keying material if the peer was to be
passive and with the server's otherwise, what it receives is opened with the other, both with the cipher and the tags of
the profile, and only what comes from the source named is taken. -/
theorem C85_up_partial (past : List Ev) (hs : Sane past) (ha : Accepted past) (c : Conn) (hr : run past = .ok c)
    (hu : c.st = .up) : ∃ later h earlier, past = later ++ .dgram h :: earlier ∧
      ∃ p q m d o i, h.sel = some p ∧ p ∈ offered ∧ params p = some q ∧ h.exp (2 * (q.key + q.salt)) = some m ∧ h.cert = some d ∧
        c.out = some o ∧ c.inn = some i ∧
        (∀ f, expected earlier = some f → Denotes f d) ∧
        Keyed q m (decide (asked earlier = some .passive)) o.key ∧ Keyed q m (!decide (asked earlier = some .passive)) i.key ∧
        (o.cipher = q.cipher ∧ i.cipher = q.cipher) ∧ (o.rtpTag = q.rtpTag ∧ i.rtpTag = q.rtpTag) ∧
        (p ≠ .cm32 → o.rtcpTag = q.rtcpTag ∧ i.rtcpTag = q.rtcpTag) ∧ o.ssrc = none ∧
        (source earlier = none → i.ssrc = none) ∧
        ∀ x n, source earlier = some x → Str.DigitsDenote x n → 0 < n → n < 4294967296 → i.ssrc = some n := by
  induction past generalizing c with
  | nil => rw [run] at hr; cases hr; cases hu
  | cons e past ih =>
    cases e with
    | godead =>
      obtain ⟨c0, hc⟩ := C85_safe past hs
      rw [run, hc] at hr
      cases hr; cases hu
    | cmd sp k =>
      obtain ⟨c0, hc⟩ := C85_safe past hs
      rw [run, hc] at hr
      have hacc := ha.1 c0 hc
      have hkeep : c0.st = .up ∧ c.out = c0.out ∧ c.inn = c0.inn := by
        cases sp with
        | none => cases hr; exact ⟨hu, rfl, rfl⟩
        | some s =>
          obtain ⟨my, hmy⟩ := Option.isSome_iff_exists.1 hacc
          have hset : setmode c0 (some s) k = ((setmode c0 (some s) k).1, some my) := Prod.ext rfl hmy
          obtain ⟨-, -, ⟨g1, g2⟩, -, g3⟩ := setmode_accepted hset
          cases hr
          exact ⟨g3 hu, g1, g2⟩
      obtain ⟨later, h, earlier, e1, p, q, m, d, o, i, rest⟩ := ih hs ha.2 c0 hc hkeep.1
      rw [← hkeep.2.1, ← hkeep.2.2] at rest
      exact ⟨_ :: later, h, earlier, by rw [e1]; rfl, p, q, m, d, o, i, rest⟩
    | dgram h =>
      obtain ⟨c0, hc, t1, t2, t3, t4⟩ := told past ha hs.2
      rw [run, hc] at hr
      obtain ⟨c', hr', -, -, -, hcases⟩ := recv_cases c0 h hs.1
      have : c' = c := by
        have := hr'.symm.trans hr
        cases this; rfl
      subst this
      rcases hcases hu with ⟨hu0, rfl⟩ | ⟨-, -, hd⟩
      · obtain ⟨later, h', earlier, e1, rest⟩ := ih hs.2 ha _ hc hu0
        exact ⟨_ :: later, h', earlier, by rw [e1]; rfl, rest⟩
      · obtain ⟨⟨p, q, m, d, o, i, d1, d2, d3, d4, d5, d6, d7, d8, d9, d10, d11, d12, d13, d14, d15, d16⟩, -⟩ := hd
        have hmode : (c0.mode = .active) ↔ (asked past = some .passive) := by
          rw [t2]
          rcases asked past with _ | _ | _ | _ <;> simp [pickmode]
        have hdm : decide (c0.mode = .active) = decide (asked past = some .passive) := decide_eq_decide.2 hmode
        rw [hdm] at d9 d10
        refine ⟨[], h, past, rfl, p, q, m, d, o, i, d1, d2, d3, d4, d5, d7, d8, ?_, d9, d10, d11, d12,
          fun hp => ⟨d14 hp, d13 ▸ d14 hp⟩, d15, ?_, ?_⟩
        · intro f hf
          rw [hf] at t1
          rcases d6 with d6 | d6
          · rw [t1] at d6; simp [algName] at d6
          · rw [t1, fpGen] at d6
            have : f = colons d := by
              have := List.append_cancel_left d6
              exact (List.cons.inj this).2
            rw [this]
            refine colons_denotes d fun hd => ?_
            have := hs.1.2.1 d d5
            rw [hd] at this; cases this
        · intro hn; rw [d16, t3 hn, if_pos rfl]
        · intro x n hx hd h0 hn
          have := t4 x hx
          rw [ssrcOf_digits hd hn] at this
          cases this
          rw [d16, if_neg (by omega)]

/-- C85. Two ends with the same keying material, one active and one not: what either sends is opened by the other. -/
theorem C85_two_ends (c1 c2 c1' c2' : Conn) (h1 h2 : Hs) (s1 : h1.Sane) (s2 : h2.Sane) (m1 : c1.mode = .active)
    (m2 : c2.mode ≠ .active) (he : h1.exp = h2.exp) (hp : h1.sel = h2.sel) (n1 : c1.st ≠ .up) (n2 : c2.st ≠ .up)
    (r1 : recv c1 h1 = .ok c1') (r2 : recv c2 h2 = .ok c2') (u1 : c1'.st = .up) (u2 : c2'.st = .up) :
    ∃ o1 i1 o2 i2, c1'.out = some o1 ∧ c1'.inn = some i1 ∧ c2'.out = some o2 ∧ c2'.inn = some i2 ∧
      (o1.cipher, o1.key, o1.rtpTag) = (i2.cipher, i2.key, i2.rtpTag) ∧
      (o2.cipher, o2.key, o2.rtpTag) = (i1.cipher, i1.key, i1.rtpTag) := by
  obtain ⟨x, e1, -, -, -, k1⟩ := recv_cases c1 h1 s1
  obtain ⟨y, e2, -, -, -, k2⟩ := recv_cases c2 h2 s2
  cases r1.symm.trans e1
  cases r2.symm.trans e2
  rcases k1 u1 with ⟨z, -⟩ | ⟨-, -, ⟨⟨p, q, m, d, o, i, d1, d2, d3, d4, d5, d6, d7, d8, d9, d10, d11, d12, d13, d14, d15, d16⟩, -⟩⟩
  · exact absurd z n1
  rcases k2 u2 with ⟨z, -⟩ | ⟨-, -, ⟨⟨p', q', m', d', o', i', f1, f2, f3, f4, f5, f6, f7, f8, f9, f10, f11, f12, f13, f14, f15, f16⟩, -⟩⟩
  · exact absurd z n2
  rw [← hp, d1] at f1
  cases f1
  rw [d3] at f3
  cases f3
  rw [← he, d4] at f4
  cases f4
  have t1 : decide (c1.mode = .active) = true := decide_eq_true m1
  have t2 : decide (c2.mode = .active) = false := decide_eq_false m2
  rw [t1] at d9 d10
  rw [t2] at f9 f10
  refine ⟨o, i, o', i', d7, d8, f7, f8, ?_, ?_⟩
  · rw [d11.1, f11.2, d12.1, f12.2, d9.unique f10]
  · rw [f11.1, d11.2, f12.1, d12.2, f9.unique d10]

/-- C85. The role taken is the one opposite to the peer's, and whoever may be either is waited for. -/
theorem C85_role (past : List Ev) (hs : Sane past) (ha : Accepted past) (c : Conn) (hr : run past = .ok c) :
    (asked past = some .active → c.mode = .passive) ∧ (asked past = some .passive → c.mode = .active) ∧
      (asked past = some .actpass → c.mode = .passive) ∧ (asked past = none → c.mode ≠ .active) := by
  obtain ⟨c', hc, -, t, -⟩ := told past ha hs
  cases hr.symm.trans hc
  rw [t]
  refine ⟨?_, ?_, ?_, ?_⟩ <;> intro h <;> rw [h] <;> simp [pickmode]

/-- A fingerprint without small letters is as it is generated. -/
theorem text_eq : ∀ (f d : Bytes), Denotes f d → (∀ b ∈ f, b.toNat < 97) → f = colons d
  | [h, l], [a], ⟨h1, h2⟩, hb => by
    rw [colons, digit_eq h1 (hb h (by simp)), digit_eq h2 (hb l (by simp))]
  | h :: l :: c :: t, [a], ⟨h1, h2, h3, h4⟩, hb => by
    exfalso
    match t, h4 with
    | [], h4 => exact h4
    | [_], h4 => exact h4
    | [_, _], h4 => exact h4
    | _ :: _ :: _ :: _, h4 => exact h4
  | h :: l :: c :: t, a :: b :: d, ⟨h1, h2, h3, h4⟩, hb => by
    rw [colons, digit_eq h1 (hb h (by simp)), digit_eq h2 (hb l (by simp)), h3,
      text_eq t (b :: d) h4 fun x hx => hb x (by simp [hx])]

/-- C85. The peer whose certificate is named in capital letters is accepted, and so is anyone while none is named. -/
theorem C85_comes_up (past : List Ev) (hs : Sane past) (ha : Accepted past) (c : Conn) (hr : run past = .ok c)
    (hn : c.st = .init ∨ c.st = .connecting) (h : Hs) (hh : h.Sane) (hb : h.bio = true) (h1 : h.before = false) (h2 : h.step = true)
    (h3 : h.after = true) (p : Prof) (h4 : h.sel = some p) (h5 : ∀ n, (h.exp n).isSome) (d : Bytes) (h6 : h.cert = some d)
    (h7 : h.makes1 = true) (h8 : h.makes2 = true)
    (hf : ∀ f, expected past = some f → Denotes f d ∧ ∀ b ∈ f, b.toNat < 97) :
    ∃ c', run (.dgram h :: past) = .ok c' ∧ c'.st = .up := by
  obtain ⟨c0, hc, t, -⟩ := told past ha hs
  cases hr.symm.trans hc
  obtain ⟨he, hd, hp, hj⟩ := hh
  obtain ⟨su, s, q, s1, s2, s3, s4, s5, s6, s7, s8, s9, s10⟩ := suite_of_offered (hp p h4)
  obtain ⟨m, hx⟩ := Option.isSome_iff_exists.1 (h5 (2 * (su.keySize + su.ivSize)))
  obtain ⟨ck, sk, cs, ss, hm, l1, l2, l3, l4⟩ := parts m _ _ (he _ _ hx)
  rw [hm] at hx
  obtain ⟨r1, r2, hk⟩ := keyinfo_eq s1 (by omega) hx l1 l2 l3 l4 hj
  have a1 := fun z => setup_eq s2 (a := ck) (b := cs) (r := r1) (by omega) z
  have a2 := fun z => setup_eq s2 (a := sk) (b := ss) (r := r2) (by omega) z
  have hfp : c.fp = [] ∨ c.fp = fpGen d := by
    rw [t]
    cases hex : expected past with
    | none => exact .inl rfl
    | some f =>
      obtain ⟨f1, f2⟩ := hf f hex
      exact .inr (by rw [fpGen, ← text_eq f d f1 f2]; rfl)
  obtain ⟨st, mode, fp, ssrc, out, inn⟩ := c
  simp only [run, hc, step, recv]
  rcases hn with hn | hn <;> simp only at hn <;> subst hn <;> by_cases hmode : mode = .active <;>
    rcases hfp with hfp | hfp <;> simp only at hfp <;> subst hfp <;>
    simp [hb, h1, h2, h3, h4, h6, h7, h8, hk, a1, a2, hmode]

/-! ## The subcommand -/

/-- The capital and the small letter. -/
def Says (b : UInt8) : Letter → Prop
  | .a => b = 65 ∨ b = 97
  | .p => b = 80 ∨ b = 112
  | .s => b = 83 ∨ b = 115
  | .d => b = 68 ∨ b = 100
  | .u => b = 85 ∨ b = 117

theorem letter_says (b : UInt8) (l : Letter) : letter b = some l ↔ Says b l := by
  constructor
  · unfold letter
    intro h
    split at h
    · cases h; rename_i h; exact h.symm
    split at h
    · cases h; rename_i h; exact h.symm
    split at h
    · cases h; rename_i h; exact h.symm
    split at h
    · cases h; rename_i h; exact h.symm
    split at h
    · cases h; rename_i h; exact h.symm
    · cases h
  · intro h
    cases l <;> rcases h with rfl | rfl <;> decide

theorem upper_sha : ∀ alg : Bytes, alg.map upper = algName ↔ sameText alg "sha-256" := by
  have key : ∀ (b : UInt8), (upper b = 83 ↔ (if 65 ≤ b.toNat ∧ b.toNat ≤ 90 then b.toNat + 32 else b.toNat) = 115) ∧
      (upper b = 72 ↔ (if 65 ≤ b.toNat ∧ b.toNat ≤ 90 then b.toNat + 32 else b.toNat) = 104) ∧
      (upper b = 65 ↔ (if 65 ≤ b.toNat ∧ b.toNat ≤ 90 then b.toNat + 32 else b.toNat) = 97) ∧
      (upper b = 45 ↔ (if 65 ≤ b.toNat ∧ b.toNat ≤ 90 then b.toNat + 32 else b.toNat) = 45) ∧
      (upper b = 50 ↔ (if 65 ≤ b.toNat ∧ b.toNat ≤ 90 then b.toNat + 32 else b.toNat) = 50) ∧
      (upper b = 53 ↔ (if 65 ≤ b.toNat ∧ b.toNat ≤ 90 then b.toNat + 32 else b.toNat) = 53) ∧
      (upper b = 54 ↔ (if 65 ≤ b.toNat ∧ b.toNat ≤ 90 then b.toNat + 32 else b.toNat) = 54) := by
    intro b
    obtain ⟨n, hn, rfl⟩ : ∃ n, n < 256 ∧ b = UInt8.ofNat n := ⟨b.toNat, b.toNat_lt, by simp⟩
    revert n
    decide +kernel
  intro alg
  have hs : "sha-256".toList.map Char.toNat = [115, 104, 97, 45, 50, 53, 54] := by decide
  unfold sameText
  rw [hs, algName]
  match alg with
  | [] => simp
  | [a] => simp
  | [a, b] => simp
  | [a, b, c] => simp
  | [a, b, c, d] => simp
  | [a, b, c, d, e] => simp
  | [a, b, c, d, e, f] => simp
  | [a, b, c, d, e, f, g] =>
    simp only [List.map_cons, List.map_nil, List.cons.injEq, and_true]
    rw [(key a).1, (key b).2.1, (key c).2.2.1, (key d).2.2.2.1, (key e).2.2.2.2.1, (key f).2.2.2.2.2.1, (key g).2.2.2.2.2.2]
  | a :: b :: c :: d :: e :: f :: g :: h :: t => simp

/-- C85. What a subcommand with a single letter asks for: nothing but the letter for S, D and U; algorithm, fingerprint and
possibly a source for A (an active peer) and P (a passive one). -/
theorem C85_command (b nxt : UInt8) (rest : List Bytes) (l : Letter) (sp : Option Spec) :
    parse ([b] :: rest) nxt = some (l, sp) ↔ Says b l ∧
      (rest = [] ∧ sp = none ∧ (l = .s ∨ l = .d ∨ l = .u) ∨
       ∃ alg fp more, rest = alg :: fp :: more ∧ more.length ≤ 1 ∧ alg.length ≤ 7 ∧
         ∃ up : Bytes, sp = some ⟨if l = .a then .active else .passive, up, fp, more.head?⟩ ∧ up = alg.map upper ∧ (l = .a ∨ l = .p)) := by
  rw [← letter_says]
  have hb : letterByte [b] nxt = b := by simp [letterByte]
  match rest with
  | [] =>
    simp only [parse, hb]
    rcases letter b with _ | _ | _ | _ | _ | _ <;> cases l <;> simp [eq_comm]
  | [x] => simp [parse]
  | alg :: fp :: more =>
    simp only [parse, hb]
    by_cases h1 : 1 < more.length
    · rw [if_pos h1]
      constructor
      · intro h; cases h
      · rintro ⟨-, ⟨h, -⟩ | ⟨a', f', m', h, h2, -⟩⟩
        · cases h
        · cases h; omega
    rw [if_neg h1]
    by_cases h2 : 7 < alg.length
    · constructor
      · intro h
        rcases hl : letter b with _ | _ | _ | _ | _ | _ <;> simp [h2, hl] at h
      · rintro ⟨-, ⟨h, -⟩ | ⟨a', f', m', h, -, h3, -⟩⟩
        · cases h
        · cases h; omega
    · constructor
      · intro h
        rcases hl : letter b with _ | _ | _ | _ | _ | _ <;> simp [h2, hl] at h
        · obtain ⟨rfl, rfl⟩ := h
          exact ⟨rfl, .inr ⟨alg, fp, more, rfl, by omega, by omega, _, rfl, rfl, .inl rfl⟩⟩
        · obtain ⟨rfl, rfl⟩ := h
          exact ⟨rfl, .inr ⟨alg, fp, more, rfl, by omega, by omega, _, rfl, rfl, .inr rfl⟩⟩
      · rintro ⟨hl, ⟨h, -⟩ | ⟨a', f', m', h, -, -, up, rfl, rfl, h3⟩⟩
        · cases h
        · cases h
          rcases h3 with rfl | rfl <;> simp [hl, h2]

/-- C85. Of the algorithms, SHA-256 is taken, in letters of either case, and no other; a fingerprint has 95 characters; a
source is a numeral. -/
theorem C85_accepts (b nxt : UInt8) (alg fp : Bytes) (more : List Bytes) (l : Letter) (s : Spec)
    (hp : parse ([b] :: alg :: fp :: more) nxt = some (l, some s)) (k : Bool) :
    (setmode {} (some s) k).2.isSome ↔ sameText alg "sha-256" ∧ fp.length = 95 ∧ (∀ x ∈ more, ∃ v, Str.Numeral x v) ∧
      (l = .p → k = true) := by
  simp only [← ssrcOf_iff]
  obtain ⟨-, ⟨h, -⟩ | ⟨a', f', m', h, h2, -, up, hs, hup, h3⟩⟩ := (C85_command b nxt _ l (some s)).1 hp
  · cases h
  cases h
  cases hs
  rw [← upper_sha, ← hup]
  have hm : more = [] ∨ ∃ x, more = [x] := by
    match more, h2 with
    | [], _ => exact .inl rfl
    | [x], _ => exact .inr ⟨x, rfl⟩
  by_cases g1 : up = algName
  case neg => simp [setmode, g1]
  by_cases g2 : fp.length = 95
  case neg => simp [setmode, g1, g2]
  rcases hm with rfl | ⟨x, rfl⟩
  · rcases h3 with rfl | rfl <;> cases k <;> simp [setmode, g1, g2, pickmode]
  · cases hx : ssrcOf x with
    | none => simp [setmode, g1, g2, hx]
    | some v => rcases h3 with rfl | rfl <;> cases k <;> simp [setmode, g1, g2, pickmode, hx]

end Verif.Srtp
