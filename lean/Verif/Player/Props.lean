import Verif.Player.Step

/-!
# C34: what a player sends

Partial: what is left of the prompt after the last whole piece is not played (`C34_tail_counterexample`), a codec that is not known is never
finished (`C34_codec_counterexample`), and the counter of repetitions of an `int` of its own choosing may overflow
(`C34_overflow_counterexample`); see `Cases.lean`.
-/

namespace Verif.Player

theorem inv_start (f : List UInt8) (codec n : Nat) (times ptime : Int) (seq ts ssrc : Nat) (btime : ℚ) (hc : codec < 128) :
    Inv ⟨f, codec, n, Codec.ms codec (period ptime), times, seq, ts, ssrc, (period ptime : Nat), btime⟩ 0 0
      (start (ctor codec times ptime seq ts ssrc) btime) where
  pt := by
    show (((codec : Int) % 128)).toNat = codec
    omega
  mbt := rfl
  seq := rfl
  ts := by show ts % 2 ^ 32 = (ts + 0 * _) % 2 ^ 32; rw [Nat.zero_mul, Nat.add_zero]
  ssrc := rfl
  pos := rfl
  loop := by
    show (if times > 0 then times - 1 else times) = left _ 0
    unfold left
    simp only
    split <;> split <;> simp_all
  dts := by show 0 = (0 + 0) * _; rw [Nat.zero_add, Nat.zero_mul]
  ptime := by
    show (if ptime > 0 then ptime else 10) = ((period ptime : Nat) : Int)
    unfold period
    split <;> omega
  started := rfl
  btime := rfl
  prev := Or.inl rfl

theorem good_start {f : List UInt8} {codec n : Nat} {ptime : Int} (times : Int) (seq ts ssrc : Nat) (btime : ℚ)
    (hb : Codec.bytes codec (period ptime) = some n) (hp : period ptime ≤ 999) :
    Good ⟨f, codec, n, Codec.ms codec (period ptime), times, seq, ts, ssrc, (period ptime : Nat), btime⟩ (period ptime) where
  bytes := hb
  ms := rfl
  ptime := rfl
  pos := by unfold period; split <;> omega
  le := hp

theorem inRange_of {times : Int} {m k n : Nat} (h : 0 ≤ times ∨ times = -1 ∨ (n : Int) ≤ times + 2 ^ 31) (hk : k ≤ n) : InRange times m k := by
  rcases h with h | h | h
  · exact Or.inl h
  · exact Or.inr (Or.inl h)
  · right; right
    have := Nat.div_le_self k m
    omega

theorem gets_spec {a : Par} {p : Nat} (g : Good a p) (rnd : ℚ → ℚ) (calls : List (ℚ × Bool)) {k e : Nat} {s : Srv} (h : Inv a k e s)
    (hr : 0 ≤ a.times ∨ a.times = -1 ∨ ((k + calls.length : Nat) : Int) ≤ a.times + 2 ^ 31) :
    ∃ o rs, gets rnd a.f s calls = .ok (o, rs) ∧
      (∀ s', o = some s' → Inv a (k + packets rs) (e + failures rs) s' ∧ rs.length = calls.length) ∧
      (∀ (i : Nat) (t : ℚ) (r : Res), rs[i]? = some (t, r) →
        Right (due rnd a.btime) a.f a.codec a.n a.ms a.times a.seq a.ts a.ssrc (k + packets (rs.take i)) (e + failures (rs.take i)) t r ∧
        calls[i]?.map (·.1) = some t ∧ (r = .eof → o = none ∧ i + 1 = rs.length)) := by
  induction calls generalizing k e s with
  | nil => exact ⟨some s, [], rfl, fun s' hs => by cases hs; exact ⟨h, rfl⟩, fun i t r hi => by simp at hi⟩
  | cons c rest ih =>
    obtain ⟨t, mem⟩ := c
    obtain ⟨hn, hn2, _⟩ := codec_bounds g.bytes g.pos g.le
    have hr0 : InRange a.times a.m k := inRange_of hr (Nat.le_add_right _ _)
    obtain ⟨g1, g2⟩ := get_spec g h hr0 rnd t mem
    -- a step that is not the end
    have step : ∀ (s1 : Srv) (r : Res) (k1 e1 : Nat), get rnd a.f s t mem = .ok (s1, r) → r ≠ .eof → Inv a k1 e1 s1 →
        k1 = k + packets [(t, r)] → e1 = e + failures [(t, r)] → k1 ≤ k + 1 →
        Right (due rnd a.btime) a.f a.codec a.n a.ms a.times a.seq a.ts a.ssrc k e t r →
        ∃ o rs, gets rnd a.f s ((t, mem) :: rest) = .ok (o, rs) ∧
          (∀ s', o = some s' → Inv a (k + packets rs) (e + failures rs) s' ∧ rs.length = ((t, mem) :: rest).length) ∧
          (∀ (i : Nat) (t' : ℚ) (r' : Res), rs[i]? = some (t', r') →
            Right (due rnd a.btime) a.f a.codec a.n a.ms a.times a.seq a.ts a.ssrc (k + packets (rs.take i)) (e + failures (rs.take i)) t' r' ∧
            ((t, mem) :: rest)[i]?.map (·.1) = some t' ∧ (r' = .eof → o = none ∧ i + 1 = rs.length)) := by
      intro s1 r k1 e1 hg hne hi hk he hk1 hright
      obtain ⟨o, rs, i1, i2, i3⟩ := ih hi (by
        rcases hr with z | z | z
        · exact Or.inl z
        · exact Or.inr (Or.inl z)
        · right; right
          rw [List.length_cons] at z
          omega)
      have hgets : gets rnd a.f s ((t, mem) :: rest) = .ok (o, (t, r) :: rs) := by
        rw [gets, hg]
        cases r with
        | eof => exact absurd rfl hne
        | later => simp only; rw [i1]
        | enomem => simp only; rw [i1]
        | error => simp only; rw [i1]
        | pkt b => simp only; rw [i1]
      have hpk : ∀ l, packets ((t, r) :: l) = packets [(t, r)] + packets l := by
        intro l; unfold packets; rw [← List.countP_append]; rfl
      have hfl : ∀ l, failures ((t, r) :: l) = failures [(t, r)] + failures l := by
        intro l; unfold failures; rw [← List.countP_append]; rfl
      refine ⟨o, (t, r) :: rs, hgets, ?_, ?_⟩
      · intro s' hs
        obtain ⟨j1, j2⟩ := i2 s' hs
        refine ⟨?_, by rw [List.length_cons, List.length_cons, j2]⟩
        rw [hpk, hfl, ← Nat.add_assoc, ← Nat.add_assoc, ← hk, ← he]
        exact j1
      · intro i t' r' hget
        cases i with
        | zero =>
          simp only [List.getElem?_cons_zero, Option.some.injEq, Prod.mk.injEq] at hget
          obtain ⟨rfl, rfl⟩ := hget
          refine ⟨?_, rfl, fun h => absurd h hne⟩
          exact hright
        | succ i =>
          rw [List.getElem?_cons_succ] at hget
          obtain ⟨j1, j2, j3⟩ := i3 i t' r' hget
          refine ⟨?_, ?_, ?_⟩
          · rw [List.take_succ_cons, hpk, hfl, ← Nat.add_assoc, ← Nat.add_assoc, ← hk, ← he]
            exact j1
          · rw [List.getElem?_cons_succ]; exact j2
          · intro h'
            obtain ⟨q1, q2⟩ := j3 h'
            exact ⟨q1, by rw [List.length_cons, q2]⟩
    by_cases hd : t < due rnd a.btime ((k + e) * a.ms)
    · exact step s .later k e (g1 hd) (by simp) h rfl rfl (by omega) hd
    · have hd' : due rnd a.btime ((k + e) * a.ms) ≤ t := not_lt.1 hd
      obtain ⟨f1, f2, f3⟩ := g2 hd'
      cases mem with
      | false =>
        obtain ⟨s1, q1, q2⟩ := f1 rfl
        exact step s1 .enomem k (e + 1) q1 (by simp) q2 rfl rfl (by omega) hd'
      | true =>
        by_cases hm : More a.times a.m k
        · obtain ⟨s1, b, q1, q2, q3, q4⟩ := f3 rfl hm
          exact step s1 (.pkt b) (k + 1) e q1 (by simp) q2 rfl rfl (by omega) ⟨hd', hm, q3, by omega, q4⟩
        · obtain ⟨s1, q1⟩ := f2 rfl hm
          have hgets : gets rnd a.f s ((t, true) :: rest) = .ok (none, [(t, .eof)]) := by
            rw [gets, q1]
          refine ⟨none, [(t, .eof)], hgets, (fun s' hs => by cases hs), ?_⟩
          intro i t' r' hget
          cases i with
          | zero =>
            simp only [List.getElem?_cons_zero, Option.some.injEq, Prod.mk.injEq] at hget
            obtain ⟨rfl, rfl⟩ := hget
            exact ⟨⟨hd', hm⟩, rfl, fun _ => ⟨rfl, rfl⟩⟩
          | succ i => simp at hget

/-- For every prompt, codec, packetisation time (`Z` allows 1 to 999), number of repetitions, start and sequence of calls: no call is undefined, and
each gives what it should (`Right`): nothing before its time; at its time the next packet, which has the next sequence number and timestamp, the
marker only if it is the first, and the next piece of the prompt; and the end when all pieces have been played as many times as asked for. -/
theorem C34_stream_partial (rnd : ℚ → ℚ) (f : List UInt8) {codec n : Nat} (times ptime : Int) (seq ts ssrc : Nat) (btime : ℚ)
    (calls : List (ℚ × Bool)) (hb : Codec.bytes codec (period ptime) = some n) (hp : period ptime ≤ 999)
    (hr : 0 ≤ times ∨ times = -1 ∨ (calls.length : Int) ≤ times + 2 ^ 31) :
    ∃ o rs, gets rnd f (start (ctor codec times ptime seq ts ssrc) btime) calls = .ok (o, rs) ∧
      (o ≠ none → rs.length = calls.length) ∧
      ∀ (i : Nat) (t : ℚ) (r : Res), rs[i]? = some (t, r) →
        Right (due rnd btime) f codec n (Codec.ms codec (period ptime)) times seq ts ssrc (packets (rs.take i)) (failures (rs.take i)) t r ∧
        calls[i]?.map (·.1) = some t ∧ (r = .eof → o = none ∧ i + 1 = rs.length) := by
  have hc := (codec_bounds hb (good_start (f := f) times seq ts ssrc btime hb hp).pos hp).2.2.2.2
  obtain ⟨o, rs, h1, h2, h3⟩ := gets_spec (good_start (f := f) times seq ts ssrc btime hb hp) rnd calls
    (inv_start f codec n times ptime seq ts ssrc btime hc) (by rw [Nat.zero_add]; exact hr)
  refine ⟨o, rs, h1, ?_, ?_⟩
  · intro ho
    cases o with
    | none => exact absurd rfl ho
    | some s' => exact (h2 s' rfl).2
  · intro i t r hi
    have := h3 i t r hi
    rw [Nat.zero_add, Nat.zero_add] at this
    exact this

/-- With memory, packet `k` is due `k` times the duration of a packet after the start, and the durations of the packets add up. -/
theorem C34_timestamps (f : List UInt8) (codec n ms seq ts ssrc k : Nat) :
    ((wanted f codec n ms seq ts ssrc (k + 1)).ts = ((wanted f codec n ms seq ts ssrc k).ts + 8 * ms) % 2 ^ 32) ∧
    ((wanted f codec n ms seq ts ssrc (k + 1)).seq = ((wanted f codec n ms seq ts ssrc k).seq + 1) % 2 ^ 16) ∧
    ((wanted f codec n ms seq ts ssrc k).marker = true ↔ k = 0) := by
  refine ⟨?_, ?_, ?_⟩
  · show (ts + (k + 1) * (8 * ms)) % 2 ^ 32 = ((ts + k * (8 * ms)) % 2 ^ 32 + 8 * ms) % 2 ^ 32
    rw [Nat.mod_add_mod, Nat.add_mul, Nat.one_mul, Nat.add_assoc]
  · show (seq + (k + 1)) % 2 ^ 16 = ((seq + k) % 2 ^ 16 + 1) % 2 ^ 16
    rw [Nat.mod_add_mod, Nat.add_assoc]
  · show decide (k = 0) = true ↔ _
    simp

/-- One pass of the pieces is the prompt, without what is left after the last whole piece. -/
theorem C34_pass (f : List UInt8) (n : Nat) :
    ((List.range (pieces f n)).map (piece f n)).flatten = f.take (pieces f n * n) := by
  have key : ∀ j, j ≤ pieces f n → ((List.range j).map (piece f n)).flatten = f.take (j * n) := by
    intro j
    induction j with
    | zero => intro _; simp
    | succ j ih =>
      intro hj
      rw [List.range_succ, List.map_append, List.flatten_append, ih (by omega)]
      have hp : piece f n j = (f.drop (j * n)).take n := by
        unfold piece
        rw [Nat.mod_eq_of_lt (by omega)]
      simp only [List.map_cons, List.map_nil, List.flatten_cons, List.flatten_nil, List.append_nil]
      rw [hp, Nat.add_mul, Nat.one_mul, List.take_add]
  exact key _ (Nat.le_refl _)

theorem poll_spec {a : Par} {p : Nat} (g : Good a p) (rnd : ℚ → ℚ) (t : ℚ) (N : Nat) {k e : Nat} {s : Srv} (h : Inv a k e s)
    (hr : 0 ≤ a.times ∨ a.times = -1 ∨ ((k + N : Nat) : Int) ≤ a.times + 2 ^ 31) (hN : t < due rnd a.btime ((k + N + e) * a.ms)) :
    ∃ s' ps r, poll rnd a.f s t (List.replicate (N + 1) true) = .ok (s', ps, some r) ∧
      (∀ i b, ps[i]? = some b → decode b = some (wanted a.f a.codec a.n a.ms a.seq a.ts a.ssrc (k + i)) ∧
        due rnd a.btime ((k + i + e) * a.ms) ≤ t) ∧
      ((r = .later ∧ t < due rnd a.btime ((k + ps.length + e) * a.ms)) ∨ (r = .eof ∧ ¬ More a.times a.m (k + ps.length))) := by
  induction N generalizing k s with
  | zero =>
    obtain ⟨g1, _⟩ := get_spec g h (inRange_of hr (Nat.le_refl _)) rnd t true
    refine ⟨s, [], .later, ?_, fun i b hb => by simp at hb, Or.inl ⟨rfl, hN⟩⟩
    rw [List.replicate_succ, poll, g1 hN]
  | succ N ih =>
    obtain ⟨g1, g2⟩ := get_spec g h (inRange_of hr (Nat.le_add_right _ _)) rnd t true
    rw [List.replicate_succ, poll]
    by_cases hd : t < due rnd a.btime ((k + e) * a.ms)
    · refine ⟨s, [], .later, ?_, fun i b hb => by simp at hb, Or.inl ⟨rfl, hd⟩⟩
      rw [g1 hd]
    · have hd' : due rnd a.btime ((k + e) * a.ms) ≤ t := not_lt.1 hd
      obtain ⟨_, f2, f3⟩ := g2 hd'
      by_cases hm : More a.times a.m k
      · obtain ⟨s1, b, q1, q2, q3, q4⟩ := f3 rfl hm
        have hk : k + 1 + N = k + (N + 1) := by omega
        obtain ⟨s', ps, r, i1, i2, i3⟩ := ih q2 (by rw [hk]; exact hr) (by rw [hk]; exact hN)
        refine ⟨s', b :: ps, r, ?_, ?_, ?_⟩
        · rw [q1]
          simp only
          rw [i1]
        · intro i c hc
          cases i with
          | zero =>
            simp only [List.getElem?_cons_zero, Option.some.injEq] at hc
            subst hc
            exact ⟨q4, hd'⟩
          | succ i =>
            rw [List.getElem?_cons_succ] at hc
            have hi : k + (i + 1) = k + 1 + i := by omega
            rw [hi]
            exact i2 i c hc
        · rw [List.length_cons]
          have hi : k + (ps.length + 1) = k + 1 + ps.length := by omega
          rw [hi]
          exact i3
      · obtain ⟨s1, q1⟩ := f2 rfl hm
        refine ⟨s1, [], .eof, ?_, fun i b hb => by simp at hb, Or.inr ⟨rfl, hm⟩⟩
        rw [q1]

/-- Nothing is late: after any calls, the loop at time `t` ends, and then every packet that is due at `t` has been sent, or the prompt is over.
`N`: so many packets later is after `t`. -/
theorem C34_paced_partial (rnd : ℚ → ℚ) (f : List UInt8) {codec n : Nat} (times ptime : Int) (seq ts ssrc : Nat) (btime : ℚ)
    (calls : List (ℚ × Bool)) (hb : Codec.bytes codec (period ptime) = some n) (hp : period ptime ≤ 999) (t : ℚ) (N : Nat)
    (hr : 0 ≤ times ∨ times = -1 ∨ ((calls.length + N : Nat) : Int) ≤ times + 2 ^ 31) {s : Srv} {rs : List (ℚ × Res)}
    (hg : gets rnd f (start (ctor codec times ptime seq ts ssrc) btime) calls = .ok (some s, rs))
    (hN : t < due rnd btime ((packets rs + N + failures rs) * Codec.ms codec (period ptime))) :
    ∃ s' ps r, poll rnd f s t (List.replicate (N + 1) true) = .ok (s', ps, some r) ∧
      (∀ i b, ps[i]? = some b → decode b = some (wanted f codec n (Codec.ms codec (period ptime)) seq ts ssrc (packets rs + i)) ∧
        due rnd btime ((packets rs + i + failures rs) * Codec.ms codec (period ptime)) ≤ t) ∧
      ((r = .later ∧ t < due rnd btime ((packets rs + ps.length + failures rs) * Codec.ms codec (period ptime))) ∨
       (r = .eof ∧ ¬ More times (pieces f n) (packets rs + ps.length))) := by
  have gd := good_start (f := f) times seq ts ssrc btime hb hp
  have hc := (codec_bounds hb gd.pos hp).2.2.2.2
  obtain ⟨o, rs', h1, h2, _⟩ := gets_spec gd rnd calls (inv_start f codec n times ptime seq ts ssrc btime hc) (by
    rw [Nat.zero_add]
    rcases hr with z | z | z
    · exact Or.inl z
    · exact Or.inr (Or.inl z)
    · exact Or.inr (Or.inr (by push_cast at z; change (calls.length : Int) ≤ times + 2 ^ 31; omega)))
  rw [show (⟨f, codec, n, Codec.ms codec (period ptime), times, seq, ts, ssrc, (period ptime : Nat), btime⟩ : Par).f = f from rfl, hg] at h1
  injection h1 with h1
  injection h1 with ho hrs
  subst hrs
  subst ho
  obtain ⟨hi, hl⟩ := h2 s rfl
  rw [Nat.zero_add, Nat.zero_add] at hi
  have hle : packets rs ≤ calls.length := by rw [← hl]; exact List.countP_le_length
  have := poll_spec gd rnd t N hi (by
    rcases hr with z | z | z
    · exact Or.inl z
    · exact Or.inr (Or.inl z)
    · exact Or.inr (Or.inr (by push_cast at z ⊢; change (packets rs : Int) + N ≤ times + 2 ^ 31; omega))) hN
  exact this

/-- The time of a packet is that of its beginning in the prompt, so with a rounding that keeps the order no packet is due before the one before it. -/
theorem C34_monotone {rnd : ℚ → ℚ} (h : ∀ x y, x ≤ y → rnd x ≤ rnd y) (btime : ℚ) {a b : Nat} (hab : a ≤ b) :
    due rnd btime a ≤ due rnd btime b := by
  unfold due
  apply h
  have : rnd ((a : ℚ) / 1000) ≤ rnd ((b : ℚ) / 1000) := by
    apply h
    have : (a : ℚ) ≤ b := by exact_mod_cast hab
    linarith
  linarith

end Verif.Player
