import Verif.Resizer.Trace

/-!
# Order of the audio of one RTP stream
-/

namespace Verif.Resizer

theorem rel_lt (base t : Nat) : rel base t < 4294967296 := by unfold rel; omega

theorem tsl_rel {base a b : Nat} (ha : a < 4294967296) (hb : b < 4294967296)
    (h1 : rel base a < 2147483648) (h2 : rel base b < 2147483648) :
    tsl a b = true ↔ rel base a < rel base b := by
  unfold tsl Rtp.tsLess rel at *
  rw [decide_eq_true_eq, BitVec.toNat_sub, BitVec.toNat_ofNat, BitVec.toNat_ofNat]
  omega

theorem rel_add {base e m : Nat} (h : rel base e + m < 2147483648) :
    rel base (u32 (e + m)) = rel base e + m := by
  unfold rel u32 at *
  omega

/-- The packets still queued, `q`, are the accepted packets `R`, except that the first `d` bytes
of the first one may have been sent already; in that case the remainder starts no later than
`e`. -/
inductive Head (base e : Nat) : List Pkt → List Pkt → List UInt8 → List (Nat × UInt8) → Prop
  | same {q} : Head base e q q [] []
  | part {r x l d ds} (hd : r.payload = d ++ x.payload)
      (hs : Timed r → Timed x ∧ stamps r = ds ++ stamps x) (hr : rel base r.ts ≤ rel base x.ts)
      (hle : rel base x.ts ≤ rel base e) : Head base e (r :: l) (x :: l) d ds

theorem Head.self {base e R p q d ds} (h : Head base e R (p :: q) d ds) :
    Head base p.ts R (p :: q) d ds := by
  cases h with
  | same => exact .same
  | part hd hs hr hle => exact .part hd hs hr (Nat.le_refl _)

theorem Head.flat {base e R q d ds} (h : Head base e R q d ds) :
    d ++ bytesOf q = bytesOf R ∧ ((∀ x ∈ R, Timed x) → ds ++ stampsOf q = stampsOf R) := by
  cases h with
  | same => exact ⟨rfl, fun _ => rfl⟩
  | part hd hs hr hle =>
    simp only [bytesOf, stampsOf, List.flatMap_cons]
    refine ⟨by rw [hd, List.append_assoc], fun hT => ?_⟩
    rw [(hs (hT _ (by simp))).2, List.append_assoc]

theorem Eat.order {base e q e' q' b st} (h : Eat e q e' q' b st) :
    ∀ {R d ds}, Head base e R q d ds →
    rel base e < 2147483648 →
    (∀ x ∈ q, rel base x.ts + x.ns < 2147483648) →
    ∃ E R' d' ds', R = E ++ R' ∧ Head base e' R' q' d' ds' ∧
      d ++ b = bytesOf E ++ d' ∧ ((∀ x ∈ R, Timed x) → ds ++ st = stampsOf E ++ ds') ∧
      (∀ x ∈ E, rel base x.ts ≤ rel base e') ∧ rel base e ≤ rel base e' ∧
      rel base e' < 2147483648 ∧ (∀ x ∈ q', rel base x.ts + x.ns < 2147483648) := by
  induction h with
  | stop =>
    intro R d ds hH he hq
    exact ⟨[], R, d, ds, rfl, hH, by simp [bytesOf], by simp [stampsOf], by simp, Nat.le_refl _, he, hq⟩
  | @whole e p q e' q' b st hp r ih =>
    intro R d ds hH he hq
    have hb := hq p (by simp)
    rw [hp] at hb
    have hadd := rel_add hb
    obtain ⟨E, R', d', ds', i1, i2, i4, i5, i6, i7, i8, i9⟩ :=
      ih (R := q) (d := []) (ds := []) .same (by rw [hadd]; omega)
        (fun x hx => hq x (by simp [hx]))
    have key : ∃ r0, R = r0 :: q ∧ r0.payload = d ++ p.payload ∧
        (Timed r0 → Verif.Resizer.stamps r0 = ds ++ Verif.Resizer.stamps p) ∧ rel base r0.ts ≤ rel base p.ts := by
      cases hH with
      | same => exact ⟨p, rfl, by simp, by simp, Nat.le_refl _⟩
      | part hd hs hr hle => exact ⟨_, rfl, hd, fun hT => (hs hT).2, hr⟩
    obtain ⟨r0, k1, k2, k3, k4⟩ := key
    refine ⟨r0 :: E, R', d', ds', by rw [k1, i1]; rfl, i2, ?_, ?_, ?_, by omega, i8, i9⟩
    · simp only [bytesOf, List.flatMap_cons, List.append_assoc, List.nil_append] at i4 ⊢
      rw [k2, ← i4, List.append_assoc]
    · intro hT
      rw [k1] at hT
      have := i5 (fun x hx => hT x (by simp [hx]))
      simp only [stampsOf, List.flatMap_cons, List.append_assoc, List.nil_append] at this ⊢
      rw [k3 (hT r0 (by simp)), ← this, List.append_assoc]
    · intro x hx
      rcases List.mem_cons.mp hx with rfl | hx
      · rw [hp] at k4; omega
      · exact i6 x hx
  | @part e p q x d0 m hp hm hd hx hn hs ht =>
    intro R d ds hH he hq
    have hb := hq p (by simp)
    rw [hp] at hb
    have hadd := rel_add (base := base) (e := e) (m := m) (by omega)
    have key : ∃ r0, R = r0 :: q ∧ r0.payload = d ++ p.payload ∧
        (Timed r0 → Timed p ∧ Verif.Resizer.stamps r0 = ds ++ Verif.Resizer.stamps p) ∧ rel base r0.ts ≤ rel base p.ts := by
      cases hH with
      | same => exact ⟨p, rfl, by simp, by simp, Nat.le_refl _⟩
      | part hd hs hr hle => exact ⟨_, rfl, hd, hs, hr⟩
    obtain ⟨r0, k1, k2, k3, k4⟩ := key
    refine ⟨[], R, d ++ d0, ds ++ stampAt p.pt p.ts d0, rfl, ?_, by simp [bytesOf], by simp [stampsOf], by simp,
      by omega, by omega, ?_⟩
    · rw [k1]
      refine .part ?_ ?_ ?_ (by rw [hx]; exact Nat.le_refl _)
      · rw [k2, hd, List.append_assoc]
      · intro hT
        obtain ⟨t1, t2⟩ := k3 hT
        exact ⟨ht t1, by rw [t2, hs t1, List.append_assoc]⟩
      · rw [hx, hadd, ← hp]; omega
    · intro y hy
      rcases List.mem_cons.mp hy with rfl | hy
      · rw [hx, hadd, hn]; omega
      · exact hq y (by simp [hy])

theorem insertTs_append {base : Nat} {p : Pkt} {B : List Pkt} (hB : ∀ x ∈ B, rel base p.ts < rel base x.ts) :
    ∀ {A : List Pkt}, (∀ x ∈ A, rel base x.ts ≤ rel base p.ts) → insertTs base p (A ++ B) = A ++ p :: B
  | [], _ => by
    cases B with
    | nil => rfl
    | cons y l =>
      simp only [List.nil_append, insertTs]
      rw [if_pos (hB y (by simp))]
  | a :: A, hA => by
    simp only [List.cons_append, insertTs]
    rw [if_neg (by have := hA a (by simp); omega),
      insertTs_append hB (fun x hx => hA x (by simp [hx]))]

/-- State of one stream: `E` accepted and completely sent, `R` the rest. -/
structure OI (base ssrc : Nat) (s : St) (acc : List Pkt) (em : List UInt8) (emS : List (Nat × UInt8))
    (E R : List Pkt) (d : List UInt8) (ds : List (Nat × UInt8)) : Prop where
  ord : E ++ R = inTsOrder base acc
  sorted : (E ++ R).Pairwise (fun a b => rel base a.ts ≤ rel base b.ts)
  bq : ∀ x ∈ s.q, rel base x.ts + x.ns < 2147483648
  b32 : ∀ x ∈ s.q, x.ts < 4294967296
  last0 : s.lastSent = none → E = [] ∧ R = s.q ∧ d = [] ∧ ds = []
  last1 : ∀ t, s.lastSent = some t → t < 4294967296 ∧ rel base t < 2147483648 ∧
    (∀ x ∈ E, rel base x.ts ≤ rel base t) ∧ Head base t R s.q d ds
  ss : s.ssrc = none ∨ s.ssrc = some ssrc
  em : em = bytesOf E ++ d
  emS : (∀ x ∈ E ++ R, Timed x) → emS = stampsOf E ++ ds

theorem OI.head {base ssrc : Nat} {s : St} {acc em emS E R d ds} (h : OI base ssrc s acc em emS E R d ds) :
    ∃ t, Head base t R s.q d ds := by
  cases hs : s.lastSent with
  | none => obtain ⟨-, h1, h2, h3⟩ := h.last0 hs; rw [h1, h2, h3]; exact ⟨0, .same⟩
  | some t => exact ⟨t, (h.last1 t hs).2.2.2⟩

theorem insert_oi {base ssrc : Nat} {s s' : St} {acc em emS E R d ds} (h : OI base ssrc s acc em emS E R d ds)
    {p : Pkt} (hq : s'.q = insertQ p s.q) (hl : s'.lastSent = s.lastSent) (hss : s'.ssrc = some ssrc)
    (hb : rel base p.ts + p.ns < 2147483648) (h32 : p.ts < 4294967296)
    (hlate : ∀ t, s'.lastSent = some t → tsl p.ts t = false) :
    ∃ R', OI base ssrc s' (acc ++ [p]) em emS E R' d ds := by
  obtain ⟨a, b, q1, q2, q3, q4⟩ := insertQ_split p s.q
  rw [q2] at hq
  have hpr : rel base p.ts < 2147483648 := by omega
  have hbb : ∀ x ∈ b, rel base p.ts < rel base x.ts := by
    intro x hx
    have hxq : x ∈ s.q := by rw [q1]; simp [hx]
    exact (tsl_rel h32 (h.b32 x hxq) hpr (by have := h.bq x hxq; omega)).mp (q3 x hx)
  have haL : ∀ x, a.getLast? = some x → rel base x.ts ≤ rel base p.ts := by
    intro x hx
    have hxq : x ∈ s.q := by rw [q1]; simp [List.mem_of_getLast? hx]
    have h1 := q4 x hx
    have h2 := tsl_rel h32 (h.b32 x hxq) hpr (by have := h.bq x hxq; omega)
    rw [h1] at h2
    have : ¬ rel base p.ts < rel base x.ts := fun hc => by simpa using h2.mpr hc
    omega
  have hlast : ∀ t, s.lastSent = some t → rel base t ≤ rel base p.ts := by
    intro t ht
    obtain ⟨t1, t2, -, -⟩ := h.last1 t ht
    have h1 := hlate t (by rw [hl]; exact ht)
    have h2 := tsl_rel h32 t1 hpr t2
    rw [h1] at h2
    have : ¬ rel base p.ts < rel base t := fun hc => by simpa using h2.mpr hc
    omega
  have hE : ∀ x ∈ E, rel base x.ts ≤ rel base p.ts := by
    intro x hx
    cases hs : s.lastSent with
    | none => rw [(h.last0 hs).1] at hx; simp at hx
    | some t => exact Nat.le_trans ((h.last1 t hs).2.2.1 x hx) (hlast t hs)
  -- the accepted packets split in the same way
  have key : ∃ Ra, R = Ra ++ b ∧ (∀ x, Ra.getLast? = some x → rel base x.ts ≤ rel base p.ts) ∧
      (s.lastSent = none → Ra = a) ∧
      (∀ t, s.lastSent = some t → Head base t (Ra ++ p :: b) (a ++ p :: b) d ds) := by
    cases hs : s.lastSent with
    | none =>
      obtain ⟨-, h1, h2, h3⟩ := h.last0 hs
      exact ⟨a, by rw [h1, q1], haL, fun _ => rfl, fun t ht => by cases ht⟩
    | some t =>
      have hH := (h.last1 t hs).2.2.2
      generalize hgq : s.q = Q at hH
      cases hH with
      | same =>
        rw [q1] at hgq
        exact ⟨a, hgq.symm, haL, fun _ => rfl, fun _ _ => .same⟩
      | @part r x l d ds hd hs' hr hle =>
        rw [q1] at hgq
        have hlt := hlast t hs
        cases a with
        | nil =>
          simp only [List.nil_append] at hgq
          have := hbb x (by rw [hgq]; simp)
          omega
        | cons y a' =>
          simp only [List.cons_append, List.cons.injEq] at hgq
          obtain ⟨rfl, rfl⟩ := hgq
          refine ⟨r :: a', rfl, ?_, fun hc => (by cases hc), fun t' ht' => ?_⟩
          · intro z hz
            cases a' with
            | nil =>
              simp only [List.getLast?_singleton, Option.some.injEq] at hz
              subst hz
              have := haL y (by simp)
              omega
            | cons w a'' =>
              rw [List.getLast?_cons_cons] at hz
              exact haL z (by rw [List.getLast?_cons_cons]; exact hz)
          · cases ht'
            exact .part hd hs' hr hle
  obtain ⟨Ra, k1, k2, k3, k4⟩ := key
  have hRa : ∀ x ∈ Ra, rel base x.ts ≤ rel base p.ts := by
    intro x hx
    have hne : Ra ≠ [] := by rintro rfl; simp at hx
    have hgl := List.getLast?_eq_some_getLast hne
    have hz := k2 _ hgl
    have hsp : Ra.Pairwise (fun a b => rel base a.ts ≤ rel base b.ts) := by
      have := h.sorted
      rw [k1] at this
      exact (List.pairwise_append.mp (List.pairwise_append.mp this).2.1).1
    rw [← List.dropLast_concat_getLast hne] at hx hsp
    rw [List.mem_append] at hx
    rcases hx with hx | hx
    · exact Nat.le_trans ((List.pairwise_append.mp hsp).2.2 x hx _ (by simp)) hz
    · simp only [List.mem_singleton] at hx
      rw [hx]; exact hz
  have hins : E ++ (Ra ++ p :: b) = insertTs base p (E ++ R) := by
    rw [k1, ← List.append_assoc, ← List.append_assoc, insertTs_append hbb]
    intro x hx
    rcases List.mem_append.mp hx with hx | hx
    · exact hE x hx
    · exact hRa x hx
  refine ⟨Ra ++ p :: b, ⟨?_, ?_, ?_, ?_, ?_, ?_, .inr hss, h.em, ?_⟩⟩
  · rw [hins, h.ord]; unfold inTsOrder; rw [List.foldl_append]; rfl
  · have hs := h.sorted
    rw [k1, ← List.append_assoc] at hs
    rw [← List.append_assoc]
    rw [List.pairwise_append] at hs ⊢
    refine ⟨hs.1, List.pairwise_cons.mpr ⟨fun x hx => by have := hbb x hx; omega, hs.2.1⟩, ?_⟩
    intro x hx y hy
    rcases List.mem_cons.mp hy with rfl | hy
    · rcases List.mem_append.mp hx with hx | hx
      · exact hE x hx
      · exact hRa x hx
    · exact hs.2.2 x hx y hy
  · intro x hx
    rw [hq] at hx
    simp only [List.mem_append, List.mem_cons] at hx
    rcases hx with hx | hx | hx
    · exact h.bq x (by rw [q1]; simp [hx])
    · rw [hx]; exact hb
    · exact h.bq x (by rw [q1]; simp [hx])
  · intro x hx
    rw [hq] at hx
    simp only [List.mem_append, List.mem_cons] at hx
    rcases hx with hx | hx | hx
    · exact h.b32 x (by rw [q1]; simp [hx])
    · rw [hx]; exact h32
    · exact h.b32 x (by rw [q1]; simp [hx])
  · intro hn
    rw [hl] at hn
    obtain ⟨h1, -, h3, h4⟩ := h.last0 hn
    exact ⟨h1, by rw [hq, k3 hn], h3, h4⟩
  · intro t ht
    rw [hl] at ht
    obtain ⟨h1, h2, h3, -⟩ := h.last1 t ht
    exact ⟨h1, h2, h3, by rw [hq]; exact k4 t ht⟩
  · intro hT
    refine h.emS (fun x hx => hT x ?_)
    rw [k1] at hx
    simp only [List.mem_append, List.mem_cons] at hx ⊢
    rcases hx with hx | hx | hx
    · exact .inl hx
    · exact .inr (.inl hx)
    · exact .inr (.inr (.inr hx))

theorem get_oi {base ssrc : Nat} {s s' : St} {acc em emS E R d ds} (h : OI base ssrc s acc em emS E R d ds)
    {p r : Pkt} {q b st} (hq : s.q = p :: q) (hl : s'.lastSent = some (u32 (r.ts + r.ns)))
    (hss : s'.ssrc = s.ssrc) (he : Eat p.ts (p :: q) (u32 (r.ts + r.ns)) s'.q b st)
    (h32 : ∀ x ∈ s'.q, x.ts < 4294967296)
    (hst : (∀ x ∈ p :: q, Timed x) → stamps r = st) :
    ∃ E' R' d' ds', OI base ssrc s' acc (em ++ b) (emS ++ stamps r) E' R' d' ds' := by
  obtain ⟨t, hH⟩ := h.head
  rw [hq] at hH
  have hH' := hH.self
  have hbq := h.bq
  rw [hq] at hbq
  obtain ⟨E2, R', d', ds', i1, i2, i4, i5, i6, i7, i8, i9⟩ := he.order hH'
    (by have := hbq p (by simp); omega) hbq
  have hRp : ∃ r0 l, R = r0 :: l ∧ rel base r0.ts ≤ rel base p.ts := by
    cases hH with
    | same => exact ⟨p, q, rfl, Nat.le_refl _⟩
    | part hd hs hr hle => exact ⟨_, _, rfl, hr⟩
  obtain ⟨r0, l, k1, k2⟩ := hRp
  have hTq : (∀ x ∈ R, Timed x) → ∀ x ∈ p :: q, Timed x := by
    intro hT
    cases hH with
    | same => exact hT
    | part hd hs hr hle =>
      intro x hx
      rcases List.mem_cons.mp hx with rfl | hx
      · exact (hs (hT _ (by simp))).1
      · exact hT x (by simp [hx])
  refine ⟨E ++ E2, R', d', ds', ⟨?_, ?_, i9, h32, ?_, ?_, by rw [hss]; exact h.ss, ?_, ?_⟩⟩
  · rw [List.append_assoc, ← i1]; exact h.ord
  · rw [List.append_assoc, ← i1]; exact h.sorted
  · intro hc; rw [hl] at hc; cases hc
  · intro t' ht'
    rw [hl] at ht'
    cases ht'
    refine ⟨by unfold u32; omega, i8, ?_, i2⟩
    intro x hx
    rcases List.mem_append.mp hx with hx | hx
    · have := (List.pairwise_append.mp h.sorted).2.2 x hx r0 (by rw [k1]; simp)
      omega
    · exact i6 x hx
  · rw [h.em, List.append_assoc, i4]; simp [bytesOf]
  · intro hT
    have hT' : ∀ x ∈ E ++ R, Timed x := by
      rw [i1, ← List.append_assoc]; exact hT
    have hTR : ∀ x ∈ R, Timed x := fun x hx => hT' x (by simp [hx])
    rw [h.emS hT', hst (hTq hTR), List.append_assoc, i5 hTR]
    simp [stampsOf]

theorem run_oi {base ssrc : Nat} : ∀ (ops : List Op) (s : St) (acc : List Pkt) em emS E R d ds,
    SOK s → OI base ssrc s acc em emS E R d ds → (∀ o ∈ ops, o.ok) → OneStream base ssrc ops →
    ∀ s' evs, run s ops = .ok (s', evs) →
    ∃ E' R' d' ds', OI base ssrc s' (acc ++ accepted evs) (em ++ bytesOf (emitted evs))
      (emS ++ stampsOf (emitted evs)) E' R' d' ds'
  | [], s, acc, em, emS, E, R, d, ds, hs, h, _, _, s', evs, hr => by
    simp only [run, Except.ok.injEq, Prod.mk.injEq] at hr
    obtain ⟨rfl, rfl⟩ := hr
    exact ⟨E, R, d, ds, by simpa [accepted, emitted, bytesOf, stampsOf] using h⟩
  | o :: os, s, acc, em, emS, E, R, d, ds, hs, h, hok, h1s, s', evs, hr => by
    have hok' : ∀ o ∈ os, o.ok := fun x hx => hok x (by simp [hx])
    have h1s' : OneStream base ssrc os := fun d j now hm => h1s d j now (by simp [hm])
    simp only [run] at hr
    have IH := fun s1 acc em emS E R d ds a b => run_oi (base := base) (ssrc := ssrc) os s1 acc em emS E R d ds a b hok' h1s'
    cases o with
    | ptime n =>
      simp only [step] at hr
      split at hr
      · cases hr
      · next s'' evs' hrun =>
        simp only [Except.ok.injEq, Prod.mk.injEq] at hr
        obtain ⟨rfl, rfl⟩ := hr
        exact IH (setPtime s n) acc em emS E R d ds ⟨hs.q, hs.total, hs.seq⟩
          ⟨h.ord, h.sorted, h.bq, h.b32, h.last0, h.last1, h.ss, h.em, h.emS⟩ s'' evs' hrun
    | get dt al =>
      obtain ⟨s1, o1, g1, g2, g3, g4⟩ := get_spec hs dt al
      simp only [step, g1] at hr
      rcases g4 with ⟨rfl, rfl⟩ | ⟨p, q, r, b, st, k, c1, c2, c3, c4, c5, c6, c7, c8, c9, c10, c11, c12, c13, c14, c15⟩
      · simp only at hr
        split at hr
        · cases hr
        · next s'' evs' hrun =>
          simp only [Except.ok.injEq, Prod.mk.injEq] at hr
          obtain ⟨rfl, rfl⟩ := hr
          exact IH _ acc em emS E R d ds hs h s'' evs' hrun
      · subst c2
        simp only at hr
        split at hr
        · cases hr
        · next s'' evs' hrun =>
          simp only [Except.ok.injEq, Prod.mk.injEq] at hr
          obtain ⟨rfl, rfl⟩ := hr
          obtain ⟨E', R', d', ds', hO⟩ := get_oi h c1 c7 g3 c8 (fun x hx => (g2.q x hx).1.tsb) c10
          have := IH _ _ _ _ _ _ _ _ g2 hO _ _ hrun
          simp only [accepted, emitted, bytesOf, stampsOf, List.flatMap_cons] at this ⊢
          rw [← List.append_assoc, ← List.append_assoc]
          have e1 : (setSeq r k).payload = b := c9
          have e2 : stamps (setSeq r k) = stamps r := rfl
          rw [e1, e2]
          exact this
    | enq dg j now =>
      obtain ⟨s1, o1, g1, g2, g3, g4⟩ := enqueue_spec hs (now := now) (hok (.enq dg j now) (by simp))
      simp only [step, g1] at hr
      rcases g4 with ⟨rfl, rfl⟩ | ⟨i, n, c1, c2, c3, c4, c5⟩
      · simp only at hr
        split at hr
        · cases hr
        · next s'' evs' hrun =>
          simp only [Except.ok.injEq, Prod.mk.injEq] at hr
          obtain ⟨rfl, rfl⟩ := hr
          exact IH _ acc em emS E R d ds hs h s'' evs' hrun
      · obtain ⟨hss, hbd⟩ := h1s dg j now (by simp) i c1 n c2
        rw [hss] at c3 c4
        have hls := c4 h.ss
        rcases c5 with ⟨rfl, c6, -⟩ | ⟨rfl, c6, c7⟩
        · simp only at hr
          split at hr
          · cases hr
          · next s'' evs' hrun =>
            simp only [Except.ok.injEq, Prod.mk.injEq] at hr
            obtain ⟨rfl, rfl⟩ := hr
            exact IH _ acc em emS E R d ds g2 ⟨h.ord, h.sorted, by rw [c6]; exact h.bq,
              by rw [c6]; exact h.b32, by rw [hls, c6]; exact h.last0, by rw [hls, c6]; exact h.last1,
              .inr c3, h.em, h.emS⟩ s'' evs' hrun
        · simp only at hr
          split at hr
          · cases hr
          · next s'' evs' hrun =>
            simp only [Except.ok.injEq, Prod.mk.injEq] at hr
            obtain ⟨rfl, rfl⟩ := hr
            have hQ := mk_qok c1 c2 (hok (.enq dg j now) (by simp))
            obtain ⟨R', hO⟩ := insert_oi h c6 hls c3 hbd hQ.1.tsb c7
            have := IH _ _ _ _ _ _ _ _ g2 hO _ _ hrun
            simp only [accepted, emitted]
            rw [List.append_assoc] at this
            exact this

end Verif.Resizer
