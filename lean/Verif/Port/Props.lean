import Verif.Port.Lemmas

/-!
# C24, C25: port allocation and the configured range
-/

namespace Verif.Port

/-- Every RTP port of the table: an even number such that it and the next one are in the configured range. -/
def Good (min max : Int) (p : Nat) : Prop :=
  p % 2 = 0 ∧ min ≤ p ∧ (p : Int) + 1 ≤ max ∧ 1 ≤ p ∧ p + 1 ≤ 65535

theorem normalise_some {min max a b : Int} (h1 : 1 ≤ min ∧ min ≤ 65535) (h2 : 1 ≤ max ∧ max ≤ 65535)
    (h : normalise min max = some (a, b)) :
    a % 2 = 0 ∧ b % 2 = 0 ∧ min ≤ a ∧ a ≤ min + 1 ∧ b + 1 ≤ max ∧ max ≤ b + 2 ∧ a ≤ b := by
  unfold normalise at h
  simp only [] at h
  rw [Int.tmod_eq_emod_of_nonneg (by omega), Int.tmod_eq_emod_of_nonneg (by omega)] at h
  by_cases c1 : min % 2 ≠ 0 <;> by_cases c2 : max % 2 ≠ 0 <;> simp only [ne_eq, Decidable.not_not] at c1 c2 <;>
    simp only [c1, c2, ne_eq, not_false_eq_true, not_true_eq_false, if_true, if_false] at h <;>
  · split at h
    · cases h
    · simp only [Option.some.injEq, Prod.mk.injEq] at h
      omega

theorem ctor_ok (rnd : Nat → Nat) {a b : Nat} (hb : b < 65536) (hab : a ≤ b) (ha2 : a % 2 = 0) (hb2 : b % 2 = 0)
    (seq : Bool) (ctl : Nat) (k : Nat) :
    ∃ t k', ctor rnd a b seq ctl k = .ok (t, k') ∧ t.ports.Perm ((List.range ((b - a) / 2 + 1)).map (fun i => a + 2 * i)) ∧
      t.idx < t.ports.length ∧ t.ctl = ctl % 65536 ∧ t.seq = seq ∧
      (seq = true → t.ports = (List.range ((b - a) / 2 + 1)).map (fun i => a + 2 * i)) := by
  have hlen : ((b : Int) - a).tdiv 2 + 1 = (((b - a) / 2 + 1 : Nat) : Int) := by
    rw [Int.tdiv_eq_ediv_of_nonneg (by omega)]
    omega
  have hmod : ((a : Int) % 65536).toNat = a := by omega
  unfold ctor
  simp only [hlen, hmod, Int.toNat_natCast]
  rw [if_neg (by omega), linear_eq _ _ (by omega)]
  cases seq with
  | true => exact ⟨_, k, rfl, .refl _, by simp, rfl, rfl, fun _ => rfl⟩
  | false =>
    obtain ⟨l', k', e, hp⟩ := shuffle_ok rnd ((b - a) / 2 + 1) 0 ((List.range ((b - a) / 2 + 1)).map (fun i => a + 2 * i)) k
      (by simp)
    have hl : ((List.range ((b - a) / 2 + 1)).map (fun i => a + 2 * i)).length = (b - a) / 2 + 1 := by simp
    rw [hl] at e
    refine ⟨⟨l', (b - a) / 2 + 1 - 1, ctl % 65536, false⟩, k', ?_, hp, ?_, rfl, rfl, (fun h => by cases h)⟩
    · simp only [Bool.false_eq_true, if_false, e]
    · simp only [hp.length_eq, hl]; omega

/-- C25.  Start-up either refuses the settings, which happens exactly when no even port with its successor fits, or
builds, without any fault, a table of exactly the even ports that fit the configured range together with their
successors, each once. -/
theorem C25_range (rnd : Nat → Nat) (min max : Int) (h1 : 1 ≤ min ∧ min ≤ 65535) (h2 : 1 ≤ max ∧ max ≤ 65535)
    (seq : Bool) (controls : List Nat) (k : Nat) :
    (init rnd min max seq controls k = none ∧ ∀ p, ¬ Good min max p) ∨
    ∃ t k', init rnd min max seq controls k = some (.ok (t, k')) ∧ t.ports ≠ [] ∧ t.ports.Nodup ∧
      ∀ p, p ∈ t.ports ↔ Good min max p := by
  unfold init
  cases hn : normalise min max with
  | none =>
    left
    refine ⟨rfl, ?_⟩
    rintro p ⟨g1, g2, g3, g4, g5⟩
    unfold normalise at hn
    simp only [] at hn
    rw [Int.tmod_eq_emod_of_nonneg (by omega), Int.tmod_eq_emod_of_nonneg (by omega)] at hn
    by_cases c1 : min % 2 ≠ 0 <;> by_cases c2 : max % 2 ≠ 0 <;> simp only [ne_eq, Decidable.not_not] at c1 c2 <;>
      simp only [c1, c2, ne_eq, not_false_eq_true, not_true_eq_false, if_true, if_false] at hn <;>
    · split at hn
      · omega
      · cases hn
  | some x =>
    right
    obtain ⟨a, b⟩ := x
    obtain ⟨e1, e2, e3, e4, e5, e6, e7⟩ := normalise_some h1 h2 hn
    obtain ⟨a, rfl⟩ := Int.eq_ofNat_of_zero_le (by omega : 0 ≤ a)
    obtain ⟨b, rfl⟩ := Int.eq_ofNat_of_zero_le (by omega : 0 ≤ b)
    obtain ⟨t, k', f1, f2, f3, f4, f5, -⟩ := ctor_ok rnd (a := a) (b := b) (by omega) (by omega) (by omega) (by omega) seq 0 k
    refine ⟨t, k', by simp only [f1], ?_, ?_, ?_⟩
    · intro h0; rw [h0] at f3; simp at f3
    · rw [f2.nodup_iff]
      refine List.Nodup.map_on ?_ List.nodup_range
      intro x _ y _ h
      omega
    · intro p
      rw [f2.mem_iff, List.mem_map]
      unfold Good
      constructor
      · rintro ⟨i, hi, rfl⟩
        rw [List.mem_range] at hi
        omega
      · rintro ⟨g1, g2, g3, g4, g5⟩
        refine ⟨(p - a) / 2, ?_, by omega⟩
        rw [List.mem_range]
        omega

/-- Non-trivial settings: 35001–35006 gives 35002 and 35004; 35001–35002 is refused. -/
example : init (fun _ => 0) 35001 35006 true [] 0 = some (.ok (⟨[35002, 35004], 1, 0, true⟩, 0)) ∧
    init (fun _ => 0) 35001 35002 true [] 0 = none := by
  constructor <;> rfl

/-- C24, safety.  From any table built at start-up, any number of allocations with any users of the ports, whatever
`random()` returns: no fault; the table still holds exactly the ports it was built with, each once; every port
offered is one of them and neither the excluded port nor the one below it; an allocation succeeds only with a port
that its user accepted and that was the last one offered; it fails only if the user accepted none. -/
theorem C24_offered {σ : Type} (rnd : Nat → Nat) (us : List (σ → Nat → PTU × σ)) (t : Ptbl) (k : Nat) (s : σ)
    (hist : List (List (Nat × PTU) × Bool)) (hi : t.idx < t.ports.length) :
    ∃ t' k' s' h, allocs rnd us t k s hist = .ok (t', k', s', hist ++ h) ∧
      t'.ports.Perm t.ports ∧ t'.idx < t'.ports.length ∧ h.length = us.length ∧
      ∀ a ∈ h, (∀ x ∈ a.1, x.1 ∈ t.ports ∧ x.1 ≠ t.ctl ∧ x.1 + 1 ≠ t.ctl) ∧
        (a.2 = true → ∃ l p, a.1 = l ++ [(p, .ok)] ∧ ∀ x ∈ l, x.2 = .onemore) ∧
        (a.2 = false → ∀ x ∈ a.1, x.2 ≠ .ok) := by
  induction us generalizing t k s hist with
  | nil => exact ⟨t, k, s, [], by simp [allocs], .refl _, hi, rfl, by simp⟩
  | cons u us ih =>
    obtain ⟨r, e, f⟩ := getPort_facts rnd u t k s hi
    obtain ⟨l, g1, g2, g3, g4⟩ := f.log
    rw [List.nil_append] at g1
    subst g1
    obtain ⟨t', k', s', h, e1, e2, e3, e4, e5⟩ := ih r.tbl r.k r.env (hist ++ [(r.log, r.ok)])
      (by rw [f.perm.length_eq]; exact f.idx)
    refine ⟨t', k', s', (r.log, r.ok) :: h, ?_, e2.trans f.perm, e3, by simp [e4], ?_⟩
    · simp only [allocs, e, e1]; simp
    · intro a ha
      rcases List.mem_cons.1 ha with rfl | ha
      · exact ⟨g2, g3, g4⟩
      · obtain ⟨h1, h2⟩ := e5 a ha
        refine ⟨fun x hx => ?_, h2⟩
        obtain ⟨b1, b2, b3⟩ := h1 x hx
        rw [f.ctl] at b2 b3
        exact ⟨f.perm.subset b1, b2, b3⟩

/-- C24 together with C25: the server only ever offers even ports that fit the configured range together with the
RTCP port. -/
theorem C24_offered_range {σ : Type} (rnd : Nat → Nat) (min max : Int) (h1 : 1 ≤ min ∧ min ≤ 65535)
    (h2 : 1 ≤ max ∧ max ≤ 65535) (seq : Bool) (controls : List Nat) (k : Nat) (t : Ptbl) (k' : Nat)
    (ht : init rnd min max seq controls k = some (.ok (t, k'))) (us : List (σ → Nat → PTU × σ)) (s : σ) :
    ∃ t' k'' s' h, allocs rnd us t k' s [] = .ok (t', k'', s', h) ∧ ∀ a ∈ h, ∀ x ∈ a.1, Good min max x.1 := by
  have hi : t.idx < t.ports.length := by
    unfold init at ht
    cases hn : normalise min max with
    | none => rw [hn] at ht; cases ht
    | some x =>
      obtain ⟨a, b⟩ := x
      rw [hn] at ht
      obtain ⟨e1, e2, e3, e4, e5, e6, e7⟩ := normalise_some h1 h2 hn
      obtain ⟨a, rfl⟩ := Int.eq_ofNat_of_zero_le (by omega : 0 ≤ a)
      obtain ⟨b, rfl⟩ := Int.eq_ofNat_of_zero_le (by omega : 0 ≤ b)
      obtain ⟨t2, k2, f1, f2, f3, -⟩ := ctor_ok rnd (a := a) (b := b) (by omega) (by omega) (by omega) (by omega) seq 0 k
      simp only [f1, Option.some.injEq, Except.ok.injEq, Prod.mk.injEq] at ht
      obtain ⟨rfl, rfl⟩ := ht
      exact f3
  obtain ⟨t', k'', s', h, e1, -, -, -, e5⟩ := C24_offered rnd us t k' s [] hi
  refine ⟨t', k'', s', h, e1, fun a ha x hx => ?_⟩
  have := ((e5 a ha).1 x hx).1
  rcases C25_range rnd min max h1 h2 seq controls k with ⟨e, -⟩ | ⟨t2, k2, e, -, -, e3⟩
  · rw [e] at ht; cases ht
  · rw [e] at ht
    simp only [Option.some.injEq, Except.ok.injEq, Prod.mk.injEq] at ht
    obtain ⟨rfl, rfl⟩ := ht
    exact (e3 _).1 this

/-- The control port is not excluded: `init` leaves the excluded port at zero whatever ports the control sockets use,
so with a control socket on UDP port 35002 that port is offered. -/
theorem C24_control_port_counterexample :
    ∃ t k', init (fun _ => 0) 35000 35005 true [35002] 0 = some (.ok (t, k')) ∧
      ∃ r, getPort (σ := Unit) (fun _ => 0) (fun _ p => (if p = 35002 then .ok else .onemore, ())) t k' () = .ok r ∧
        (35002, PTU.ok) ∈ r.log := by
  refine ⟨⟨[35000, 35002, 35004], 2, 0, true⟩, 0, rfl, ⟨⟨[35000, 35002, 35004], 1, 0, true⟩, 0, (), [(35000, .onemore), (35002, .ok)], true⟩, rfl, by simp⟩

/-- Answers of a user that takes any free port. -/
def takeFree (free : Nat → Bool) : Unit → Nat → PTU × Unit := fun _ p => (if free p then .ok else .onemore, ())

/-- Result of one allocation: success and the new table. -/
def tryAlloc (rnd : Nat → Nat) (free : Nat → Bool) (t : Ptbl) : Option (Bool × List (Nat × PTU)) :=
  match getPort rnd (takeFree free) t 0 () with
  | .ok r => some (r.ok, r.log)
  | .error _ => none

/-- C24, completeness, is false: with a single port in range nothing is ever tried; the port used last is not
tried although it may be the only free one; and in random mode a busy port can be tried twice in place of a free
one that is not the last used. -/
theorem C24_free_port_counterexample :
    (init (fun _ => 0) 35000 35001 true [] 0 = some (.ok (⟨[35000], 0, 0, true⟩, 0)) ∧
      tryAlloc (fun _ => 0) (fun _ => true) ⟨[35000], 0, 0, true⟩ = some (false, [])) ∧
    (init (fun _ => 0) 35000 35003 true [] 0 = some (.ok (⟨[35000, 35002], 1, 0, true⟩, 0)) ∧
      tryAlloc (fun _ => 0) (fun p => p = 35002) ⟨[35000, 35002], 1, 0, true⟩ = some (false, [(35000, .onemore)])) ∧
    tryAlloc (fun _ => 1) (fun p => p = 35002) ⟨[35000, 35002, 35004], 2, 0, false⟩ =
      some (false, [(35000, .onemore), (35000, .onemore)]) := by
  refine ⟨⟨rfl, rfl⟩, ⟨rfl, rfl⟩, rfl⟩

/-- C24, completeness, in sequential mode: if some port of the table other than the last used one is free and not
excluded, the allocation succeeds with the first such port in rotation after the last used one, and remembers it. -/
theorem C24_sequential_partial (rnd : Nat → Nat) (free : Nat → Bool) (t : Ptbl) (k : Nat) (hseq : t.seq = true)
    (d : Nat) (hd : 1 ≤ d) (hd2 : d < t.ports.length)
    (p : Nat) (hp : t.ports[(t.idx + d) % t.ports.length]? = some p)
    (hfree : free p = true ∧ p ≠ t.ctl ∧ p + 1 ≠ t.ctl)
    (hfirst : ∀ d' q, 1 ≤ d' → d' < d → t.ports[(t.idx + d') % t.ports.length]? = some q →
      ¬ (free q = true ∧ q ≠ t.ctl ∧ q + 1 ≠ t.ctl)) :
    ∃ r, getPort rnd (takeFree free) t k () = .ok r ∧ r.ok = true ∧ r.log.getLast? = some (p, .ok) ∧
      r.tbl = { t with idx := (t.idx + d) % t.ports.length } := by
  unfold getPort
  have key : ∀ (m n i : Nat) (log : List (Nat × PTU)), i + m = d → n = t.ports.length - i → 1 ≤ i →
      ∃ r, getLoop rnd (takeFree free) t.idx t.ports.length n i t k () log = .ok r ∧ r.ok = true ∧
        r.log.getLast? = some (p, .ok) ∧ r.tbl = { t with idx := (t.idx + d) % t.ports.length } := by
    intro m
    induction m with
    | zero =>
      intro n i log him hn h1
      have : i = d := by omega
      subst this
      obtain ⟨n, rfl⟩ : ∃ n', n = n' + 1 := ⟨n - 1, by omega⟩
      simp only [getLoop, rd, hp]
      rw [if_neg (by omega)]
      simp only [takeFree, hfree.1, if_true, reshuffle, hseq]
      exact ⟨_, rfl, rfl, by simp, rfl⟩
    | succ m ih =>
      intro n i log him hn h1
      obtain ⟨n, rfl⟩ : ∃ n', n = n' + 1 := ⟨n - 1, by omega⟩
      have hx : (t.idx + i) % t.ports.length < t.ports.length := Nat.mod_lt _ (by omega)
      have hg := List.getElem?_eq_getElem hx
      have hno := hfirst i _ h1 (by omega) hg
      generalize t.ports[(t.idx + i) % t.ports.length] = q at hg hno
      simp only [getLoop, rd, hg]
      by_cases hc : q = t.ctl ∨ (q : Int) = (t.ctl : Int) - 1
      · rw [if_pos hc]
        exact ih n (i + 1) log (by omega) (by omega) (by omega)
      · rw [if_neg hc]
        have hb : free q = false := by
          cases hfq : free q with
          | false => rfl
          | true => exact absurd ⟨hfq, by omega, by omega⟩ hno
        have hr : reshuffle rnd t.ports.length t ((t.idx + i) % t.ports.length) q k = .ok (t.ports, k) := by
          simp only [reshuffle, hseq, if_true]
        simp only [takeFree, hb, Bool.false_eq_true, if_false, hr]
        exact ih n (i + 1) _ (by omega) (by omega) (by omega)
  exact key (d - 1) _ 1 [] (by omega) rfl (by omega)

/-- The hypotheses are met by a table where the first candidate is busy and the second is excluded. -/
example : ∃ r, getPort (fun _ => 0) (takeFree (fun p => p = 35006)) ⟨[35000, 35002, 35004, 35006], 0, 35005, true⟩ 0 () =
      .ok r ∧ r.ok = true ∧ r.log.getLast? = some (35006, .ok) :=
  let ⟨r, a, b, c, _⟩ := C24_sequential_partial (fun _ => 0) (fun p => p = 35006) ⟨[35000, 35002, 35004, 35006], 0, 35005, true⟩
    0 rfl 3 (by decide) (by decide) 35006 rfl (by decide) (by
      intro d' q h1 h2 h3
      have : d' = 1 ∨ d' = 2 := by omega
      rcases this with rfl | rfl
      · simp at h3; subst h3; simp
      · simp at h3; subst h3; simp)
  ⟨r, a, b, c⟩

/-- C24, completeness, in either mode: if every port is free, an allocation from a table of at least three even ports
succeeds. -/
theorem C24_all_free_partial (rnd : Nat → Nat) (t : Ptbl) (k : Nat) (hi : t.idx < t.ports.length)
    (h3 : 3 ≤ t.ports.length) (hnd : t.ports.Nodup) (hev : ∀ p ∈ t.ports, p % 2 = 0) :
    ∃ r, getPort rnd (takeFree (fun _ => true)) t k () = .ok r ∧ r.ok = true := by
  have x1 : (t.idx + 1) % t.ports.length < t.ports.length := Nat.mod_lt _ (by omega)
  have x2 : (t.idx + 2) % t.ports.length < t.ports.length := Nat.mod_lt _ (by omega)
  have g1 := List.getElem?_eq_getElem x1
  have g2 := List.getElem?_eq_getElem x2
  have hne : (t.idx + 1) % t.ports.length ≠ (t.idx + 2) % t.ports.length := by
    by_cases h : t.idx + 2 < t.ports.length
    · rw [Nat.mod_eq_of_lt (by omega), Nat.mod_eq_of_lt h]; omega
    · by_cases h' : t.idx + 1 < t.ports.length
      · rw [Nat.mod_eq_of_lt h', show t.idx + 2 = 0 + t.ports.length * 1 by omega, Nat.add_mul_mod_self_left]
        simp
      · rw [show t.idx + 2 = 1 + t.ports.length * 1 by omega, show t.idx + 1 = 0 + t.ports.length * 1 by omega,
          Nat.add_mul_mod_self_left, Nat.add_mul_mod_self_left, Nat.mod_eq_of_lt (by omega), Nat.mod_eq_of_lt (by omega)]
        omega
  have hpne : t.ports[(t.idx + 1) % t.ports.length] ≠ t.ports[(t.idx + 2) % t.ports.length] := by
    intro h
    exact hne ((List.Nodup.getElem_inj_iff hnd).1 h)
  have e1 := hev _ (List.getElem_mem x1)
  have e2 := hev _ (List.getElem_mem x2)
  generalize t.ports[(t.idx + 1) % t.ports.length] = p1 at g1 hpne e1
  generalize t.ports[(t.idx + 2) % t.ports.length] = p2 at g2 hpne e2
  have hstep : ∀ n i p log, t.ports[(t.idx + i) % t.ports.length]? = some p → ¬ (p = t.ctl ∨ (p : Int) = (t.ctl : Int) - 1) →
      ∃ r, getLoop rnd (takeFree (fun _ => true)) t.idx t.ports.length (n + 1) i t k () log = .ok r ∧ r.ok = true := by
    intro n i p log hg hc
    simp only [getLoop, rd, hg]
    rw [if_neg hc]
    simp only [takeFree, if_true]
    obtain ⟨l', k', e, -⟩ := reshuffle_ok rnd (k := k) hg (len := t.ports.length) rfl (by omega)
    rw [e]
    exact ⟨_, rfl, rfl⟩
  unfold getPort
  obtain ⟨n, hn⟩ : ∃ n, t.ports.length - 1 = n + 1 + 1 := ⟨t.ports.length - 3, by omega⟩
  rw [hn]
  by_cases hc : p1 = t.ctl ∨ (p1 : Int) = (t.ctl : Int) - 1
  · rw [getLoop]
    simp only [rd, g1]
    rw [if_pos hc]
    exact hstep n 2 p2 [] g2 (by omega)
  · exact hstep (n + 1) 1 p1 [] g1 hc

/-- An allocation with the pair of listeners either leaves open exactly the two sockets for an even offered port and
its successor and reports that port, or leaves no socket behind and reports nothing. -/
theorem C24_listeners (rnd : Nat → Nat) (sys : Nat → Nat → Sys) (t : Ptbl) (k : Nat) (n : Net)
    (hi : t.idx < t.ports.length) :
    ∃ r, getPort rnd (twin sys) t k n = .ok r ∧
      ((r.ok = true ∧ ∃ p ∈ t.ports, p ≠ t.ctl ∧ p + 1 ≠ t.ctl ∧ r.env.opened = (p + 1) :: p :: n.opened ∧
          r.env.reported = some p) ∨
       (r.ok = false ∧ r.env.opened = n.opened ∧ r.env.reported = n.reported)) := by
  obtain ⟨r, e, f⟩ := getPort_facts rnd (twin sys) t k n hi
  refine ⟨r, e, ?_⟩
  have htw : ∀ n p, ((twin sys n p).1 = .ok ∧ (twin sys n p).2.opened = (p + 1) :: p :: n.opened ∧
        (twin sys n p).2.reported = some p) ∨
      ((twin sys n p).1 ≠ .ok ∧ (twin sys n p).2.opened = n.opened ∧ (twin sys n p).2.reported = n.reported) := by
    intro n p
    unfold twin listener
    cases sys n.calls p <;> simp
    cases sys (n.calls + 1) (p + 1) <;> simp
  have key : ∀ (m i : Nat) (t' : Ptbl) (k : Nat) (n' : Net) (log : List (Nat × PTU)), t'.ports.Perm t.ports → t'.ctl = t.ctl →
      n'.opened = n.opened → n'.reported = n.reported → ∀ r,
      getLoop rnd (twin sys) t.idx t.ports.length m i t' k n' log = .ok r →
      ((r.ok = true ∧ ∃ p ∈ t.ports, p ≠ t.ctl ∧ p + 1 ≠ t.ctl ∧ r.env.opened = (p + 1) :: p :: n.opened ∧
          r.env.reported = some p) ∨
       (r.ok = false ∧ r.env.opened = n.opened ∧ r.env.reported = n.reported)) := by
    intro m
    induction m with
    | zero =>
      intro i t' k n' log _ _ h1 h2 r hr
      simp only [getLoop, Except.ok.injEq] at hr
      subst hr
      exact .inr ⟨rfl, h1, h2⟩
    | succ m ih =>
      intro i t' k n' log hp hctl h1 h2 r hr
      have hx : (t.idx + i) % t.ports.length < t'.ports.length := by
        rw [hp.length_eq]; exact Nat.mod_lt _ (by omega)
      have hg := List.getElem?_eq_getElem hx
      generalize t'.ports[(t.idx + i) % t.ports.length] = q at hg
      simp only [getLoop, rd, hg] at hr
      by_cases hc : q = t'.ctl ∨ (q : Int) = (t'.ctl : Int) - 1
      · rw [if_pos hc] at hr
        exact ih _ _ _ _ _ hp hctl h1 h2 r hr
      · rw [if_neg hc] at hr
        obtain ⟨l', k', e', hp'⟩ := reshuffle_ok rnd (k := k) hg (len := t.ports.length) hp.length_eq (by omega)
        rw [e'] at hr
        have hq := htw n' q
        cases hu : twin sys n' q with
        | mk rval s' =>
          rw [hu] at hr hq
          cases rval with
          | ok =>
            simp only [Except.ok.injEq] at hr
            subst hr
            rcases hq with ⟨-, q1, q2⟩ | ⟨q0, -⟩
            · refine .inl ⟨rfl, q, hp.subset (List.mem_of_getElem? hg), by omega, by omega, by rw [q1, h1], q2⟩
            · exact absurd rfl q0
          | brkerr =>
            simp only [Except.ok.injEq] at hr
            subst hr
            rcases hq with ⟨q0, -⟩ | ⟨-, q1, q2⟩
            · cases q0
            · exact .inr ⟨rfl, by rw [q1, h1], by rw [q2, h2]⟩
          | onemore =>
            rcases hq with ⟨q0, -⟩ | ⟨-, q1, q2⟩
            · cases q0
            · exact ih _ { t' with ports := l' } _ _ _ (hp'.trans hp) hctl (by rw [q1, h1]) (by rw [q2, h2]) r hr
  exact key _ _ t k n [] (.refl _) rfl rfl rfl r e

/-- Non-trivial: the first port's successor is taken, so the next pair is used. -/
example : ∃ r, getPort (fun _ => 5) (twin (fun _ p => if p = 35001 then .inUse else .good)) ⟨[35000, 35002, 35004], 2, 0, true⟩ 0
    ⟨[], 0, none⟩ = .ok r ∧ r.env = ⟨[35003, 35002], 4, some 35002⟩ := ⟨_, rfl, rfl⟩

end Verif.Port
