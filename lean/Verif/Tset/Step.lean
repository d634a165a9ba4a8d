import Verif.Tset.Inv

/-! # C64: the searches, and the invariant over histories -/

namespace Verif.Tset

theorem findName_some {n : Bytes} {l : List Target} {i h : Nat} (e : findName n l i = some h) :
    ∃ k x, h = i + k ∧ l[k]? = some x ∧ x.name = some n ∧
      (named l).find? (fun y => decide (y.1 = n)) = some (n, x.dest) := by
  induction l generalizing i with
  | nil => cases e
  | cons a l ih =>
    rw [findName] at e
    split at e
    · rename_i hn
      obtain ⟨k, x, e1, e2, e3, e4⟩ := ih e
      refine ⟨k + 1, x, by omega, by simpa using e2, e3, ?_⟩
      simpa [named, hn] using e4
    · rename_i m hn
      split at e
      · rename_i hm
        injection e with e
        refine ⟨0, a, by omega, rfl, by rw [hn, hm], ?_⟩
        simp [named, hn, hm]
      · rename_i hm
        obtain ⟨k, x, e1, e2, e3, e4⟩ := ih e
        refine ⟨k + 1, x, by omega, by simpa using e2, e3, ?_⟩
        simpa [named, hn, hm] using e4

theorem findName_none {n : Bytes} {l : List Target} {i : Nat} :
    findName n l i = none ↔ ∀ y ∈ named l, y.1 ≠ n := by
  induction l generalizing i with
  | nil => simp [findName, named]
  | cons a l ih =>
    rw [findName]
    cases hn : a.name with
    | none => simpa [named, hn] using ih
    | some m =>
      simp only
      by_cases hm : m = n
      · simp [named, hn, hm]
      · rw [if_neg hm, ih]
        simp [named, hn, hm]

theorem findBare_eq {n : Bytes} {l : List Target} (i : Nat)
    (h : ∀ x ∈ l, ∀ m, x.name = some m → (unixP <+: m ↔ ∃ p, x.dest = .unix p)) :
    findBare n l i = .ok (findName (unixP ++ n) l i) := by
  induction l generalizing i with
  | nil => rfl
  | cons a l ih =>
    have ih' := fun i => ih i (fun x hx => h x (by simp [hx]))
    have ha := h a (by simp)
    rw [findBare, findName]
    cases hn : a.name with
    | none => exact ih' _
    | some m =>
      simp only
      cases hd : a.dest with
      | unix p =>
        obtain ⟨q, rfl⟩ := (ha m hn).2 ⟨p, hd⟩
        simp only
        rw [if_neg (by simp [unixP])]
        have e : (unixP ++ q).drop 5 = q := rfl
        rw [e]
        by_cases hq : q = n
        · subst hq; simp
        · rw [if_neg hq, if_neg (fun e => hq (List.append_cancel_left e))]
          exact ih' _
      | inet b c =>
        simp only
        rw [if_neg, ih']
        intro e
        obtain ⟨p, hp⟩ := (ha m hn).1 ⟨n, e.symm⟩
        rw [hd] at hp; cases hp
      | fd b =>
        simp only
        rw [if_neg, ih']
        intro e
        obtain ⟨p, hp⟩ := (ha m hn).1 ⟨n, e.symm⟩
        rw [hd] at hp; cases hp

theorem findAuto_some {host port : Nat} {l : List Target} {i h : Nat} (e : findAuto host port l i = some h) :
    ∃ k x, h = i + k ∧ l[k]? = some x ∧ x.name = none ∧ x.dest = .inet host port := by
  induction l generalizing i with
  | nil => cases e
  | cons a l ih =>
    have skip : findAuto host port l (i + 1) = some h → ∃ k x, h = i + k ∧ (a :: l)[k]? = some x ∧
        x.name = none ∧ x.dest = .inet host port := by
      intro e
      obtain ⟨k, x, e1, e2, e3⟩ := ih e
      exact ⟨k + 1, x, by omega, by simpa using e2, e3⟩
    rw [findAuto] at e
    split at e
    · exact skip e
    · rename_i hn
      split at e
      · rename_i a' b' hd
        split at e
        · exact skip e
        · split at e
          · exact skip e
          · rename_i c1 c2
            injection e with e
            refine ⟨0, a, by omega, rfl, hn, ?_⟩
            rw [hd, Decidable.not_not.1 c1, Decidable.not_not.1 c2]
      · exact skip e

theorem findAuto_none {host port : Nat} {l : List Target} {i : Nat} (e : findAuto host port l i = none) :
    Dest.inet host port ∉ autos l := by
  induction l generalizing i with
  | nil => simp [autos]
  | cons a l ih =>
    rw [findAuto] at e
    split at e
    · rename_i hn
      simpa [autos, hn] using ih e
    · rename_i hn
      have cons : a.dest ≠ .inet host port → Dest.inet host port ∉ autos l → Dest.inet host port ∉ autos (a :: l) := by
        intro h1 h2
        simp only [autos] at h2 ⊢
        rw [List.filter_cons, if_pos (by rw [hn]; rfl), List.map_cons, List.mem_cons, not_or]
        exact ⟨fun e => h1 e.symm, h2⟩
      split at e
      · rename_i a' b' hd
        split at e
        · rename_i c
          exact cons (by rw [hd]; intro e'; injection e' with e1 e2; exact c e1) (ih e)
        · split at e
          · rename_i c
            exact cons (by rw [hd]; intro e'; injection e' with e1 e2; exact c e2) (ih e)
          · cases e
      · rename_i hd
        exact cons (hd host port) (ih e)

theorem findWild_some {n : Bytes} {l : List Wild} {w : Wild} (e : findWild n l = some w) : w ∈ l ∧ w.name = n := by
  induction l with
  | nil => cases e
  | cons a l ih =>
    rw [findWild] at e
    split at e
    · exact ⟨List.mem_cons_of_mem _ (ih e).1, (ih e).2⟩
    · rename_i h
      injection e with e
      subst e
      exact ⟨by simp, Decidable.not_not.1 h⟩

theorem findWild_none {n : Bytes} {l : List Wild} : findWild n l = none ↔ ∀ w ∈ l, w.name ≠ n := by
  induction l with
  | nil => simp [findWild]
  | cons a l ih =>
    rw [findWild]
    by_cases h : a.name = n
    · simp [h]
    · rw [if_pos h, ih]; simp [h]

theorem findWildFam_some {n : Bytes} {cc : Option Sa} {l : List Wild} {w : Wild} (e : findWildFam n cc l = some w) :
    w ∈ l ∧ w.name = n := by
  induction l with
  | nil => cases e
  | cons a l ih =>
    have skip : findWildFam n cc l = some w → w ∈ a :: l ∧ w.name = n :=
      fun e => ⟨List.mem_cons_of_mem _ (ih e).1, (ih e).2⟩
    rw [findWildFam.eq_def] at e
    simp only at e
    split at e
    · exact skip e
    · rename_i h
      have take : some a = some w → w ∈ a :: l ∧ w.name = n := by
        intro e
        injection e with e
        subst e
        exact ⟨by simp, Decidable.not_not.1 h⟩
      split at e
      · exact take e
      · exact take e
      · exact skip e

/-- The part of `lookup` for wildcards. -/
def byWild (n : Bytes) (cc la : Option Sa) (m1 m2 : Bool) (t : St) : Except Fault (St × Option Nat) :=
  match findWildFam n cc t.wps with
  | some w => getTp4wp w cc la m1 m2 t
  | none =>
    match findWild n t.wps with
    | some w => getTp4wp w cc la m1 m2 t
    | none => .ok (t, none)

theorem byWild_none {n : Bytes} {cc la : Option Sa} {m1 m2 : Bool} {t : St} (h : ∀ w ∈ t.wps, w.name ≠ n) :
    byWild n cc la m1 m2 t = .ok (t, none) := by
  unfold byWild
  cases h1 : findWildFam n cc t.wps with
  | some w => exact absurd (findWildFam_some h1).2 (h w (findWildFam_some h1).1)
  | none =>
    simp only
    rw [findWild_none.2 h]

theorem byWild_some {n : Bytes} {cc la : Option Sa} {m1 m2 : Bool} {t : St} {w : Wild} (hw : w ∈ t.wps) (hn : w.name = n) :
    ∃ w' ∈ t.wps, w'.name = n ∧ byWild n cc la m1 m2 t = getTp4wp w' cc la m1 m2 t := by
  unfold byWild
  cases h1 : findWildFam n cc t.wps with
  | some w' => exact ⟨w', (findWildFam_some h1).1, (findWildFam_some h1).2, rfl⟩
  | none =>
    simp only
    cases h2 : findWild n t.wps with
    | some w' => exact ⟨w', (findWild_some h2).1, (findWild_some h2).2, rfl⟩
    | none => exact absurd hn (findWild_none.1 h2 w hw)

theorem lookup_named {n : Bytes} {cc la : Option Sa} {m1 m2 : Bool} {t : St} {i : Nat} (h : findName n t.tps 0 = some i) :
    lookup n cc la m1 m2 t = .ok (t, some i) := by
  unfold lookup; rw [h]

theorem lookup_wild {n : Bytes} {cc la : Option Sa} {m1 m2 : Bool} {t : St} (h : findName n t.tps 0 = none)
    (hc : n.contains 58 = true) (hf : ¬ fdP <+: n) :
    lookup n cc la m1 m2 t = byWild n cc la m1 m2 t := by
  unfold lookup
  rw [h]
  simp only
  rw [if_neg (by rw [hc]; simp), if_neg (by rw [isPrefixOf_iff]; exact hf)]
  rfl

theorem Inv.bare {lib : Bool} {res : Bytes → Option Nat} {acc : List Bytes} {t : St} (h : Inv lib res acc t)
    (n : Bytes) (i : Nat) : findBare n t.tps i = .ok (findName (unixP ++ n) t.tps i) := by
  refine findBare_eq i (fun x hx m hm => ?_)
  obtain ⟨s, -, hs⟩ := h.name_shape hx hm
  exact (parse_target hs).2

theorem Inv.wild {lib : Bool} {res : Bytes → Option Nat} {acc : List Bytes} {t : St} (h : Inv lib res acc t)
    {w : Wild} (hw : w ∈ t.wps) : w.name ∈ acc ∧ parse lib res w.name = .wild w.name w.port ∧ tcpP <+: w.name ∧
      1 ≤ w.port ∧ w.port ≤ 65535 := by
  rw [h.wps] at hw
  obtain ⟨s, hs, he⟩ := List.mem_filterMap.1 hw
  unfold asWild at he
  split at he
  · rename_i n p hp
    injection he with he
    subst he
    obtain ⟨a, b, c, d⟩ := parse_wild hp
    subst a
    exact ⟨hs, hp, b, c, d⟩
  · cases he

/-- What `get_tp4wp` does. -/
inductive Got (w : Wild) (cc la : Option Sa) (m1 m2 : Bool) (t : St) : St → Option Nat → Prop
  | old {i : Nat} {x : Target} (h : t.tps[i]? = some x) (hn : x.name = none) (hd : x.dest = .inet (ccHost cc) w.port) :
      Got w cc la m1 m2 t t (some i)
  | no (h : Dest.inet (ccHost cc) w.port ∉ autos t.tps) (hr : t.tps.length = 64 ∨ m1 = false ∨ m2 = false) :
      Got w cc la m1 m2 t t none
  | new (src : Option Sa) (hs : src = at4 la) (h : Dest.inet (ccHost cc) w.port ∉ autos t.tps) (hl : t.tps.length < 64) :
      Got w cc la m1 m2 t { t with tps := t.tps ++ [⟨none, .inet (ccHost cc) w.port, src⟩] } (some t.tps.length)

theorem getTp4wp_got {w : Wild} {cc la : Option Sa} {m1 m2 : Bool} {t : St} (hp : 1 ≤ w.port ∧ w.port ≤ 65535)
    (hl : t.tps.length ≤ 64) :
    ∃ t' r, getTp4wp w cc la m1 m2 t = .ok (t', r) ∧ Got w cc la m1 m2 t t' r := by
  unfold getTp4wp
  cases h1 : findAuto (ccHost cc) w.port t.tps 0 with
  | some i =>
    obtain ⟨k, x, e1, e2, e3, e4⟩ := findAuto_some h1
    have : k = i := by omega
    subst this
    exact ⟨_, _, rfl, .old e2 e3 e4⟩
  | none =>
    have hno := findAuto_none h1
    simp only
    split
    · rename_i c
      exact ⟨_, _, rfl, .no hno (.inl c)⟩
    · split
      · rename_i c
        exact ⟨_, _, rfl, .no hno (.inr (.inl (by simpa using c)))⟩
      · split
        · split
          · rename_i c
            exact ⟨_, _, rfl, .no hno (.inr (.inr (by simpa using c)))⟩
          · rw [if_neg (by omega)]
            exact ⟨_, _, rfl, .new _ rfl hno (by omega)⟩
        · rename_i hla
          rw [if_neg (by omega)]
          refine ⟨_, _, rfl, .new _ ?_ hno (by omega)⟩
          unfold at4
          split
          · exact absurd rfl (hla _ _)
          · rfl

theorem Got.inv {lib : Bool} {res : Bytes → Option Nat} {acc : List Bytes} {w : Wild} {cc la : Option Sa} {m1 m2 : Bool} {t t' : St}
    {r : Option Nat} (h : Got w cc la m1 m2 t t' r) (hi : Inv lib res acc t)
    (hw : w ∈ t.wps) : Inv lib res acc t' ∧ t.tps <+: t'.tps ∧
      (∀ i, r = some i → ∃ x, t'.tps[i]? = some x ∧ x.name = none ∧ x.dest = .inet (ccHost cc) w.port) := by
  cases h with
  | old h hn hd =>
    exact ⟨hi, List.prefix_refl _, fun i e => by injection e with e; subst e; exact ⟨_, h, hn, hd⟩⟩
  | no _ _ => exact ⟨hi, List.prefix_refl _, fun i e => by cases e⟩
  | new src hs h hl =>
    refine ⟨⟨hi.ok, ?_, hi.wps, ?_, ?_, fun _ _ _ => List.ne_nil_of_mem hw, ?_, ?_, hi.l2⟩, ⟨_, rfl⟩, ?_⟩
    · have := hi.tps
      simp only [named, List.filterMap_append] at this ⊢
      simpa using this
    · intro x hx hn
      rcases List.mem_append.1 hx with hx | hx
      · exact hi.src x hx hn
      · rw [List.mem_singleton] at hx; subst hx; exact absurd rfl hn
    · intro x hx hn
      rcases List.mem_append.1 hx with hx | hx
      · exact hi.auto x hx hn
      · rw [List.mem_singleton] at hx; subst hx; exact ⟨_, _, rfl⟩
    · have ho := hi.once
      simp only [autos, List.filter_append, List.map_append] at ho h ⊢
      rw [List.nodup_append]
      refine ⟨ho, by simp, ?_⟩
      intro a ha b hb
      simp at hb
      subst hb
      intro e
      subst e
      exact h ha
    · simp only [List.length_append, List.length_singleton]; omega
    · intro i e
      injection e with e
      subst e
      exact ⟨⟨none, .inet (ccHost cc) w.port, src⟩, by simp, rfl, rfl⟩

theorem lookup_inv {lib : Bool} {res : Bytes → Option Nat} {acc : List Bytes} {t : St} (h : Inv lib res acc t)
    (n : Bytes) (cc la : Option Sa) (m1 m2 : Bool) :
    ∃ t' r, lookup n cc la m1 m2 t = .ok (t', r) ∧ Inv lib res acc t' ∧ t.tps <+: t'.tps := by
  cases h1 : findName n t.tps 0 with
  | some i => exact ⟨t, _, lookup_named h1, h, List.prefix_refl _⟩
  | none =>
    unfold lookup
    rw [h1, h.bare]
    simp only
    split
    · exact ⟨_, _, rfl, h, List.prefix_refl _⟩
    · split
      · exact ⟨_, _, rfl, h, List.prefix_refl _⟩
      · have hb : ∃ t' r, byWild n cc la m1 m2 t = .ok (t', r) ∧ Inv lib res acc t' ∧ t.tps <+: t'.tps := by
          by_cases hw : ∃ w ∈ t.wps, w.name = n
          · obtain ⟨w, hw1, hw2⟩ := hw
            obtain ⟨w', hw1', -, e⟩ := byWild_some (cc := cc) (la := la) (m1 := m1) (m2 := m2) hw1 hw2
            obtain ⟨t', r, e', g⟩ := getTp4wp_got (cc := cc) (la := la) (m1 := m1) (m2 := m2) (h.wild hw1').2.2.2 h.l64
            exact ⟨t', r, by rw [e, e'], (g.inv h hw1').1, (g.inv h hw1').2.1⟩
          · exact ⟨t, none, byWild_none (fun w hw1 hw2 => hw ⟨w, hw1, hw2⟩), h, List.prefix_refl _⟩
        exact hb

theorem run_inv {lib : Bool} {res : Bytes → Option Nat} {acc : List Bytes} {t : St} (h : Inv lib res acc t)
    (es : List Ev) : ∃ t' as, run lib res t es = .ok (t', as) ∧ Inv lib res (acc ++ accepted es as) t' ∧
      t.tps <+: t'.tps := by
  induction es generalizing t acc with
  | nil => exact ⟨t, [], rfl, by simpa [accepted] using h, List.prefix_refl _⟩
  | cons e es ih =>
    cases e with
    | conf s m1 m2 =>
      obtain ⟨h1, h2⟩ := h.append m1 m2 s
      have hp : t.tps <+: (append lib res m1 m2 s t).1.tps := by
        unfold append
        split
        · exact List.prefix_refl _
        · (repeat' split) <;> first | exact List.prefix_refl _ | exact ⟨_, rfl⟩
        · (repeat' split) <;> exact List.prefix_refl _
      cases hr : (append lib res m1 m2 s t).2 with
      | true =>
        obtain ⟨t', as, e1, e2, e3⟩ := ih (h1 hr)
        refine ⟨t', .took true :: as, ?_, ?_, hp.trans e3⟩
        · unfold run step; simp only; rw [e1, hr]
        · simpa [accepted] using e2
      | false =>
        rw [h2 hr] at hp
        obtain ⟨t', as, e1, e2, e3⟩ := ih h
        refine ⟨t', .took false :: as, ?_, ?_, hp.trans e3⟩
        · unfold run step; simp only; rw [h2 hr, e1, hr]
        · simpa [accepted] using e2
    | ask n cc la m1 m2 =>
      obtain ⟨t1, r, e1, h1, hp⟩ := lookup_inv h n cc la m1 m2
      obtain ⟨t', as, e2, h2, hp2⟩ := ih h1
      refine ⟨t', .found r :: as, ?_, ?_, hp.trans hp2⟩
      · unfold run step; simp only; rw [e1]; simp only; rw [e2]
      · simpa [accepted] using h2

theorem autos_inj {l : List Target} (h : (autos l).Nodup) {i j : Nat} {x y : Target} (hx : l[i]? = some x)
    (hy : l[j]? = some y) (nx : x.name = none) (ny : y.name = none) (hd : x.dest = y.dest) : i = j := by
  induction l generalizing i j with
  | nil => simp at hx
  | cons a l ih =>
    have htail : (autos l).Nodup := by
      unfold autos at h ⊢
      rw [List.filter_cons] at h
      split at h
      · exact (List.nodup_cons.1 h).2
      · exact h
    have mem : ∀ {k : Nat} {z : Target}, l[k]? = some z → z.name = none → z.dest ∈ autos l := by
      intro k z hz nz
      exact List.mem_map.2 ⟨z, List.mem_filter.2 ⟨List.mem_of_getElem? hz, by rw [nz]; rfl⟩, rfl⟩
    have fresh : a.name = none → a.dest ∉ autos l := by
      intro na
      unfold autos at h ⊢
      rw [List.filter_cons, if_pos (by rw [na]; rfl), List.map_cons] at h
      exact (List.nodup_cons.1 h).1
    cases i with
    | zero =>
      cases j with
      | zero => rfl
      | succ j =>
        simp only [List.getElem?_cons_zero, Option.some.injEq] at hx
        simp only [List.getElem?_cons_succ] at hy
        subst hx
        exact absurd (hd ▸ mem hy ny) (fresh nx)
    | succ i =>
      cases j with
      | zero =>
        simp only [List.getElem?_cons_zero, Option.some.injEq] at hy
        simp only [List.getElem?_cons_succ] at hx
        subst hy
        exact absurd (hd ▸ mem hx nx) (fresh ny)
      | succ j =>
        simp only [List.getElem?_cons_succ] at hx hy
        rw [ih htail hx hy]

end Verif.Tset
