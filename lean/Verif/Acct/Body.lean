import Verif.Acct.Steps

/-! # The contents of the files -/

namespace Verif.Acct

/-- The file at hand has its names. -/
def Pc.ready : Pc → Bool
  | .off | .idle | .stat _ | .close _ | .open _ | .ounlock _ _ _ | .lock _ | .write _ _ | .unlock _ => true
  | _ => false

/-- The rows among `l` that are in file `i`. -/
def rowsIn (l : List (Nat × Nat × List UInt8)) (i : Nat) : List UInt8 :=
  ((l.filter fun x => decide (x.1 = i)).map fun x => x.2.2).flatten

structure Body (s : St) (h : Hist) (l : List (Nat × Nat × List UInt8)) : Prop where
  out : (l.map fun x => x.2) = h.out
  bound : ∀ x ∈ l, x.1 < s.files.length
  files : ∀ (i : Nat) (d : List UInt8), s.files[i]? = some d → (d = [] ∧ ∀ x ∈ l, x.1 ≠ i) ∨ d = head ++ rowsIn l i
  ready : ∀ p i o : Nat, (s.procs p).pc.ready = true → (s.procs p).at i o → s.files.getD i [] ≠ []
  head : ∀ (p : Nat) (k : Option (List UInt8)) (pos : Int) (i o : Nat), (s.procs p).pc = .head k pos → (s.procs p).at i o →
    s.files.getD i [] = []
  cur : ∀ (p : Nat) (w : List UInt8), w ∈ (s.procs p).pc.left → h.cur p = w

theorem body_setP {s : St} {h : Hist} {l : List (Nat × Nat × List UInt8)} {p : Nat} {q : Proc} (hb : Body s h l)
    (h1 : ∀ i o, q.pc.ready = true → q.at i o → s.files.getD i [] ≠ [])
    (h2 : ∀ k pos i o, q.pc = .head k pos → q.at i o → s.files.getD i [] = [])
    (h3 : ∀ w, w ∈ q.pc.left → h.cur p = w) : Body (s.setP p q) h l := by
  obtain ⟨b1, b2, b3, b4, b5, b6⟩ := hb
  refine ⟨b1, b2, b3, ?_, ?_, ?_⟩
  · intro x i o hr ha
    simp only [St.setP] at hr ha ⊢
    by_cases hx : x = p
    · subst hx; simp only [if_true] at hr ha; exact h1 i o hr ha
    · simp only [hx, if_false] at hr ha; exact b4 x i o hr ha
  · intro x k pos i o hr ha
    simp only [St.setP] at hr ha ⊢
    by_cases hx : x = p
    · subst hx; simp only [if_true] at hr ha; exact h2 k pos i o hr ha
    · simp only [hx, if_false] at hr ha; exact b5 x k pos i o hr ha
  · intro x w hw
    simp only [St.setP] at hw
    by_cases hx : x = p
    · subst hx; simp only [if_true] at hw; exact h3 w hw
    · simp only [hx, if_false] at hw; exact b6 x w hw

/-- The locks and the name do not matter. -/
theorem body_frame {s s' : St} {h : Hist} {l : List (Nat × Nat × List UInt8)} (hb : Body s h l) (hf : s'.files = s.files)
    (hp : s'.procs = s.procs) : Body s' h l := by
  obtain ⟨b1, b2, b3, b4, b5, b6⟩ := hb
  exact ⟨b1, by rw [hf]; exact b2, by rw [hf]; exact b3, by rw [hf, hp]; exact b4, by rw [hf, hp]; exact b5,
    by rw [hp]; exact b6⟩

theorem body_to {s : St} {h : Hist} {l : List (Nat × Nat × List UInt8)} {p : Nat} {pc : Pc} (hb : Body s h l)
    (h1 : pc.ready = true → (s.procs p).pc.ready = true ∨ ∀ i o, (s.procs p).at i o → s.files.getD i [] ≠ [])
    (h2 : ∀ k pos, pc ≠ .head k pos) (h3 : ∀ w, w ∈ pc.left → h.cur p = w) : Body (s.to p pc) h l := by
  refine body_setP hb ?_ ?_ h3
  · intro i o hr ha
    rcases h1 hr with h | h
    · exact hb.ready p i o h ha
    · exact h i o ha
  · intro k pos i o hc; exact absurd hc (h2 k pos)

theorem body_close {s s1 : St} {h : Hist} {l : List (Nat × Nat × List UInt8)} {p n : Nat} {pc : Pc} (hb : Body s h l)
    (hn : (s.procs p).fd = some n) (hc : s.closeFd p n = .ok s1)
    (h2 : ∀ k pos, pc ≠ .head k pos) (h3 : ∀ w, w ∈ pc.left → h.cur p = w) : Body (s1.to p pc) h l := by
  obtain ⟨⟨u1, u2, u3⟩, c1, c2, c3, c4, c5, c6, c7, c8, c9⟩ := closeFd_spec hc
  have hna : ∀ i o, ¬ (s1.procs p).at i o := by
    rintro i o ⟨m, h1, h2⟩
    rw [c1, hn] at h1
    cases h1
    exact c4 i o h2
  have hs1 : Body s1 h l := by
    refine ⟨hb.out, by rw [u3]; exact hb.bound, by rw [u3]; exact hb.files, ?_, ?_, ?_⟩
    · intro x i o hr ha
      by_cases hx : x = p
      · subst hx; exact absurd ha (hna i o)
      · rw [u1 x hx] at hr ha; rw [u3]; exact hb.ready x i o hr ha
    · intro x k pos i o hr ha
      by_cases hx : x = p
      · subst hx; exact absurd ha (hna i o)
      · rw [u1 x hx] at hr ha; rw [u3]; exact hb.head x k pos i o hr ha
    · intro x w hw
      by_cases hx : x = p
      · subst hx; rw [c3] at hw; exact hb.cur x w hw
      · rw [u1 x hx] at hw; exact hb.cur x w hw
  exact body_to hs1 (fun _ => .inr (fun i o ha => absurd ha (hna i o))) h2 h3

theorem fail_left (k : Option (List UInt8)) : (failTo k).left = [] ∧ ∀ k' pos, failTo k ≠ .head k' pos := by
  cases k <;> simp [failTo, Pc.left]

theorem body_e1 {s s' : St} {h : Hist} {l : List (Nat × Nat × List UInt8)} {p : Nat} {k : Option (List UInt8)}
    (hb : Body s h l) (hs : s.e1 p k = .ok s') : Body s' h l := by
  obtain ⟨f1, f2⟩ := fail_left k
  unfold St.e1 at hs
  split at hs
  next hn =>
    cases hs
    refine body_to hb (fun _ => .inr ?_) f2 (by simp [f1])
    rintro i o ⟨n, h1, _⟩; rw [hn] at h1; cases h1
  next n hn =>
    split at hs
    · cases hs
    next s1 hc => cases hs; exact body_close hb hn hc f2 (by simp [f1])

/-- A new, empty file. -/
theorem body_new {s : St} {h : Hist} {l : List (Nat × Nat × List UInt8)} (_hi : Inv s) (hb : Body s h l) :
    Body { s with files := s.files ++ [[]], name := some s.files.length } h l := by
  have hg : ∀ i, (s.files ++ [[]]).getD i [] = s.files.getD i [] := by
    intro i
    simp only [List.getD_eq_getElem?_getD, List.getElem?_append]
    split
    · rfl
    next hlt =>
      rw [List.getElem?_eq_none (l := s.files) (by omega)]
      cases hk : i - s.files.length <;> simp
  refine ⟨hb.out, ?_, ?_, ?_, ?_, hb.cur⟩
  · intro x hx; have := hb.bound x hx; simp; omega
  · intro i d hd
    simp only [List.getElem?_append] at hd
    split at hd
    · exact hb.files i d hd
    next hlt =>
      left
      constructor
      · cases hk : i - s.files.length <;> simp [hk] at hd; exact hd
      · intro x hx; have := hb.bound x hx; omega
  · intro p i o hr ha; simp only [hg]; exact hb.ready p i o hr ha
  · intro p k pos i o hr ha; simp only [hg]; exact hb.head p k pos i o hr ha

theorem getD_set {α : Type} (l : List α) (i j : Nat) (v d : α) (h : i < l.length) :
    (l.set i v).getD j d = if j = i then v else l.getD j d := by
  simp only [List.getD_eq_getElem?_getD, List.getElem?_set]
  by_cases hj : i = j
  · subst hj; simp [h]
  · simp [hj, Ne.symm hj]

/-- A write of the process that has the lock. -/
theorem body_append {s : St} {h h' : Hist} {l l' : List (Nat × Nat × List UInt8)} {p n i o : Nat} {w : List UInt8}
    {pc : Pc} (hi : Inv s) (hb : Body s h l) (hf : (s.procs p).fd = some n) (ht : (s.procs p).tbl n = some (.csv i o))
    (hh : (s.procs p).pc.held = true)
    (ho : (l'.map fun x => x.2) = h'.out) (hbd : ∀ x ∈ l', x.1 < s.files.length)
    (hl : ∀ j, j ≠ i → rowsIn l' j = rowsIn l j ∧ ((∀ x ∈ l, x.1 ≠ j) → ∀ x ∈ l', x.1 ≠ j))
    (hd : s.files.getD i [] ++ w = head ++ rowsIn l' i) (hne : s.files.getD i [] ++ w ≠ [])
    (hc : h'.cur = h.cur) (hpc : ∀ k pos, pc ≠ .head k pos) (hlf : ∀ v, v ∈ pc.left → h.cur p = v) :
    Body ((s.append p n i w).to p pc) h' l' := by
  have hlt := hi.tbl p n i o ht
  have hlock : ∀ x, x ≠ p → (s.procs x).pc.held = true → ∀ o', ¬ (s.procs x).at i o' := by
    intro x hx hxh o' hat
    obtain ⟨i1, o1, ⟨m, a1, a2⟩, l1, hl1, e1, e2, e3⟩ := hi.held x hxh
    obtain ⟨i2, o2, ⟨m2, a3, a4⟩, l2, hl2, e4, e5, e6⟩ := hi.held p hh
    obtain ⟨m3, a5, a6⟩ := hat
    have q1 : m3 = m := by grind
    have q2 : m2 = n := by grind
    subst q1 q2
    have q3 : i1 = i := by grind
    have q4 : i2 = i := by grind
    have := hi.excl l1 hl1 l2 hl2 (by rw [e1, e4, q3, q4]) e3 e6
    grind
  have hfiles : ∀ j, (s.files.set i (s.files.getD i [] ++ w)).getD j [] =
      if j = i then s.files.getD i [] ++ w else s.files.getD j [] := fun j => getD_set _ _ _ _ _ hlt
  have hprocs : ∀ x, x ≠ p → ((s.append p n i w).to p pc).procs x = s.procs x := by
    intro x hx; simp [St.to, St.append, St.setP, hx]
  have hpp : (((s.append p n i w).to p pc).procs p).pc = pc := by simp [St.to, St.setP, Proc.goto]
  have hat : ∀ j o', (((s.append p n i w).to p pc).procs p).at j o' → j = i := by
    rintro j o' ⟨m, a1, a2⟩
    simp only [St.to, St.append, St.setP, Proc.goto, Proc.bind, if_true] at a1 a2
    have : m = n := by grind
    subst this
    simp only [if_true] at a2
    grind
  refine ⟨ho, ?_, ?_, ?_, ?_, ?_⟩
  · intro x hx
    have : ((s.append p n i w).to p pc).files.length = s.files.length := by simp [St.to, St.append, St.setP]
    rw [this]; exact hbd x hx
  · intro j d hdj
    have : s.files.getD i [] = s.files.getD i [] := rfl
    change (s.files.set i (s.files.getD i [] ++ w))[j]? = some d at hdj
    by_cases hj : j = i
    · subst hj
      rw [List.getElem?_set] at hdj
      simp only [hlt, if_true, Option.some.injEq] at hdj
      right; rw [← hdj, hd]
    · rw [List.getElem?_set_ne (Ne.symm hj)] at hdj
      rcases hb.files j d hdj with ⟨h1, h2⟩ | h1
      · exact .inl ⟨h1, (hl j hj).2 h2⟩
      · right; rw [(hl j hj).1]; exact h1
  · intro x j o' hr ha
    change (s.files.set i (s.files.getD i [] ++ w)).getD j [] ≠ []
    rw [hfiles]
    split
    · exact hne
    next hj =>
      by_cases hx : x = p
      · subst hx; exact absurd (hat j o' ha) hj
      · rw [hprocs x hx] at hr ha; exact hb.ready x j o' hr ha
  · intro x k pos j o' hr ha
    by_cases hx : x = p
    · subst hx; rw [hpp] at hr; exact absurd hr (hpc k pos)
    · rw [hprocs x hx] at hr ha
      change (s.files.set i (s.files.getD i [] ++ w)).getD j [] = []
      have hj : j ≠ i := by
        intro hc; subst hc
        exact hlock x hx (by rw [hr]; rfl) o' ha
      rw [hfiles, if_neg hj]
      exact hb.head x k pos j o' hr ha
  · intro x v hv
    by_cases hx : x = p
    · subst hx; rw [hpp] at hv; rw [hc]; exact hlf v hv
    · rw [hprocs x hx] at hv; rw [hc]; exact hb.cur x v hv

theorem rowsIn_snoc (l : List (Nat × Nat × List UInt8)) (x : Nat × Nat × List UInt8) (i : Nat) :
    rowsIn (l ++ [x]) i = if x.1 = i then rowsIn l i ++ x.2.2 else rowsIn l i := by
  unfold rowsIn
  rw [List.filter_append]
  by_cases h : x.1 = i <;> simp [h]

theorem rowsIn_none {l : List (Nat × Nat × List UInt8)} {i : Nat} (h : ∀ x ∈ l, x.1 ≠ i) : rowsIn l i = [] := by
  unfold rowsIn
  rw [List.filter_eq_nil_iff.mpr]
  · rfl
  · intro x hx; simp [h x hx]

theorem head_ne : Acct.head ≠ [] := by rw [Ne, ← List.length_eq_zero_iff]; decide +kernel

theorem getD_of_lt {s : St} {i : Nat} (h : i < s.files.length) : s.files[i]? = some (s.files.getD i []) := by
  simp [List.getD_eq_getElem?_getD, h]

theorem step_body {s s' : St} {e : Ev} {h : Hist} {l : List (Nat × Nat × List UInt8)} (hi : Inv s) (hb : Body s h l)
    (ht : e.Tidy) (hs : step s e = some (.ok s')) : ∃ l', Body s' (h.step e) l' := by
  cases e with
  | ctor p =>
    simp only [step] at hs; split at hs <;> cases hs
    next hp => exact ⟨l, body_to (h := h) hb (fun _ => .inl (by rw [hp]; rfl)) (by simp) (by simp [Pc.left])⟩
  | begin p w =>
    simp only [step] at hs; split at hs <;> cases hs
    next hp =>
      have hb' : Body s (h.step (.begin p w)) l := by
        refine ⟨hb.out, hb.bound, hb.files, hb.ready, hb.head, ?_⟩
        intro x v hv
        simp only [Hist.step]
        split
        next hx => subst hx; rw [hp] at hv; simp [Pc.left] at hv
        · exact hb.cur x v hv
      exact ⟨l, body_to hb' (fun _ => .inl (by rw [hp]; rfl)) (by simp) (by simp [Pc.left, Hist.step])⟩
  | stat p ok =>
    simp only [step] at hs
    split at hs
    next w hk =>
      have hc : h.cur p = w := hb.cur p w (by rw [hk]; simp [Pc.left])
      have hr : (s.procs p).pc.ready = true := by rw [hk]; rfl
      (repeat' split at hs) <;> cases hs <;>
        exact ⟨l, body_to (h := h) hb (fun _ => .inl hr) (by simp) (by simp [Pc.left, hc])⟩
    · cases hs
  | close p =>
    simp only [step] at hs
    split at hs
    next k hk =>
      have hc : ∀ w, w ∈ (Pc.open k).left → h.cur p = w := by
        intro w hw; refine hb.cur p w ?_; rw [hk]; cases k <;> simpa [Pc.left] using hw
      have hr : (s.procs p).pc.ready = true := by rw [hk]; rfl
      simp only [Option.some.injEq] at hs
      unfold doClose at hs
      split at hs
      · cases hs; exact ⟨l, body_to (h := h) hb (fun _ => .inl hr) (by simp) hc⟩
      next n hn =>
        split at hs
        · cases hs
        next s1 hcl => cases hs; exact ⟨l, body_close (h := h) hb hn hcl (by simp) hc⟩
    · cases hs
  | «open» p r =>
    simp only [step] at hs
    split at hs
    next k hk =>
      rw [Option.map_eq_some_iff] at hs
      obtain ⟨s1, h1, h2⟩ := hs
      cases h2
      have hc : ∀ w, w ∈ (Pc.olock k).left → h.cur p = w := by
        intro w hw; refine hb.cur p w ?_; rw [hk]; cases k <;> simpa [Pc.left] using hw
      obtain ⟨f1, f2⟩ := fail_left k
      unfold doOpen at h1
      split at h1
      · cases h1
        refine ⟨l, body_setP (h := h) hb ?_ ?_ ?_⟩
        · rintro i o _ ⟨n, hn, _⟩; cases hn
        · intro k' pos i o hp; exact absurd hp (f2 k' pos)
        · intro w hw; rw [f1] at hw; cases hw
      · split at h1
        · split at h1
          · cases h1
            exact ⟨l, body_setP (h := h) hb (by simp [Pc.ready]) (by simp) hc⟩
          · cases h1
            exact ⟨l, body_setP (h := h) (body_new hi hb) (by simp [Pc.ready]) (by simp) hc⟩
        · cases h1
    · cases hs
  | olock p ok =>
    simp only [step] at hs
    split at hs
    next k hk =>
      have hc : ∀ w pos, w ∈ (Pc.ofstat k pos).left → h.cur p = w := by
        intro w pos hw; refine hb.cur p w ?_; rw [hk]; cases k <;> simpa [Pc.left] using hw
      unfold doOlock at hs
      split at hs
      · cases hs
      · simp only [Option.some.injEq] at hs; exact ⟨l, body_e1 (h := h) hb hs⟩
      · split at hs
        · split at hs
          · cases hs
          · simp only at hs
            split at hs
            · simp only [Option.some.injEq] at hs; exact ⟨l, body_e1 (h := h) (body_frame (s := s) hb (by exact rfl) (by exact rfl)) hs⟩
            · cases hs
              exact ⟨l, body_to (h := h) (body_frame hb rfl rfl) (by simp [Pc.ready]) (by simp) (hc · _)⟩
        · simp only [Option.some.injEq] at hs; exact ⟨l, body_e1 (h := h) hb hs⟩
    · cases hs
  | ofstat p ok =>
    simp only [step] at hs
    split at hs
    next k pos hk =>
      have hc : ∀ w, w ∈ (Pc.ofstat k pos).left → h.cur p = w := by
        intro w hw; refine hb.cur p w ?_; rwa [hk]
      simp only [Option.some.injEq] at hs
      unfold doOfstat at hs
      split at hs
      · cases hs
      · exact ⟨l, body_e1 (h := h) hb hs⟩
      next n i o hf =>
        obtain ⟨hf1, hf2⟩ := file_some hf
        have hat : ∀ j o', (s.procs p).at j o' → j = i := by rintro j o' ⟨m, a1, a2⟩; grind
        split at hs
        · cases hs
          refine ⟨l, body_setP (h := h) hb ?_ ?_ ?_⟩
          · intro j o' hr ha
            obtain rfl := hat j o' ha
            simp only at hr
            split at hr
            · cases hr
            next hne => exact hne
          · intro k' pos' j o' hp ha
            obtain rfl := hat j o' ha
            simp only at hp
            split at hp
            next he => exact he
            · cases hp
          · intro w hw
            refine hc w ?_
            simp only at hw
            split at hw <;> cases k <;> simpa [Pc.left] using hw
        · exact ⟨l, body_e1 (h := h) hb hs⟩
    · cases hs
  | head p r =>
    simp only [step] at hs
    split at hs
    next k pos hk =>
      have hc : ∀ w g, w ∈ (Pc.ounlock k pos g).left → h.cur p = w := by
        intro w g hw; refine hb.cur p w ?_; rw [hk]; cases k <;> simpa [Pc.left] using hw
      simp only [Ev.Tidy] at ht
      subst ht
      unfold doHead at hs
      split at hs
      · cases hs
      next hf =>
        cases hs
        refine ⟨l, body_to (h := h) hb (fun _ => .inr ?_) (by simp) (hc · _)⟩
        intro i o ha
        obtain ⟨n, hf', _⟩ := at_file ha
        rw [hf] at hf'; cases hf'
      next n i o hf =>
        obtain ⟨hf1, hf2⟩ := file_some hf
        cases hs
        have hemp := hb.head p k pos i o hk ⟨n, hf1, hf2⟩
        have hlt := hi.tbl p n i o hf2
        have hno : ∀ x ∈ l, x.1 ≠ i := by
          rcases hb.files i _ (getD_of_lt hlt) with ⟨_, h2⟩ | h1
          · exact h2
          · exfalso
            rw [hemp] at h1
            exact head_ne (List.append_eq_nil_iff.mp h1.symm).1
        refine ⟨l, body_append (h := h) (h' := h) hi hb hf1 hf2 (by rw [hk]; rfl) hb.out hb.bound (fun j _ => ⟨rfl, id⟩) ?_ ?_ rfl
          (by simp) (hc · _)⟩
        · rw [hemp, rowsIn_none hno]; simp
        · rw [hemp]; simpa using head_ne
    · cases hs
  | ounlock p =>
    simp only [step] at hs
    split at hs
    next k pos g hk =>
      have hr : (s.procs p).pc.ready = true := by rw [hk]; rfl
      have hc : ∀ w, w ∈ (if g then goodTo k else failTo k).left → h.cur p = w := by
        intro w hw; refine hb.cur p w ?_; rw [hk]
        cases g <;> cases k <;> simp_all [Pc.left, goodTo, failTo]
      have hh : ∀ k' pos', (if g then goodTo k else failTo k) ≠ .head k' pos' := by
        cases g <;> cases k <;> simp [goodTo, failTo]
      simp only [Option.some.injEq] at hs
      cases hu : unlockf s p pos with
      | error f => rw [hu] at hs; cases hs
      | ok s1 =>
        rw [hu] at hs; cases hs
        have hfr : s1.files = s.files ∧ s1.procs = s.procs := by
          unfold unlockf at hu; split at hu <;> cases hu <;> exact ⟨rfl, rfl⟩
        exact ⟨l, body_to (h := h) (body_frame hb hfr.1 hfr.2) (fun _ => .inl (by rw [hfr.2]; exact hr)) hh hc⟩
    · cases hs
  | lock p ok =>
    simp only [step] at hs
    split at hs
    next w hk =>
      have hr : (s.procs p).pc.ready = true := by rw [hk]; rfl
      have hc : h.cur p = w := hb.cur p w (by rw [hk]; simp [Pc.left])
      unfold doLock at hs
      split at hs
      · cases hs
      · cases hs; exact ⟨l, body_to (h := h) hb (fun _ => .inl hr) (by simp) (by simp [Pc.left])⟩
      · split at hs
        · split at hs
          · cases hs
          · simp only at hs
            split at hs
            · cases hs
              exact ⟨l, body_to (h := h) (body_frame hb rfl rfl) (fun _ => .inl hr) (by simp) (by simp [Pc.left])⟩
            · cases hs
              exact ⟨l, body_to (h := h) (body_frame hb rfl rfl) (fun _ => .inl hr) (by simp) (by simp [Pc.left, hc])⟩
        · cases hs; exact ⟨l, body_to (h := h) hb (fun _ => .inl hr) (by simp) (by simp [Pc.left])⟩
    · cases hs
  | write p r =>
    simp only [step] at hs
    split at hs
    next w pos hk =>
      have hr : (s.procs p).pc.ready = true := by rw [hk]; rfl
      have hc : h.cur p = w := hb.cur p w (by rw [hk]; simp [Pc.left])
      obtain ⟨i0, o0, ⟨n0, a1, a2⟩, _⟩ := hi.held p (by rw [hk]; rfl)
      have hfile : (s.procs p).file = .ok (some (n0, i0, o0)) := by simp [Proc.file, a1, a2]
      unfold doWrite at hs
      rw [hfile] at hs
      simp only at hs
      split at hs
      · cases hs
        have hne := hb.ready p i0 o0 hr ⟨n0, a1, a2⟩
        have hlt := hi.tbl p n0 i0 o0 a2
        refine ⟨l ++ [(i0, p, w)], body_append (h := h) hi hb a1 a2 (by rw [hk]; rfl) ?_ ?_ ?_ ?_ ?_ rfl (by simp)
          (by simp [Pc.left])⟩
        · simp [hb.out, Hist.step, hc]
        · intro x hx
          rcases List.mem_append.mp hx with hx | hx
          · exact hb.bound x hx
          · simp only [List.mem_singleton] at hx; subst hx; exact hlt
        · intro j hj
          refine ⟨by rw [rowsIn_snoc, if_neg (Ne.symm hj)], ?_⟩
          intro h1 x hx
          rcases List.mem_append.mp hx with hx | hx
          · exact h1 x hx
          · simp only [List.mem_singleton] at hx; subst hx; exact Ne.symm hj
        · rw [rowsIn_snoc, if_pos rfl]
          rcases hb.files i0 _ (getD_of_lt hlt) with ⟨h1, _⟩ | h1
          · exact absurd h1 hne
          · rw [h1]; simp
        · exact fun he => hne (List.append_eq_nil_iff.mp he).1
      next m => exact absurd rfl (ht m)
      · cases hs; exact ⟨l, body_to (h := h) hb (fun _ => .inl hr) (by simp) (by simp [Pc.left])⟩
    · cases hs
  | unlock p =>
    simp only [step] at hs
    split at hs
    next pos hk =>
      have hr : (s.procs p).pc.ready = true := by rw [hk]; rfl
      simp only [Option.some.injEq] at hs
      cases hu : unlockf s p pos with
      | error f => rw [hu] at hs; cases hs
      | ok s1 =>
        rw [hu] at hs; cases hs
        have hfr : s1.files = s.files ∧ s1.procs = s.procs := by
          unfold unlockf at hu; split at hu <;> cases hu <;> exact ⟨rfl, rfl⟩
        exact ⟨l, body_to (h := h) (body_frame hb hfr.1 hfr.2) (fun _ => .inl (by rw [hfr.2]; exact hr)) (by simp)
          (by simp [Pc.left])⟩
    · cases hs
  | dtor p =>
    simp only [step] at hs
    split at hs
    · simp only [Option.some.injEq] at hs
      unfold doDtor at hs
      split at hs
      · cases hs; exact ⟨l, body_to (h := h) hb (by simp [Pc.ready]) (by simp) (by simp [Pc.left])⟩
      next n hn =>
        split at hs
        · cases hs
        next s1 hc => cases hs; exact ⟨l, body_close (h := h) hb hn hc (by simp) (by simp [Pc.left])⟩
    · cases hs
  | die p =>
    cases hs
    exact ⟨l, body_frame (h := h) (s := s.setP p ⟨none, none, fun _ => none, .dead⟩)
      (body_setP hb (by simp [Pc.ready]) (by simp) (by simp [Pc.left])) rfl rfl⟩
  | fopen p n =>
    simp only [step] at hs
    split at hs
    next hn =>
      cases hs
      have key : ∀ i o, ((s.procs p).bind n (some .other)).at i o → (s.procs p).at i o := by
        rintro i o ⟨m, h1, h2⟩
        simp only [Proc.bind] at h1 h2
        split at h2
        · cases h2
        · exact ⟨m, h1, h2⟩
      exact ⟨l, body_setP (h := h) hb (fun i o hr ha => hb.ready p i o hr (key i o ha))
        (fun k pos i o hr ha => hb.head p k pos i o hr (key i o ha)) (fun w hw => hb.cur p w hw)⟩
    · cases hs
  | fclose p n =>
    simp only [step] at hs
    split at hs
    next hn =>
      cases hs
      have key : ∀ i o, ((s.procs p).bind n none).at i o → (s.procs p).at i o := by
        rintro i o ⟨m, h1, h2⟩
        simp only [Proc.bind] at h1 h2
        split at h2
        · cases h2
        · exact ⟨m, h1, h2⟩
      exact ⟨l, body_setP (h := h) hb (fun i o hr ha => hb.ready p i o hr (key i o ha))
        (fun k pos i o hr ha => hb.head p k pos i o hr (key i o ha)) (fun w hw => hb.cur p w hw)⟩
    · cases hs
  | unlink => cases hs; exact ⟨l, body_frame (h := h) hb rfl rfl⟩
  | mkfile => cases hs; exact ⟨l, body_new (h := h) hi hb⟩
  | relink i => simp only [step] at hs; split at hs <;> cases hs; exact ⟨l, body_frame (h := h) hb rfl rfl⟩
  | trunc i => exact absurd ht (by simp [Ev.Tidy])

end Verif.Acct
