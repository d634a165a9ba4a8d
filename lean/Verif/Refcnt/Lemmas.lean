import Verif.Refcnt.Spec

/-! Helper lemmas for C03/C04: the inductive invariant. -/

namespace Verif.Refcnt

variable {D : Type}

def tot (f : Thr D → Nat) (l : List (Thr D)) : Nat := (l.map f).sum

theorem tot_set (f : Thr D → Nat) : ∀ (l : List (Thr D)) (i : Nat) (t t' : Thr D),
    l[i]? = some t → tot f (l.set i t') + f t = tot f l + f t'
  | [], i, t, t', h => by simp at h
  | a :: l, 0, t, t', h => by
    simp at h; subst h
    simp only [tot, List.set_cons_zero, List.map_cons, List.sum_cons]; omega
  | a :: l, i + 1, t, t', h => by
    have := tot_set f l i t t' (by simpa using h)
    simp only [tot, List.set_cons_succ, List.map_cons, List.sum_cons] at *; omega

theorem tot_ge (f : Thr D → Nat) : ∀ (l : List (Thr D)) (i : Nat) (t : Thr D),
    l[i]? = some t → f t ≤ tot f l
  | [], i, t, h => by simp at h
  | a :: l, 0, t, h => by
    simp at h; subst h
    simp only [tot, List.map_cons, List.sum_cons]; omega
  | a :: l, i + 1, t, h => by
    have := tot_ge f l i t (by simpa using h)
    simp only [tot, List.map_cons, List.sum_cons] at *; omega

theorem tot_two (f : Thr D → Nat) : ∀ (l : List (Thr D)) (i j : Nat) (t u : Thr D), i ≠ j →
    l[i]? = some t → l[j]? = some u → f t + f u ≤ tot f l
  | [], i, j, t, u, _, h, _ => by simp at h
  | a :: l, 0, 0, t, u, hne, _, _ => absurd rfl hne
  | a :: l, 0, j + 1, t, u, _, h, h' => by
    have := tot_ge f l j u (by simpa using h')
    simp at h; subst h
    simp only [tot, List.map_cons, List.sum_cons] at *; omega
  | a :: l, i + 1, 0, t, u, _, h, h' => by
    have := tot_ge f l i t (by simpa using h)
    simp at h'; subst h'
    simp only [tot, List.map_cons, List.sum_cons] at *; omega
  | a :: l, i + 1, j + 1, t, u, hne, h, h' => by
    have := tot_two f l i j t u (by omega) (by simpa using h) (by simpa using h')
    simp only [tot, List.map_cons, List.sum_cons] at *; omega

theorem tot_zero (f : Thr D → Nat) : ∀ (l : List (Thr D)), (∀ t ∈ l, f t = 0) → tot f l = 0
  | [], _ => rfl
  | a :: l, h => by
    have := tot_zero f l (fun t ht => h t (List.mem_cons_of_mem _ ht))
    have h2 := h a List.mem_cons_self
    simp only [tot, List.map_cons, List.sum_cons] at *; omega

def fH (t : Thr D) : Nat := t.held
def fF (t : Thr D) : Nat := if t.pc.isFin then 1 else 0
def fU (t : Thr D) : Nat := match t.pc with | .attUndo => 1 | _ => 0
def fTA (t : Thr D) : Nat := match t.pc with | .tryAdd => 1 | _ => 0
def fTU (t : Thr D) : Nat := match t.pc with | .tryUndo => 1 | _ => 0

def PcOk (s : State D) (t : Thr D) : Prop :=
  match t.pc with
  | .idle => True
  | .incAdd => 0 < t.held ∧ s.shared = true
  | .incStore => 0 < t.held ∧ s.shared = false
  | .incStore2 => 0 < t.held ∧ s.shared = true ∧ tot fH s.ths = 1 ∧ tot fTA s.ths = 0
  | .decSub => 0 < t.held ∧ s.shared = true
  | .finRead => s.dead = true ∧ s.log = [] ∧ s.freed = false
  | .fin k => s.dead = true ∧ k ≤ s.att.length ∧ s.log = (s.att.drop k).reverse ∧
      (0 < k → s.freed = false)
  | .attWrite i d => 0 < t.held ∧ s.att[i]? = some d
  | .attUndo => 0 < t.held
  | .tryStore => False
  | .tryStore2 => False
  | .tryAdd => s.shared = true
  | .tryUndo => s.shared = true ∧ s.dead = true

structure Inv (s : State D) : Prop where
  ub : s.ub = false
  slotsLen : s.slots.length = maxDtors
  nEq : s.n = s.att.length + tot fU s.ths
  attMax : s.att.length ≤ maxDtors
  undoMax : 0 < tot fU s.ths → s.att.length = maxDtors
  slot : ∀ i d, s.att[i]? = some d → s.slots[i]? = some (some d) ∨
    ∃ (j : Nat) (u : Thr D), s.ths[j]? = some u ∧ u.pc = .attWrite i d
  alive : s.dead = false → s.log = [] ∧ tot fF s.ths = 0 ∧ 1 ≤ tot fH s.ths ∧
    s.cnt = (tot fH s.ths : Int) - 1 ∧ tot fTU s.ths = 0 ∧ s.freed = false ∧
    (s.shared = false → tot fH s.ths = 1 ∧ tot fTA s.ths = 0)
  deadI : s.dead = true → tot fH s.ths = 0 ∧ tot fF s.ths ≤ 1 ∧
    (s.shared = true → s.cnt = (tot fTU s.ths : Int) - 1) ∧
    (s.shared = false → tot fTA s.ths = 0 ∧ tot fTU s.ths = 0) ∧
    (tot fF s.ths = 0 → s.log = s.att.reverse)
  freedT : s.freed = true → tot fTA s.ths = 0 ∧ tot fTU s.ths = 0
  tryOne : tot fTA s.ths + tot fTU s.ths ≤ 1
  pc : ∀ (j : Nat) (u : Thr D), s.ths[j]? = some u → PcOk s u

theorem tot_replicate (f : Thr D → Nat) (t : Thr D) (h : f t = 0) (k : Nat) :
    tot f (List.replicate k t) = 0 :=
  tot_zero f _ (fun u hu => by rw [List.eq_of_mem_replicate hu]; exact h)

theorem inv_init (k : Nat) (ds : List D) (hds : ds.length ≤ maxDtors) : Inv (init k ds) := by
  have hc : ∀ (f : Thr D → Nat), f ⟨0, .idle, []⟩ = 0 →
      tot f (init k ds).ths = f ⟨1, .idle, []⟩ := by
    intro f hf
    have := tot_replicate f _ hf k
    simp only [init, tot, List.map_cons, List.sum_cons] at *
    omega
  have hH := hc fH rfl
  have hF := hc fF rfl
  have hU := hc fU rfl
  have hTA := hc fTA rfl
  have hTU := hc fTU rfl
  simp only [fH, fF, fU, fTA, fTU, Pc.isFin, Bool.false_eq_true, if_false] at hH hF hU hTA hTU
  constructor
  · rfl
  · simp [init]; omega
  · rw [hU]; simp [init]
  · exact hds
  · rw [hU]; omega
  · intro i d hi
    left
    have hlt : i < ds.length := (List.getElem?_eq_some_iff.1 hi).1
    simp only [init] at hi ⊢
    rw [List.getElem?_append_left (by simpa using hlt), List.getElem?_map, hi]
    rfl
  · intro _
    rw [hF, hH, hTU, hTA]
    refine ⟨rfl, rfl, by omega, rfl, rfl, rfl, fun _ => ⟨rfl, rfl⟩⟩
  · intro h; cases h
  · intro h; cases h
  · rw [hTA, hTU]; omega
  · intro j u hu
    have : u ∈ (init k ds).ths := List.mem_of_getElem? hu
    simp only [init, List.mem_cons, List.mem_replicate] at this
    rcases this with rfl | ⟨_, rfl⟩ <;> simp [PcOk]

/-- Frame for a step that replaces thread `i`. -/
theorem get_set {l : List (Thr D)} {i j : Nat} {t' u : Thr D} (h : (l.set i t')[j]? = some u) :
    (j = i ∧ u = t') ∨ (j ≠ i ∧ l[j]? = some u) := by
  rw [List.getElem?_set] at h
  by_cases hij : i = j
  · rw [if_pos hij] at h
    left
    split at h
    · exact ⟨hij.symm, (Option.some.inj h).symm⟩
    · cases h
  · rw [if_neg hij] at h
    exact .inr ⟨fun e => hij e.symm, h⟩

theorem get_set_other {l : List (Thr D)} {i j : Nat} {t' u : Thr D} (hne : j ≠ i)
    (h : l[j]? = some u) : (l.set i t')[j]? = some u := by
  rw [List.getElem?_set, if_neg (fun e => hne e.symm)]
  exact h

theorem all_try {s : State D} (h : s.ths.all (fun t => !t.pc.isTry) = true) :
    tot fTA s.ths = 0 ∧ tot fTU s.ths = 0 := by
  rw [List.all_eq_true] at h
  constructor <;>
  · apply tot_zero
    intro t ht
    have := h t ht
    simp only [fTA, fTU]
    split
    · next hp => rw [hp] at this; simp [Pc.isTry] at this
    · rfl

/-- Common part of a step that replaces thread `i` by `t'`: collects the sums. -/
theorem sums {s : State D} {i : Nat} {t : Thr D} (t' : Thr D) (h : s.ths[i]? = some t) :
    tot fH (s.ths.set i t') + t.held = tot fH s.ths + t'.held ∧
    tot fF (s.ths.set i t') + fF t = tot fF s.ths + fF t' ∧
    tot fU (s.ths.set i t') + fU t = tot fU s.ths + fU t' ∧
    tot fTA (s.ths.set i t') + fTA t = tot fTA s.ths + fTA t' ∧
    tot fTU (s.ths.set i t') + fTU t = tot fTU s.ths + fTU t' :=
  ⟨tot_set fH _ _ _ _ h, tot_set fF _ _ _ _ h, tot_set fU _ _ _ _ h, tot_set fTA _ _ _ _ h,
    tot_set fTU _ _ _ _ h⟩

theorem sums2 {s : State D} {i j : Nat} {t u : Thr D} (hne : j ≠ i) (h : s.ths[i]? = some t)
    (hu : s.ths[j]? = some u) :
    t.held + u.held ≤ tot fH s.ths ∧ fF t + fF u ≤ tot fF s.ths ∧
    fTA t + fTA u ≤ tot fTA s.ths ∧ fTU t + fTU u ≤ tot fTU s.ths :=
  ⟨tot_two fH _ _ _ _ _ (Ne.symm hne) h hu, tot_two fF _ _ _ _ _ (Ne.symm hne) h hu,
    tot_two fTA _ _ _ _ _ (Ne.symm hne) h hu, tot_two fTU _ _ _ _ _ (Ne.symm hne) h hu⟩

/-- Slots clause for a step that does not touch `att`/`slots` and does not finish a write. -/
theorem slot_frame {s : State D} (hi : Inv s) {i : Nat} {t t' : Thr D} (ht : s.ths[i]? = some t)
    (hp : ∀ k d, t.pc ≠ .attWrite k d) :
    ∀ k d, s.att[k]? = some d → s.slots[k]? = some (some d) ∨
      ∃ (j : Nat) (u : Thr D), (s.ths.set i t')[j]? = some u ∧ u.pc = .attWrite k d := by
  intro k d hk
  rcases hi.slot k d hk with h | ⟨j, u, hu, hpc⟩
  · exact .inl h
  · right
    refine ⟨j, u, get_set_other ?_ hu, hpc⟩
    intro e; subst e
    rw [ht] at hu; cases hu
    exact hp _ _ hpc

theorem tot_le {f g : Thr D → Nat} : ∀ (l : List (Thr D)),
    (∀ (j : Nat) (u : Thr D), l[j]? = some u → f u ≤ g u) → tot f l ≤ tot g l
  | [], _ => Nat.le_refl _
  | a :: l, h => by
    have h1 := h 0 a rfl
    have h2 := tot_le l (fun j u hu => h (j + 1) u (by simpa using hu))
    simp only [tot, List.map_cons, List.sum_cons] at *; omega

theorem Inv.undo_le {s : State D} (hi : Inv s) : tot fU s.ths ≤ tot fH s.ths := by
  apply tot_le
  intro j u hu
  have := hi.pc j u hu
  obtain ⟨uh, up, ur⟩ := u
  cases up <;> simp [fU, fH, PcOk] at this ⊢
  omega

set_option hygiene false in
macro "std_step" t':term : tactic => `(tactic| (
  simp only [Option.some.injEq] at hst
  subst hst
  simp only [PcOk] at htok
  have hS := sums (t' := $t') ht
  simp only [fF, fU, fTA, fTU, Pc.isFin, Bool.false_eq_true, if_false, if_true, Nat.add_zero] at hS
  simp only [fTA, fTU] at hnotfreed
  rcases hdd : s.dead with _ | _ <;> rcases hss : s.shared with _ | _ <;>
    simp only [hdd, hss, forall_const, reduceCtorEq, false_imp_iff, true_and, and_true, and_false,
      false_and] at hA hD htok
  all_goals (
    refine ⟨?_, hsl, ?_, hM, ?_, ?_, ?_, ?_, ?_, ?_, ?_⟩
    · grind [acc]
    · grind [acc]
    · grind [acc]
    · exact slot_frame hi ht (by intro k d h; cases h)
    · simp only [acc, hdd, hss] <;> grind
    · simp only [acc, hdd, hss] <;> grind
    · simp only [acc, hdd, hss] <;> grind
    · simp only [acc, hdd, hss] <;> grind
    · intro j u hu
      have hu' : (s.ths.set i $t')[j]? = some u := hu
      clear hu
      rcases get_set hu' with ⟨_, rfl⟩ | ⟨hne, hu2⟩
      · simp only [PcOk, acc, hdd, hss] <;> grind
      · have h2 := sums2 hne ht hu2
        have h3 := hi.pc j u hu2
        obtain ⟨uh, up, ur⟩ := u
        cases up <;> simp only [PcOk, acc, fF, fTA, fTU, Pc.isFin, Bool.false_eq_true, if_false,
          if_true, hdd, hss] at h2 h3 ⊢ <;> first | done | omega | grind)))

theorem inv_step {s s' : State D} {i : Nat} {a : Act D} (hi : Inv s) (hal : Allowed s i a)
    (hst : step s i a = some s') : Inv s' := by
  unfold step at hst
  cases ht : s.ths[i]? with
  | none => rw [ht] at hst; cases hst
  | some t =>
    rw [ht] at hst
    simp only at hst
    have htok := hi.pc i t ht
    obtain ⟨held, pc, res⟩ := t
    have hgeH := tot_ge fH _ _ _ ht
    simp only [fH] at hgeH
    have hnotfreed : (s.dead = false ∨ 0 < held ∨ 0 < fTA (⟨held, pc, res⟩ : Thr D) ∨
        0 < fTU (⟨held, pc, res⟩ : Thr D)) → s.freed = false := by
      intro h
      cases hfr : s.freed with
      | false => rfl
      | true =>
        exfalso
        have := hi.freedT hfr
        have h1 := tot_ge fTA _ _ _ ht
        have h2 := tot_ge fTU _ _ _ ht
        cases hd : s.dead with
        | false => rw [(hi.alive hd).2.2.2.2.2.1] at hfr; cases hfr
        | true =>
          have := (hi.deadI hd).1
          rw [hd] at h
          simp at h
          omega
    have hA := hi.alive
    have hD := hi.deadI
    have hN := hi.nEq
    have hM := hi.attMax
    have hUM := hi.undoMax
    have hFT := hi.freedT
    have hT1 := hi.tryOne
    have hub := hi.ub
    have hUH := hi.undo_le
    have hsl := hi.slotsLen
    cases pc with
    | incAdd =>
      cases a with
      | cont => std_step ⟨held + 1, .idle, res⟩
      | _ => cases hst
    | incStore =>
      cases a with
      | cont => std_step ⟨held, .incStore2, res⟩
      | _ => cases hst
    | incStore2 =>
      cases a with
      | cont => std_step ⟨held + 1, .idle, res⟩
      | _ => cases hst
    | decSub =>
      cases a with
      | cont =>
        simp only at hst
        split at hst
        · std_step ⟨held - 1, .finRead, res⟩
        · std_step ⟨held - 1, .idle, res⟩
      | _ => cases hst
    | finRead =>
      cases a with
      | cont =>
        have hdr : s.att.drop s.n = [] := List.drop_eq_nil_of_le (by omega)
        std_step ⟨held, .fin s.n, res⟩
      | _ => cases hst
    | tryAdd =>
      cases a with
      | cont =>
        simp only at hst
        split at hst
        · std_step ⟨held, .tryUndo, res⟩
        · std_step ⟨held + 1, .idle, true :: res⟩
      | _ => cases hst
    | tryUndo =>
      cases a with
      | cont => std_step ⟨held, .idle, false :: res⟩
      | _ => cases hst
    | tryStore => exact absurd htok (by simp [PcOk])
    | tryStore2 => exact absurd htok (by simp [PcOk])
    | attUndo =>
      cases a with
      | cont => std_step ⟨held, .idle, res⟩
      | _ => cases hst
    | attWrite idx d =>
      cases a with
      | cont =>
        simp only [Option.some.injEq] at hst
        subst hst
        simp only [PcOk] at htok
        have hS := sums (t' := ⟨held, .idle, res⟩) ht
        simp only [fF, fU, fTA, fTU, Pc.isFin, Bool.false_eq_true, if_false, Nat.add_zero] at hS
        refine ⟨?_, ?_, ?_, hM, ?_, ?_, ?_, ?_, ?_, ?_, ?_⟩
        · grind [acc]
        · simpa using hsl
        · grind [acc]
        · grind [acc]
        · intro k d' hk
          have hk' : s.att[k]? = some d' := hk
          simp only
          rcases hi.slot k d' hk' with h | ⟨j, u, hu, hp⟩
          · left
            rw [List.getElem?_set]
            by_cases hik : idx = k
            · subst hik
              rw [htok.2] at hk'
              cases hk'
              have : idx < s.slots.length := by
                have := (List.getElem?_eq_some_iff.1 htok.2).1
                omega
              simp [this]
            · simpa [hik] using h
          · by_cases hji : j = i
            · subst hji
              rw [ht] at hu; cases hu
              cases hp
              left
              have : idx < s.slots.length := by
                have := (List.getElem?_eq_some_iff.1 htok.2).1
                omega
              simp [this]
            · right
              exact ⟨j, u, get_set_other hji hu, hp⟩
        · grind [acc]
        · grind [acc]
        · grind [acc]
        · grind [acc]
        · intro j u hu
          have hu' : (s.ths.set i ⟨held, .idle, res⟩)[j]? = some u := hu
          rcases get_set hu' with ⟨_, rfl⟩ | ⟨hne, hu2⟩
          · exact trivial
          · have h3 := hi.pc j u hu2
            obtain ⟨uh, up, ur⟩ := u
            cases up <;> simp only [PcOk, acc] at h3 ⊢ <;> first | done | omega | grind
      | _ => cases hst
    | fin k =>
      cases a with
      | cont =>
        cases k with
        | zero =>
          have hdr : s.att.drop 0 = s.att := rfl
          std_step ⟨held, .idle, res⟩
        | succ k =>
          simp only [PcOk] at htok
          obtain ⟨hd, hk, hlog, hfr⟩ := htok
          have hH0 := (hD hd).1
          obtain ⟨d, hkd⟩ : ∃ d, s.att[k]? = some d := ⟨s.att[k], List.getElem?_eq_getElem (by omega)⟩
          have hslot : s.slots[k]? = some (some d) := by
            rcases hi.slot k d hkd with h | ⟨j, u, hu, hp⟩
            · exact h
            · exfalso
              have h1 := hi.pc j u hu
              have h2 := tot_ge fH _ _ _ hu
              rw [PcOk, hp] at h1
              simp only [fH] at h1 h2
              omega
          simp only [hslot, Option.join_some, Option.some.injEq] at hst
          subst hst
          have hS := sums (t' := ⟨held, .fin k, res⟩) ht
          have hge := tot_ge fF _ _ _ ht
          simp only [fF, fU, fTA, fTU, Pc.isFin, if_true, Nat.add_zero] at hS hge
          have hnew : s.log ++ [d] = (s.att.drop k).reverse := by
            have : s.att.drop k = d :: s.att.drop (k + 1) := by
              rw [List.drop_eq_getElem_cons (by omega)]
              rw [List.getElem?_eq_getElem (by omega)] at hkd
              cases hkd
              rfl
            rw [hlog, this, List.reverse_cons]
          have hfr0 := hfr (by omega)
          have hnt : k = 0 → tot fTA s.ths = 0 ∧ tot fTU s.ths = 0 := by
            intro hk0
            subst hk0
            have := hal.2
            rw [ht] at this
            exact all_try (this rfl)
          have hD' := hD hd
          refine ⟨?_, hsl, ?_, hM, ?_, slot_frame hi ht (by intro k d h; cases h), ?_, ?_, ?_, ?_, ?_⟩
          · grind [acc]
          · grind [acc]
          · grind [acc]
          · intro hd2
            have : s.dead = false := hd2
            rw [hd] at this; cases this
          · intro _
            simp only [acc]
            grind
          · intro hfr2
            have : (k == 0) = true := hfr2
            have := hnt (by simpa using this)
            simp only [acc]
            grind
          · simp only [acc]; grind
          · intro j u hu
            have hu' : (s.ths.set i ⟨held, .fin k, res⟩)[j]? = some u := hu
            rcases get_set hu' with ⟨_, rfl⟩ | ⟨hne, hu2⟩
            · refine ⟨hd, by simp only [acc]; omega, hnew, ?_⟩
              intro hk0
              simp only [beq_eq_false_iff_ne, ne_eq]
              omega
            · have h2 := sums2 hne ht hu2
              have h3 := hi.pc j u hu2
              obtain ⟨uh, up, ur⟩ := u
              cases up <;> simp only [PcOk, acc, fF, fTA, fTU, Pc.isFin, Bool.false_eq_true, if_false,
                if_true] at h2 h3 ⊢ <;> first | done | omega | grind
      | _ => cases k <;> cases hst
    | idle =>
      cases a with
      | cont => cases hst
      | incref =>
        simp only at hst
        split at hst
        · cases hst
        · cases hss : s.shared with
          | true =>
            rw [hss] at hst
            simp only [if_true] at hst
            std_step ⟨held, .incAdd, res⟩
          | false =>
            rw [hss] at hst
            simp only [Bool.false_eq_true, if_false] at hst
            std_step ⟨held, .incStore, res⟩
      | decref =>
        simp only at hst
        split at hst
        · cases hst
        · split at hst
          · std_step ⟨held, .decSub, res⟩
          · std_step ⟨held - 1, .finRead, res⟩
      | tryincref =>
        simp only [Allowed] at hal
        rw [hal.1.1] at hst
        have hall := hal.1.2.2
        simp only [if_true] at hst
        have hz : tot fTA s.ths = 0 ∧ tot fTU s.ths = 0 := by
          apply all_try
          rw [List.all_eq_true] at hall ⊢
          intro t h
          have := hall t h
          simp only [Bool.and_eq_true] at this
          exact this.1
        have hnofirst : ∀ (j : Nat) (u : Thr D), s.ths[j]? = some u → u.pc ≠ .incStore2 := by
          intro j u hu hp
          rw [List.all_eq_true] at hall
          have := hall u (List.mem_of_getElem? hu)
          rw [hp] at this
          simp [Pc.isFirstShare] at this
        have hsh := hal.1.1
        have hnf := hal.1.2.1
        std_step ⟨held, .tryAdd, res⟩
      | attach d =>
        simp only at hst
        split at hst
        · cases hst
        next hheld =>
        have hd : s.dead = false := by
          cases hd : s.dead with
          | false => rfl
          | true => have := (hD hd).1; omega
        split at hst
        · next hmax =>
          std_step ⟨held, .attUndo, res⟩
        · next hmax =>
          simp only [Option.some.injEq] at hst
          subst hst
          have hU0 : tot fU s.ths = 0 := by omega
          have hn : s.n = s.att.length := by omega
          have hA' := hA hd
          have hfr := hA'.2.2.2.2.2.1
          have hS := sums (t' := ⟨held, .attWrite s.n d, res⟩) ht
          simp only [fF, fU, fTA, fTU, Pc.isFin, Bool.false_eq_true, if_false, Nat.add_zero] at hS
          refine ⟨?_, hsl, ?_, ?_, ?_, ?_, ?_, ?_, ?_, ?_, ?_⟩
          · grind [acc]
          · simp only [acc, List.length_append, List.length_singleton]; omega
          · simp only [List.length_append, List.length_singleton]; omega
          · simp only [acc]; omega
          · intro k d' hk
            have hk' : (s.att ++ [d])[k]? = some d' := hk
            rw [List.getElem?_append] at hk'
            split at hk'
            · next hlt => exact slot_frame hi ht (by intro k d h; cases h) k d' hk'
            · next hlt =>
              right
              have hk0 : k = s.att.length := by
                have := (List.getElem?_eq_some_iff.1 hk').1
                simp at this; omega
              subst hk0
              simp at hk'
              subst hk'
              refine ⟨i, ⟨held, .attWrite s.n d, res⟩, ?_, by rw [hn]⟩
              simp only [acc]
              have := (List.getElem?_eq_some_iff.1 ht).1
              simp [this]
          · intro _; simp only [acc]; grind
          · intro hd2
            have : s.dead = true := hd2
            rw [hd] at this; cases this
          · simp only [acc]; grind
          · simp only [acc]; grind
          · intro j u hu
            have hu' : (s.ths.set i ⟨held, .attWrite s.n d, res⟩)[j]? = some u := hu
            rcases get_set hu' with ⟨_, rfl⟩ | ⟨hne, hu2⟩
            · refine ⟨by simp only; omega, ?_⟩
              simp only
              rw [hn]; simp
            · have h2 := sums2 hne ht hu2
              have h3 := hi.pc j u hu2
              obtain ⟨uh, up, ur⟩ := u
              cases up <;> simp only [PcOk, acc, fF, fTA, fTU, Pc.isFin, Bool.false_eq_true, if_false,
                if_true] at h2 h3 ⊢ <;> first | done | omega | grind
      | give j =>
        simp only at hst
        split at hst
        · cases hst
        next hg =>
        split at hst
        · cases hst
        next u hu =>
        simp only [Option.some.injEq] at hst
        subst hst
        have hij : i ≠ j := fun h => hg (.inr h)
        have hu1 : (s.ths.set i ⟨held - 1, .idle, res⟩)[j]? = some u :=
          get_set_other (Ne.symm hij) hu
        have hS1 := sums (t' := ⟨held - 1, .idle, res⟩) ht
        have hpos : 0 < held := Nat.pos_of_ne_zero (fun h => hg (.inl h))
        have hS2 := fun f => tot_set f _ j u { u with held := u.held + 1 } hu1
        have e1 := hS2 fH
        simp only [fF, fU, fTA, fTU, fH, Pc.isFin, Bool.false_eq_true, if_false, Nat.add_zero]
          at hS1 e1
        have q1 : tot fH ((s.ths.set i ⟨held - 1, .idle, res⟩).set j
          { u with held := u.held + 1 }) = tot fH s.ths := by
            omega
        have q2 : tot fF ((s.ths.set i ⟨held - 1, .idle, res⟩).set j
          { u with held := u.held + 1 }) = tot fF s.ths := by
            rw [← hS1.2.1]; exact Nat.add_right_cancel (hS2 fF)
        have q3 : tot fU ((s.ths.set i ⟨held - 1, .idle, res⟩).set j
          { u with held := u.held + 1 }) = tot fU s.ths := by
            rw [← hS1.2.2.1]; exact Nat.add_right_cancel (hS2 fU)
        have q4 : tot fTA ((s.ths.set i ⟨held - 1, .idle, res⟩).set j
          { u with held := u.held + 1 }) = tot fTA s.ths := by
            rw [← hS1.2.2.2.1]; exact Nat.add_right_cancel (hS2 fTA)
        have q5 : tot fTU ((s.ths.set i ⟨held - 1, .idle, res⟩).set j
          { u with held := u.held + 1 }) = tot fTU s.ths := by
            rw [← hS1.2.2.2.2]; exact Nat.add_right_cancel (hS2 fTU)
        refine ⟨hub, hsl, ?_, hM, ?_, ?_, ?_, ?_, ?_, ?_, ?_⟩
        · simp only [q3]; exact hN
        · simp only [q3]; exact hUM
        · intro k d hk
          rcases hi.slot k d hk with h | ⟨l, v, hv, hp⟩
          · exact .inl h
          · right
            by_cases hl : l = j
            · subst hl
              rw [hu] at hv; cases hv
              refine ⟨l, { u with held := u.held + 1 }, ?_, hp⟩
              have := (List.getElem?_eq_some_iff.1 hu1).1
              simp only
              rw [List.getElem?_set_self this]
            · refine ⟨l, v, ?_, hp⟩
              apply get_set_other hl
              apply get_set_other _ hv
              intro h; subst h
              rw [ht] at hv; cases hv
              cases hp
        · simp only [q1, q2, q4, q5]; exact hA
        · simp only [q1, q2, q4, q5]; exact hD
        · simp only [q4, q5]; exact hFT
        · simp only [q4, q5]; exact hT1
        · intro l v hv
          rcases get_set hv with ⟨_, rfl⟩ | ⟨hne, hv2⟩
          · have h3 := hi.pc j u hu
            obtain ⟨uh, up, ur⟩ := u
            cases up <;> simp only [PcOk, q1, q4] at h3 ⊢ <;> first | done | omega | grind
          · rcases get_set hv2 with ⟨_, rfl⟩ | ⟨hne2, hv3⟩
            · exact trivial
            · have h3 := hi.pc l v hv3
              obtain ⟨uh, up, ur⟩ := v
              cases up <;> simp only [PcOk, q1, q4] at h3 ⊢ <;> first | done | exact h3

theorem inv_exec {s s' : State D} : ∀ (sched : List (Nat × Act D)), Inv s → AllowedRun s sched →
    exec s sched = some s' → Inv s'
  | [], hi, _, hx => by cases hx; exact hi
  | (i, a) :: rest, hi, hal, hx => by
    unfold exec at hx
    cases hst : step s i a with
    | none => rw [hst] at hx; cases hx
    | some s1 =>
      rw [hst] at hx
      exact inv_exec rest (inv_step hi hal.1 hst) (hal.2 s1 hst) hx

theorem Inv.alive_log {s : State D} (hi : Inv s) : 0 < refs s → s.log = [] := by
  intro h
  cases hd : s.dead with
  | false => exact (hi.alive hd).1
  | true =>
    have := (hi.deadI hd).1
    have e : refs s = tot fH s.ths := rfl
    omega

theorem Inv.final {s : State D} (hi : Inv s) : refs s = 0 → Quiet s → s.log = s.att.reverse := by
  intro h hq
  cases hd : s.dead with
  | false =>
    have := (hi.alive hd).2.2.1
    have e : refs s = tot fH s.ths := rfl
    omega
  | true =>
    apply (hi.deadI hd).2.2.2.2
    apply tot_zero
    intro t ht
    simp [fF, hq t ht, Pc.isFin]

theorem exists_fin : ∀ (l : List (Thr D)), tot fF l ≠ 0 → ∃ (j : Nat) (u : Thr D),
    l[j]? = some u ∧ u.pc.isFin = true
  | [], h => absurd rfl h
  | a :: l, h => by
    by_cases ha : a.pc.isFin = true
    · exact ⟨0, a, rfl, ha⟩
    · have : tot fF l ≠ 0 := by
        simp only [tot, List.map_cons, List.sum_cons, fF, ha] at h ⊢
        simpa using h
      obtain ⟨j, u, h1, h2⟩ := exists_fin l this
      exact ⟨j + 1, u, by simpa using h1, h2⟩

theorem Inv.log_prefix {s : State D} (hi : Inv s) : s.log <+: s.att.reverse := by
  cases hd : s.dead with
  | false => rw [(hi.alive hd).1]; exact List.nil_prefix
  | true =>
    by_cases hf : tot fF s.ths = 0
    · rw [(hi.deadI hd).2.2.2.2 hf]; exact List.prefix_refl _
    · obtain ⟨j, u, hu, hp⟩ := exists_fin _ hf
      have h3 := hi.pc j u hu
      obtain ⟨uh, up, ur⟩ := u
      cases up <;> simp only [Pc.isFin, Bool.false_eq_true] at hp
      · rw [h3.2.1]; exact List.nil_prefix
      · next k =>
        rw [h3.2.2.1]
        rw [List.reverse_prefix]
        exact List.drop_suffix _ _

theorem Inv.single {s : State D} (hi : Inv s) :
    (s.ths.map (fun t => if Pc.isFin t.pc then 1 else 0)).sum ≤ 1 ∧
      (0 < (s.ths.map (fun t => if Pc.isFin t.pc then 1 else 0)).sum → refs s = 0) := by
  have e : (s.ths.map (fun t => if Pc.isFin t.pc then 1 else 0)).sum = tot fF s.ths := rfl
  have e' : refs s = tot fH s.ths := rfl
  rw [e, e']
  cases hd : s.dead with
  | false => have := (hi.alive hd); omega
  | true => have := (hi.deadI hd); omega

theorem Inv.success {s s' : State D} (hi : Inv s) {i : Nat} {t t' : Thr D}
    (ht : s.ths[i]? = some t) (hst : step s i .cont = some s') (ht' : s'.ths[i]? = some t')
    (hres : t'.res = true :: t.res) : 0 < refs s ∧ s.dead = false ∧ s.log = [] := by
  have hlt := (List.getElem?_eq_some_iff.1 ht).1
  have htok := hi.pc i t ht
  have hne : ∀ l : List Bool, l ≠ true :: l := by
    intro l h; have := congrArg List.length h; simp at this
  have hne2 : ∀ l : List Bool, false :: l ≠ true :: l := by
    intro l h; cases h
  unfold step at hst
  rw [ht] at hst
  obtain ⟨held, pc, res⟩ := t
  have key : s.cnt ≥ 0 → pc = .tryAdd → 0 < refs s ∧ s.dead = false ∧ s.log = [] := by
    intro hc hp
    subst hp
    have hg := tot_ge fTA _ _ _ ht
    simp only [fTA] at hg
    have h1 := hi.tryOne
    have e' : refs s = tot fH s.ths := rfl
    cases hd : s.dead with
    | false =>
      have hA := hi.alive hd
      exact ⟨by omega, rfl, hA.1⟩
    | true =>
      exfalso
      have hD := hi.deadI hd
      simp only [PcOk] at htok
      have := hD.2.2.1 htok
      omega
  cases pc with
  | tryStore => exact absurd htok (by simp [PcOk])
  | tryStore2 => exact absurd htok (by simp [PcOk])
  | tryAdd =>
    simp only at hst
    split at hst
    · cases hst
      simp only [acc, List.getElem?_set_self hlt, Option.some.injEq] at ht'
      subst ht'
      exact absurd hres (hne _)
    · exact key (by omega) rfl
  | idle => cases hst
  | decSub =>
    simp only at hst
    split at hst <;>
    · cases hst
      simp only [acc, List.getElem?_set_self hlt, Option.some.injEq] at ht'
      subst ht'
      exact absurd hres (hne _)
  | fin k =>
    cases k with
    | zero =>
      cases hst
      simp only [List.getElem?_set_self hlt, Option.some.injEq] at ht'
      subst ht'
      exact absurd hres (hne _)
    | succ k =>
      simp only at hst
      split at hst <;>
      · cases hst
        simp only [acc, List.getElem?_set_self hlt, Option.some.injEq] at ht'
        subst ht'
        exact absurd hres (hne _)
  | tryUndo =>
    cases hst
    simp only [acc, List.getElem?_set_self hlt, Option.some.injEq] at ht'
    subst ht'
    exact absurd hres (hne2 _)
  | _ =>
    cases hst
    simp only [acc, List.getElem?_set_self hlt, Option.some.injEq] at ht'
    subst ht'
    exact absurd hres (hne _)

/-- No thread is inside a conditional acquire. -/
def NoTryThr (s : State D) : Prop := ∀ t ∈ s.ths, t.pc.isTry = false

theorem mem_set {l : List (Thr D)} {i : Nat} {t' u : Thr D} (h : u ∈ l.set i t') :
    u = t' ∨ u ∈ l := by
  rcases List.mem_or_eq_of_mem_set h with h | h
  · exact .inr h
  · exact .inl h

theorem noTry_step {s s' : State D} {i : Nat} {a : Act D} (h : NoTryThr s) (ha : a ≠ .tryincref)
    (hst : step s i a = some s') : NoTryThr s' := by
  unfold step at hst
  cases ht : s.ths[i]? with
  | none => rw [ht] at hst; cases hst
  | some t =>
    rw [ht] at hst
    have htn := h t (List.mem_of_getElem? ht)
    have key : ∀ t' : Thr D, t'.pc.isTry = false → ∀ u ∈ s.ths.set i t', u.pc.isTry = false := by
      intro t' h1 u hu
      rcases mem_set hu with rfl | hu
      · exact h1
      · exact h u hu
    simp only at hst
    split at hst
    all_goals first
      | (cases hst; done)
      | (exact absurd rfl ha)
      | (rename_i hp; rw [hp] at htn; simp [Pc.isTry] at htn; done)
      | (cases hst; exact key _ rfl)
      | (split at hst
         · first | (cases hst; done) | (cases hst; exact key _ rfl)
         · first
            | (cases hst; exact key _ rfl)
            | (cases hst; apply key; simp only; split <;> rfl)
            | (split at hst
               · first | (cases hst; done) | (cases hst; exact key _ rfl)
               · first
                  | (cases hst; exact key _ rfl)
                  | (next u hu =>
                      cases hst
                      intro v hv
                      rcases mem_set hv with rfl | hv
                      · exact h u (List.mem_of_getElem? hu)
                      · exact key _ rfl v hv)))
      | skip
    next hp _ =>
      split at hst
      · cases hst
      · split at hst
        · cases hst
        · next u hu =>
          cases hst
          intro v hv
          rcases mem_set hv with rfl | hv
          · exact h u (List.mem_of_getElem? hu)
          · exact key { t with held := t.held - 1 } htn v hv

theorem allowed_of_noTryThr : ∀ (sched : List (Nat × Act D)) (s : State D), NoTry sched →
    NoTryThr s → AllowedRun s sched
  | [], _, _, _ => trivial
  | (i, a) :: rest, s, h, hn => by
    have ha : a ≠ .tryincref := h (i, a) List.mem_cons_self
    refine ⟨⟨?_, ?_⟩, ?_⟩
    · cases a <;> first | trivial | exact absurd rfl ha
    · cases s.ths[i]? with
      | none => trivial
      | some t =>
        intro _
        rw [List.all_eq_true]
        intro u hu
        simp [hn u hu]
    · intro s' hst
      exact allowed_of_noTryThr rest s' (fun e he => h e (List.mem_cons_of_mem _ he))
        (noTry_step hn ha hst)

theorem allowed_of_noTry {k : Nat} {ds : List D} (sched : List (Nat × Act D)) (hs : NoTry sched) :
    AllowedRun (init k ds) sched := by
  apply allowed_of_noTryThr sched _ hs
  intro t ht
  simp only [init, List.mem_cons, List.mem_replicate] at ht
  rcases ht with rfl | ⟨_, rfl⟩ <;> rfl

/-- From a state in which the destroyer has `k` destructors left, its own steps finish the
job. -/
theorem finish : ∀ (k : Nat) (s : State D) (j : Nat) (u : Thr D), Inv s → NoTryThr s →
    s.ths[j]? = some u → u.pc = .fin k →
    ∃ m s', exec s (List.replicate m (j, .cont)) = some s' ∧ s'.log = s'.att.reverse
  | 0, s, j, u, hi, _, hu, hp => by
    have := hi.pc j u hu
    rw [PcOk, hp] at this
    exact ⟨0, s, rfl, by simpa using this.2.2.1⟩
  | k + 1, s, j, u, hi, hn, hu, hp => by
    obtain ⟨s1, h1, u1, h2, h3⟩ : ∃ s1, step s j .cont = some s1 ∧ ∃ u1, s1.ths[j]? = some u1 ∧
        u1.pc = .fin k := by
      have hlt := (List.getElem?_eq_some_iff.1 hu).1
      unfold step
      rw [hu]
      obtain ⟨uh, up, ur⟩ := u
      cases hp
      simp only
      cases s.slots[k]?.join with
      | none => exact ⟨_, rfl, ⟨uh, .fin k, ur⟩, by simp [acc, hlt], rfl⟩
      | some d => exact ⟨_, rfl, ⟨uh, .fin k, ur⟩, by simp [acc, hlt], rfl⟩
    have hal : Allowed s j .cont := by
      refine ⟨trivial, ?_⟩
      rw [hu]
      intro _
      rw [List.all_eq_true]
      intro v hv
      simp [hn v hv]
    obtain ⟨m, s', e1, e2⟩ := finish k s1 j u1 (inv_step hi hal h1)
      (noTry_step hn (by intro h; cases h) h1) h2 h3
    exact ⟨m + 1, s', by rw [List.replicate_succ]; simp only [exec, h1]; exact e1, e2⟩

theorem noTry_exec {s' : State D} : ∀ (sched : List (Nat × Act D)) (s : State D), NoTry sched →
    NoTryThr s → exec s sched = some s' → NoTryThr s'
  | [], _, _, hn, hx => by cases hx; exact hn
  | (i, a) :: rest, s, h, hn, hx => by
    unfold exec at hx
    cases hst : step s i a with
    | none => rw [hst] at hx; cases hx
    | some s1 =>
      rw [hst] at hx
      exact noTry_exec rest s1 (fun e he => h e (List.mem_cons_of_mem _ he))
        (noTry_step hn (h (i, a) List.mem_cons_self) hst) hx

theorem Inv.finish {s : State D} (hi : Inv s) (hn : NoTryThr s) (h0 : refs s = 0) :
    ∃ j m s', exec s (List.replicate m (j, .cont)) = some s' ∧ s'.log = s'.att.reverse := by
  have hd : s.dead = true := by
    cases hd : s.dead with
    | true => rfl
    | false =>
      have := (hi.alive hd).2.2.1
      have e' : refs s = tot fH s.ths := rfl
      omega
  by_cases hf : tot fF s.ths = 0
  · exact ⟨0, 0, s, rfl, (hi.deadI hd).2.2.2.2 hf⟩
  · obtain ⟨j, u, hu, hp⟩ := exists_fin _ hf
    obtain ⟨uh, up, ur⟩ := u
    cases up <;> simp only [Pc.isFin, Bool.false_eq_true] at hp
    · have hlt := (List.getElem?_eq_some_iff.1 hu).1
      have h1 : step s j .cont = some (acc s j ⟨uh, .fin s.n, ur⟩) := by
        unfold step; rw [hu]
      have hal : Allowed s j .cont := by
        refine ⟨trivial, ?_⟩
        rw [hu]
        intro h; cases h
      obtain ⟨m, s', e1, e2⟩ := Verif.Refcnt.finish s.n _ j ⟨uh, .fin s.n, ur⟩ (inv_step hi hal h1)
        (noTry_step hn (by intro h; cases h) h1) (by simp [acc, hlt]) rfl
      exact ⟨j, m + 1, s', by rw [List.replicate_succ]; simp only [exec, h1]; exact e1, e2⟩
    · next k =>
      obtain ⟨m, s', e1, e2⟩ := Verif.Refcnt.finish k s j ⟨uh, .fin k, ur⟩ hi hn hu rfl
      exact ⟨j, m, s', e1, e2⟩

end Verif.Refcnt
