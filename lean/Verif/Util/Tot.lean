/-! Sums over the threads of a transition system. -/

namespace Verif.Util

variable {α : Type}

def tot (f : α → Nat) (l : List α) : Nat := (l.map f).sum

theorem tot_set (f : α → Nat) : ∀ (l : List α) (i : Nat) (t t' : α),
    l[i]? = some t → tot f (l.set i t') + f t = tot f l + f t'
  | [], i, t, t', h => by simp at h
  | a :: l, 0, t, t', h => by
    simp at h; subst h
    simp only [tot, List.set_cons_zero, List.map_cons, List.sum_cons]; omega
  | a :: l, i + 1, t, t', h => by
    have := tot_set f l i t t' (by simpa using h)
    simp only [tot, List.set_cons_succ, List.map_cons, List.sum_cons] at *; omega

theorem tot_ge (f : α → Nat) : ∀ (l : List α) (i : Nat) (t : α),
    l[i]? = some t → f t ≤ tot f l
  | [], i, t, h => by simp at h
  | a :: l, 0, t, h => by
    simp at h; subst h
    simp only [tot, List.map_cons, List.sum_cons]; omega
  | a :: l, i + 1, t, h => by
    have := tot_ge f l i t (by simpa using h)
    simp only [tot, List.map_cons, List.sum_cons] at *; omega

theorem tot_two (f : α → Nat) : ∀ (l : List α) (i j : Nat) (t u : α), i ≠ j →
    l[i]? = some t → l[j]? = some u → f t + f u ≤ tot f l
  | [], i, j, t, u, _, h, _ => by simp at h
  | a :: l, 0, 0, t, u, hne, _, _ => absurd rfl hne
  | a :: l, 0, j + 1, t, u, _, h, h' => by
    have := tot_ge f l j u (by simpa using h')
    simp at h; subst h
    simp only [tot, List.map_cons, List.sum_cons] at *; omega
  | a :: l, i + 1, 0, t, u, _, h, h' => by
    have := tot_ge f l i t (by simpa using h)
    simp at h'; subst h'
    simp only [tot, List.map_cons, List.sum_cons] at *; omega
  | a :: l, i + 1, j + 1, t, u, hne, h, h' => by
    have := tot_two f l i j t u (by omega) (by simpa using h) (by simpa using h')
    simp only [tot, List.map_cons, List.sum_cons] at *; omega

theorem tot_zero (f : α → Nat) : ∀ (l : List α), (∀ t ∈ l, f t = 0) → tot f l = 0
  | [], _ => rfl
  | a :: l, h => by
    have := tot_zero f l (fun t ht => h t (List.mem_cons_of_mem _ ht))
    have h2 := h a List.mem_cons_self
    simp only [tot, List.map_cons, List.sum_cons] at *; omega

theorem tot_replicate (f : α → Nat) (t : α) (h : f t = 0) (k : Nat) :
    tot f (List.replicate k t) = 0 :=
  tot_zero f _ (fun u hu => by rw [List.eq_of_mem_replicate hu]; exact h)

theorem tot_le {f g : α → Nat} : ∀ (l : List α),
    (∀ (j : Nat) (u : α), l[j]? = some u → f u ≤ g u) → tot f l ≤ tot g l
  | [], _ => Nat.le_refl _
  | a :: l, h => by
    have h1 := h 0 a rfl
    have h2 := tot_le l (fun j u hu => h (j + 1) u (by simpa using hu))
    simp only [tot, List.map_cons, List.sum_cons] at *; omega

theorem tot_cons (f : α → Nat) (a : α) (l : List α) : tot f (a :: l) = f a + tot f l := by
  simp [tot]

theorem tot_add (f g h : α → Nat) (hp : ∀ t, f t + g t = h t) : ∀ (l : List α),
    tot f l + tot g l = tot h l
  | [] => rfl
  | a :: l => by
    have h1 := hp a
    have h2 := tot_add f g h hp l
    simp only [tot_cons]; omega

theorem get_set {l : List α} {i j : Nat} {t' u : α} (h : (l.set i t')[j]? = some u) :
    (j = i ∧ u = t') ∨ (j ≠ i ∧ l[j]? = some u) := by
  rw [List.getElem?_set] at h
  by_cases hij : i = j
  · rw [if_pos hij] at h
    left
    split at h
    · exact ⟨hij.symm, (Option.some.inj h).symm⟩
    · cases h
  · rw [if_neg hij] at h
    exact .inr ⟨fun e => hij e.symm, h⟩

theorem get_set_other {l : List α} {i j : Nat} {t' u : α} (hne : j ≠ i)
    (h : l[j]? = some u) : (l.set i t')[j]? = some u := by
  rw [List.getElem?_set, if_neg (fun e => hne e.symm)]
  exact h

theorem exists_of_tot_pos (f : α → Nat) : ∀ (l : List α), tot f l ≠ 0 → ∃ (j : Nat) (u : α),
    l[j]? = some u ∧ f u ≠ 0
  | [], h => absurd rfl h
  | a :: l, h => by
    by_cases ha : f a = 0
    · have : tot f l ≠ 0 := by
        simp only [tot_cons, ha] at h; omega
      obtain ⟨j, u, h1, h2⟩ := exists_of_tot_pos f l this
      exact ⟨j + 1, u, by simpa using h1, h2⟩
    · exact ⟨0, a, rfl, ha⟩

end Verif.Util
