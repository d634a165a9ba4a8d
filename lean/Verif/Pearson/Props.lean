import Verif.Pearson.Model

/-!
# C32: the perfect hash is exact
-/

namespace Verif.Pearson

theorem index_spec (t : Table) : ∀ (ss pre : List (List UInt8)) (om om' : Table),
    pre.length + ss.length ≤ 256 →
    index t pre.length ss om = some om' →
    (∀ (i : Nat) s, pre[i]? = some s → om (hash8 t s) = UInt8.ofNat (i + 1)) →
    (∀ h, om h ≠ 0 → ∃ i : Nat, i < pre.length ∧ om h = UInt8.ofNat (i + 1)) →
    (∀ (i : Nat) s, (pre ++ ss)[i]? = some s → om' (hash8 t s) = UInt8.ofNat (i + 1)) ∧
    (∀ h, om' h ≠ 0 → ∃ i : Nat, i < (pre ++ ss).length ∧ om' h = UInt8.ofNat (i + 1))
  | [], pre, om, om', _, h, h1, h2 => by
    simp only [index, Option.some.injEq] at h
    subst h
    rw [List.append_nil]
    exact ⟨h1, h2⟩
  | s :: ss, pre, om, om', hl, h, h1, h2 => by
    simp only [index] at h
    split at h
    · cases h
    · rename_i hz
      simp only [ne_eq, Decidable.not_not] at hz
      simp only [List.length_cons] at hl
      have e : pre.length + 1 = (pre ++ [s]).length := by simp
      rw [e] at h
      have := index_spec t ss (pre ++ [s]) _ om' (by simp; omega) h ?_ ?_
      · simpa using this
      · intro i x hx
        simp only [Table.set]
        rw [List.getElem?_append] at hx
        split at hx
        · rename_i hi
          have hx' := h1 i x hx
          have hne : hash8 t x ≠ hash8 t s := by
            intro c
            rw [c, hz] at hx'
            have hb := congrArg UInt8.toNat hx'
            simp only [UInt8.toNat_ofNat'] at hb
            have : (0 : UInt8).toNat = 0 := rfl
            omega
          rw [if_neg hne]; exact hx'
        · have : i - pre.length = 0 := by
            rcases Nat.eq_zero_or_pos (i - pre.length) with h0 | h0
            · exact h0
            · rw [List.getElem?_eq_none (by simp; omega)] at hx; cases hx
          rw [this] at hx
          simp at hx
          subst hx
          rw [if_pos rfl]
          congr 1
          rw [← e]; omega
      · intro x hx
        simp only [Table.set] at hx ⊢
        by_cases c : x = hash8 t s
        · rw [if_pos c]
          exact ⟨pre.length, by simp, by rw [← e]⟩
        · rw [if_neg c] at hx ⊢
          obtain ⟨i, hi, hv⟩ := h2 x hx
          exact ⟨i, by simp; omega, hv⟩

theorem search_ok (names : List (List UInt8)) : ∀ (fuel : Nat) (rs : List Nat) (h : Table × Table), search names fuel rs = some h →
    ∃ rs' rs'', shuffle rs' = some (h.1, rs'') ∧ index h.1 0 names (fun _ => 0) = some h.2
  | 0, rs, h, e => by cases e
  | fuel + 1, rs, h, e => by
    simp only [search] at e
    split at e
    · cases e
    · rename_i t rs' ht
      split at e
      · rename_i om ho
        simp only [Option.some.injEq] at e
        subst e
        exact ⟨rs, rs', ht, ho⟩
      · exact search_ok names fuel rs' h e

/-- Looking `s` up in a list of names: the position of the first equal to it. -/
def position (s : List UInt8) : List (List UInt8) → Option Nat
  | [] => none
  | x :: xs => if x = s then some 0 else (position s xs).map (· + 1)

/-- **C32.**  Whatever random values led to the table, looking a name up returns `i` exactly when it is the `i`-th
registered name, and nothing otherwise; no name beyond the last is ever consulted. -/
theorem C32_exact (names : List (List UInt8)) (hn : names.length ≤ 255) (rs : List Nat) (h : Table × Table)
    (hb : build names rs = some h) (s : List UInt8) :
    ∃ r, lookup names h s = .ok r ∧ ∀ i, r = some i ↔ names[i]? = some s := by
  obtain ⟨_, _, -, hi⟩ := search_ok names _ rs h hb
  obtain ⟨h1, h2⟩ := index_spec h.1 names [] (fun _ => 0) h.2 (by simp; omega) hi (by simp) (by simp)
  simp only [List.nil_append] at h1 h2
  have conv : ∀ i : Nat, i < 255 → (UInt8.ofNat (i + 1)).toNat = i + 1 := by
    intro i hi
    simp only [UInt8.toNat_ofNat']
    omega
  unfold lookup
  simp only []
  by_cases hz : h.2 (hash8 h.1 s) = 0
  · rw [if_pos hz]
    refine ⟨none, rfl, ?_⟩
    intro i
    constructor
    · intro e; cases e
    · intro e
      have hl := (List.getElem?_eq_some_iff.1 e).1
      have := h1 i s e
      rw [hz] at this
      have hb := congrArg UInt8.toNat this
      rw [conv i (by omega)] at hb
      have : (0 : UInt8).toNat = 0 := rfl
      omega
  · rw [if_neg hz]
    obtain ⟨k, hk, hv⟩ := h2 _ hz
    rw [hv, conv k (by omega)]
    simp only [Nat.add_sub_cancel]
    rw [List.getElem?_eq_getElem hk]
    simp only []
    refine ⟨_, rfl, ?_⟩
    intro i
    constructor
    · intro e
      split at e
      · rename_i hs
        simp only [Option.some.injEq] at e
        subst e
        rw [List.getElem?_eq_getElem hk, hs]
      · cases e
    · intro e
      have hl := (List.getElem?_eq_some_iff.1 e).1
      have := h1 i s e
      rw [hv] at this
      have hb := congrArg UInt8.toNat this
      rw [conv i (by omega), conv k (by omega)] at hb
      have : i = k := by omega
      subst this
      rw [List.getElem?_eq_getElem hk] at e
      simp only [Option.some.injEq] at e
      rw [if_pos e.symm]

/-- The bound is sharp: of 256 names the last one is never found, whichever table was. -/
theorem C32_256_counterexample (names : List (List UInt8)) (hn : names.length = 256) (rs : List Nat) (h : Table × Table)
    (hb : build names rs = some h) (s : List UInt8) (hs : names[255]? = some s) : lookup names h s = .ok none := by
  obtain ⟨_, _, -, hi⟩ := search_ok names _ rs h hb
  obtain ⟨h1, -⟩ := index_spec h.1 names [] (fun _ => 0) h.2 (by simp; omega) hi (by simp) (by simp)
  have := h1 255 s (by simpa using hs)
  unfold lookup
  simp only [this]
  rfl

theorem index_dup (t : Table) : ∀ (ss : List (List UInt8)) (i : Nat) (om : Table) (s : List UInt8),
    om (hash8 t s) ≠ 0 → s ∈ ss → i + ss.length ≤ 255 → index t i ss om = none
  | [], i, om, s, _, hs, _ => by cases hs
  | x :: xs, i, om, s, h, hs, hl => by
    simp only [index]
    split
    · rfl
    · rename_i hz
      simp only [ne_eq, Decidable.not_not] at hz
      simp only [List.length_cons] at hl
      have hne : hash8 t s ≠ hash8 t x := by intro c; rw [c] at h; exact h hz
      refine index_dup t xs (i + 1) _ s ?_ ?_ (by omega)
      · simp only [Table.set, if_neg hne]; exact h
      · rcases List.mem_cons.1 hs with rfl | hs
        · exact absurd rfl hne
        · exact hs

theorem index_not_nodup (t : Table) : ∀ (ss : List (List UInt8)) (i : Nat) (om : Table), ¬ ss.Nodup → i + ss.length ≤ 255 →
    index t i ss om = none
  | [], i, om, h, _ => absurd List.nodup_nil h
  | x :: xs, i, om, h, hl => by
    simp only [index]
    split
    · rfl
    · simp only [List.length_cons] at hl
      rw [List.nodup_cons] at h
      by_cases hx : x ∈ xs
      · refine index_dup t xs (i + 1) _ x ?_ hx (by omega)
        simp only [Table.set, if_true]
        intro c
        have hb := congrArg UInt8.toNat c
        simp only [UInt8.toNat_ofNat'] at hb
        have : (0 : UInt8).toNat = 0 := rfl
        omega
      · exact index_not_nodup t xs (i + 1) _ (fun hn => h ⟨hx, hn⟩) (by omega)

theorem search_none (names : List (List UInt8)) (h : ∀ t, index t 0 names (fun _ => 0) = none) :
    ∀ (fuel : Nat) (rs : List Nat), search names fuel rs = none
  | 0, rs => rfl
  | fuel + 1, rs => by
    simp only [search]
    split
    · rfl
    · rename_i t rs' _
      rw [h t]
      exact search_none names h fuel rs'

/-- If a name is registered twice the search never ends, whatever the random values. -/
theorem C32_duplicates_hang (names : List (List UInt8)) (hn : names.length ≤ 255) (hd : ¬ names.Nodup) (rs : List Nat) :
    build names rs = none :=
  search_none names (fun t => index_not_nodup t names 0 _ hd (by simpa using hn)) _ rs

/-! ## The table found is a permutation of the bytes -/

def used (t : Table) (i : Nat) : Prop := ∀ v : UInt8, v.toNat < i → v ≠ 0 → ∃ s, t s = v

theorem pick_free (t : Table) : ∀ (rs : List Nat) (s : UInt8) (rs' : List Nat), pick t rs = some (s, rs') → t s = 0
  | [], s, rs', h => by cases h
  | r :: rs, s, rs', h => by
    simp only [pick] at h
    split at h
    · exact pick_free t rs s rs' h
    · rename_i hz
      simp only [Option.some.injEq, Prod.mk.injEq] at h
      rw [← h.1]
      simpa using hz

theorem fill_used : ∀ (n i : Nat) (t t' : Table) (rs rs' : List Nat), i + n ≤ 256 → 1 ≤ i → used t i → fill t i n rs = some (t', rs') →
    used t' (i + n)
  | 0, i, t, t', rs, rs', _, _, hu, h => by
    simp only [fill, Option.some.injEq, Prod.mk.injEq] at h
    rw [← h.1]; exact hu
  | n + 1, i, t, t', rs, rs', hl, h1, hu, h => by
    simp only [fill] at h
    split at h
    · cases h
    · rename_i s rs1 hp
      have hf := pick_free t rs s rs1 hp
      have := fill_used n (i + 1) _ t' rs1 rs' (by omega) (by omega) ?_ h
      · rw [show i + 1 + n = i + (n + 1) by omega] at this; exact this
      · intro v hv hv0
        by_cases c : v.toNat = i
        · refine ⟨s, ?_⟩
          simp only [Table.set, if_true]
          apply UInt8.toNat_inj.1
          simp only [UInt8.toNat_ofNat']
          omega
        · obtain ⟨x, hx⟩ := hu v (by omega) hv0
          refine ⟨x, ?_⟩
          have : x ≠ s := by rintro rfl; rw [hf] at hx; exact hv0 hx.symm
          simp only [Table.set, if_neg this]
          exact hx

/-- Every nonzero byte occurs in the table that comes out of the shuffle, whatever the random values. -/
theorem C32_shuffle_covers (rs : List Nat) (t : Table) (rs' : List Nat) (h : shuffle rs = some (t, rs')) (v : UInt8) (hv : v ≠ 0) :
    ∃ s, t s = v := by
  refine fill_used 255 1 _ t rs rs' (by omega) (by omega) ?_ h v ?_ hv
  · intro x hx hx0
    exfalso
    apply hx0
    apply UInt8.toNat_inj.1
    have : (0 : UInt8).toNat = 0 := rfl
    omega
  · have := v.toNat_lt; omega

/-! ## Cases -/

/-- Random values 1, 2, … make the identity table. -/
def seq : List Nat := (List.range 255).map (· + 1)

def names3 : List (List UInt8) := [[1], [2], [3, 1]]

example : ((build names3 seq).map fun h => (hash8 h.1 [1], hash8 h.1 [2], hash8 h.1 [3, 1])) = none := by decide +kernel
def names4 : List (List UInt8) := [[1], [2], [3, 7]]
example : ((build names4 seq).map fun h => ((lookup names4 h [3, 7]).toOption, (lookup names4 h [4]).toOption, (lookup names4 h [9]).toOption)) =
    some (some (some 2), some none, some none) := by decide +kernel

/-- 256 names for which there is a table: the strings of one byte, and the empty one. -/
def names256 : List (List UInt8) := [] :: (List.range 255).map fun i => [UInt8.ofNat (i + 1)]

example : names256.length = 256 ∧ (build names256 seq).isSome = true := by
  refine ⟨by simp [names256], ?_⟩
  decide +kernel

end Verif.Pearson
