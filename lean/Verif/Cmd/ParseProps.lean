import Verif.Cmd.Parse
import Verif.Cmd.SplitProps
import Verif.Str.UrlProps
import Mathlib.Tactic.FinCases

/-!
# C16: admission of commands

Full claim: a command is accepted exactly when it follows the documented grammar.  Accepting follows the grammar
(`C16_admission`), but a `G` command naming more than 22 counters, which the grammar allows, is refused before admission:
`C16_stats_limit_counterexample`.
-/

namespace Verif.Cmd

/-! ### Specification -/

/-- A row of the documented grammar (the `hint` texts and the protocol description): number of arguments, counted with the command itself,
and whether modifiers and sub-commands are allowed. -/
structure Row where
  op : CmdOp
  min : Nat
  max : Nat
  mods : Bool
  subc : Bool

/-- The grammar, by lower-case letter. -/
def grammar (nstats : Nat) : List (Char × Row) :=
  [('u', ⟨.update, 5, 8, true, true⟩),        -- U[opts] callid remote_ip remote_port from_tag [to_tag] [notify_socket notify_tag]
   ('l', ⟨.lookup, 5, 6, true, true⟩),        -- L[opts] callid remote_ip remote_port from_tag [to_tag]
   ('d', ⟨.delete, 3, 4, true, false⟩),       -- D[w] callid from_tag [to_tag]
   ('p', ⟨.play, 5, 6, true, false⟩),         -- P[n] callid pname codecs from_tag [to_tag]
   ('r', ⟨.record, 3, 4, true, false⟩),       -- R[s] call_id from_tag [to_tag]
   ('c', ⟨.copy, 4, 5, true, false⟩),         -- C[-xxx-] call_id -XXX- from_tag [to_tag]
   ('s', ⟨.noplay, 3, 4, false, false⟩),      -- S call_id from_tag [to_tag]
   ('n', ⟨.norecord, 3, 4, true, false⟩),     -- N[a] call_id from_tag [to_tag]
   ('v', ⟨.getVer, 1, 1, false, false⟩),      -- V
   ('i', ⟨.info, 1, 1, true, false⟩),         -- I[b]
   ('q', ⟨.query, 3, 15, true, true⟩),        -- Q[v] call_id from_tag [to_tag [stat_name1 ...[stat_nameN]]]
   ('x', ⟨.deleteAll, 1, 1, false, false⟩),   -- X
   ('g', ⟨.getStats, 1, nstats + 1, true, false⟩)] -- G[v] [stat_name1 [stat_name2 [stat_name3 ...[stat_nameN]]]]

/-- The lower-case form of a letter. -/
def lower (c : UInt8) : UInt8 := if 65 ≤ c ∧ c ≤ 90 then c + 32 else c

/-- The row and the modifiers denoted by the first argument: `VF` (any case) is a command of its own. -/
def rowOf (nstats : Nat) : Tok → Option (Row × Tok)
  | [] => none
  | c :: mods =>
    if lower c = 118 ∧ mods.head?.map lower = some 102 then some (⟨.verFeature, 2, 2, false, false⟩, mods.drop 1)  -- VF feature_num
    else ((grammar nstats).find? fun r => r.1.toNat = (lower c).toNat).map fun r => (r.2, mods)

/-! ### Lemmas -/

theorem chr_zero_iff {mods : Tok} (h : (0 : UInt8) ∉ mods) : mods.getD 0 0 ≠ 0 ↔ mods ≠ [] := by
  cases mods with
  | nil => simp
  | cons a l => simp at h ⊢; exact fun hc => h.1 hc.symm

def Row.props (r : Row) : CmdProps → Prop := fun p => p.op = r.op ∧ p.minArgc = r.min ∧ p.maxArgc = r.max ∧ p.hasCmods = r.mods ∧ p.hasSubc = r.subc

theorem props_row (nstats : Nat) (c : UInt8) (mods : Tok) :
    match fillProps (c :: mods) nstats, rowOf nstats (c :: mods) with
    | none, none => True
    | some p, some (r, m) => r.props p ∧ ∃ k, p.skip = k + 1 ∧ m = mods.drop k ∧
        (p.hasCallId = true → 2 ≤ p.minArgc) ∧ p.fpos < p.minArgc
    | _, _ => False := by
  have hnone : (c ∈ ([117, 85, 108, 76, 100, 68, 112, 80, 114, 82, 99, 67, 115, 83, 110, 78, 118, 86, 105, 73, 113, 81, 120, 88, 103, 71] : List UInt8)) ∨ (lower c ≠ 118 ∧ ([117, 108, 100, 112, 114, 99, 115, 110, 118, 105, 113, 120, 103] : List Nat).all (· ≠ (lower c).toNat) = true) :=
    Str.byteInd (P := fun c => (c ∈ ([117, 85, 108, 76, 100, 68, 112, 80, 114, 82, 99, 67, 115, 83, 110, 78, 118, 86, 105, 73, 113, 81, 120, 88, 103, 71] : List UInt8)) ∨ (lower c ≠ 118 ∧ ([117, 108, 100, 112, 114, 99, 115, 110, 118, 105, 113, 120, 103] : List Nat).all (· ≠ (lower c).toNat) = true)) (by decide +kernel) c
  have hf : ∀ m : UInt8, (m = 70 ∨ m = 102) ↔ lower m = 102 :=
    fun m => Str.byteInd (P := fun m : UInt8 => (m = 70 ∨ m = 102) ↔ lower m = 102) (by decide +kernel) m
  have e0 : chr (c :: mods) 0 = c := rfl
  have e1 : chr (c :: mods) 1 = mods.getD 0 0 := rfl
  unfold fillProps
  simp only [e0]
  by_cases h1 : c = 117 ∨ c = 85
  · rw [if_pos h1]; rcases h1 with rfl | rfl <;> exact ⟨⟨rfl, rfl, rfl, rfl, rfl⟩, 0, rfl, rfl, (by simp), (by simp)⟩
  rw [if_neg h1]
  by_cases h2 : c = 108 ∨ c = 76
  · rw [if_pos h2]; rcases h2 with rfl | rfl <;> exact ⟨⟨rfl, rfl, rfl, rfl, rfl⟩, 0, rfl, rfl, (by simp), (by simp)⟩
  rw [if_neg h2]
  by_cases h3 : c = 100 ∨ c = 68
  · rw [if_pos h3]; rcases h3 with rfl | rfl <;> exact ⟨⟨rfl, rfl, rfl, rfl, rfl⟩, 0, rfl, rfl, (by simp), (by simp)⟩
  rw [if_neg h3]
  by_cases h4 : c = 112 ∨ c = 80
  · rw [if_pos h4]; rcases h4 with rfl | rfl <;> exact ⟨⟨rfl, rfl, rfl, rfl, rfl⟩, 0, rfl, rfl, (by simp), (by simp)⟩
  rw [if_neg h4]
  by_cases h5 : c = 114 ∨ c = 82
  · rw [if_pos h5]; rcases h5 with rfl | rfl <;> exact ⟨⟨rfl, rfl, rfl, rfl, rfl⟩, 0, rfl, rfl, (by simp), (by simp)⟩
  rw [if_neg h5]
  by_cases h6 : c = 99 ∨ c = 67
  · rw [if_pos h6]; rcases h6 with rfl | rfl <;> exact ⟨⟨rfl, rfl, rfl, rfl, rfl⟩, 0, rfl, rfl, (by simp), (by simp)⟩
  rw [if_neg h6]
  by_cases h7 : c = 115 ∨ c = 83
  · rw [if_pos h7]; rcases h7 with rfl | rfl <;> exact ⟨⟨rfl, rfl, rfl, rfl, rfl⟩, 0, rfl, rfl, (by simp), (by simp)⟩
  rw [if_neg h7]
  by_cases h8 : c = 110 ∨ c = 78
  · rw [if_pos h8]; rcases h8 with rfl | rfl <;> exact ⟨⟨rfl, rfl, rfl, rfl, rfl⟩, 0, rfl, rfl, (by simp), (by simp)⟩
  rw [if_neg h8]
  by_cases h9 : c = 118 ∨ c = 86
  · rw [if_pos h9]
    have hl : lower c = 118 := by rcases h9 with rfl | rfl <;> rfl
    cases mods with
    | nil =>
      rw [if_neg (by rw [e1]; decide)]
      rcases h9 with rfl | rfl <;> exact ⟨⟨rfl, rfl, rfl, rfl, rfl⟩, 0, rfl, rfl, (by simp), (by simp)⟩
    | cons m ms =>
      rw [e1]
      simp only [List.getD_cons_zero, hf m]
      by_cases hm : lower m = 102
      · rw [if_pos hm]
        have : rowOf nstats (c :: m :: ms) = some (⟨.verFeature, 2, 2, false, false⟩, ms) := by
          simp [rowOf, hl, hm]
        rw [this]
        exact ⟨⟨rfl, rfl, rfl, rfl, rfl⟩, 1, rfl, rfl, (by simp), (by simp)⟩
      · rw [if_neg hm]
        have : rowOf nstats (c :: m :: ms) = some (⟨.getVer, 1, 1, false, false⟩, m :: ms) := by
          have hm' : ¬ (lower c = 118 ∧ (m :: ms).head?.map lower = some 102) := by simp [hm]
          unfold rowOf
          simp only
          rw [if_neg hm', hl]
          rfl
        rw [this]
        exact ⟨⟨rfl, rfl, rfl, rfl, rfl⟩, 0, rfl, rfl, (by simp), (by simp)⟩
  rw [if_neg h9]
  by_cases h10 : c = 105 ∨ c = 73
  · rw [if_pos h10]; rcases h10 with rfl | rfl <;> exact ⟨⟨rfl, rfl, rfl, rfl, rfl⟩, 0, rfl, rfl, (by simp), (by simp)⟩
  rw [if_neg h10]
  by_cases h11 : c = 113 ∨ c = 81
  · rw [if_pos h11]; rcases h11 with rfl | rfl <;> exact ⟨⟨rfl, rfl, rfl, rfl, rfl⟩, 0, rfl, rfl, (by simp), (by simp)⟩
  rw [if_neg h11]
  by_cases h12 : c = 120 ∨ c = 88
  · rw [if_pos h12]; rcases h12 with rfl | rfl <;> exact ⟨⟨rfl, rfl, rfl, rfl, rfl⟩, 0, rfl, rfl, (by simp), (by simp)⟩
  rw [if_neg h12]
  by_cases h13 : c = 103 ∨ c = 71
  · rw [if_pos h13]; rcases h13 with rfl | rfl <;> exact ⟨⟨rfl, rfl, rfl, rfl, rfl⟩, 0, rfl, rfl, (by simp), (by simp)⟩
  rw [if_neg h13]
  rcases hnone with hin | ⟨g1, g2⟩
  · simp only [not_or] at h1 h2 h3 h4 h5 h6 h7 h8 h9 h10 h11 h12 h13
    simp [*] at hin
  have : rowOf nstats (c :: mods) = none := by
    unfold rowOf
    simp only
    rw [if_neg (fun hc => g1 hc.1), List.find?_eq_none.mpr]
    · rfl
    · intro r hr
      have hm : r.1.toNat ∈ (grammar nstats).map (fun r => r.1.toNat) := List.mem_map_of_mem hr
      have := List.all_eq_true.mp g2 r.1.toNat hm
      simpa using this
  rw [this]
  trivial

/-- The rules of the grammar in order: known letter, number of arguments, modifiers, sub-commands. -/
def verdict (nstats : Nat) (v0 : Tok) (argc nsubc : Nat) : Except PErr CmdOp :=
  match rowOf nstats v0 with
  | none => .error .cmdUnkn
  | some (r, mods) =>
    if ¬ (r.min ≤ argc ∧ argc ≤ r.max) then .error .nargs
    else if r.mods = false ∧ mods ≠ [] then .error .mods
    else if r.subc = false ∧ nsubc ≠ 0 then .error .subc
    else .ok r.op

/-! ### Properties -/

/-- **C16**: admission follows the grammar, for every first argument (a non-empty field without NUL, see C15), number of arguments, of
sub-commands and of counters; the error is that of the first rule violated. -/
theorem C16_admission (v0 : Tok) (argc nsubc nstats : Nat) (hne : v0 ≠ []) (h0 : (0 : UInt8) ∉ v0) :
    (preParse v0 argc nsubc nstats).map Admitted.op = verdict nstats v0 argc nsubc := by
  cases v0 with
  | nil => exact absurd rfl hne
  | cons c mods =>
    have h := props_row nstats c mods
    unfold preParse verdict
    cases hp : fillProps (c :: mods) nstats with
    | none =>
      rw [hp] at h
      cases hr : rowOf nstats (c :: mods) with
      | none => rfl
      | some r => rw [hr] at h; exact absurd h (by simp)
    | some p =>
      rw [hp] at h
      cases hr : rowOf nstats (c :: mods) with
      | none => rw [hr] at h; exact absurd h (by simp)
      | some rm =>
        obtain ⟨r, m⟩ := rm
        rw [hr] at h
        obtain ⟨⟨a1, a2, a3, a4, a5⟩, k, hk, hm, -, -⟩ := h
        simp only
        have hmod : chr (c :: mods) p.skip ≠ 0 ↔ m ≠ [] := by
          have hn : (0 : UInt8) ∉ m := by
            rw [hm]; intro hc; exact h0 (List.mem_cons_of_mem _ (List.mem_of_mem_drop hc))
          rw [← chr_zero_iff hn, hm, hk]
          simp [chr]
        rw [a2, a3, a4, a5]
        by_cases c1 : argc < r.min ∨ argc > r.max
        · have n1 : ¬ (r.min ≤ argc ∧ argc ≤ r.max) := by omega
          rw [if_pos c1, if_pos n1]; rfl
        · have n1 : ¬ ¬ (r.min ≤ argc ∧ argc ≤ r.max) := by omega
          rw [if_neg c1, if_neg n1]
          by_cases c2 : r.mods = false ∧ m ≠ []
          · have n2 : r.mods = false ∧ chr (c :: mods) p.skip ≠ 0 := ⟨c2.1, hmod.mpr c2.2⟩
            rw [if_pos n2, if_pos c2]; rfl
          · have n2 : ¬ (r.mods = false ∧ chr (c :: mods) p.skip ≠ 0) := fun hc => c2 ⟨hc.1, hmod.mp hc.2⟩
            rw [if_neg n2, if_neg c2]
            by_cases c3 : r.subc = false ∧ nsubc ≠ 0
            · have n3 : r.subc = false ∧ nsubc > 0 := ⟨c3.1, by omega⟩
              rw [if_pos n3, if_pos c3]; rfl
            · have n3 : ¬ (r.subc = false ∧ nsubc > 0) := fun hc => c3 ⟨hc.1, by omega⟩
              rw [if_neg n3, if_neg c3]
              simp [Except.map, a1]

theorem ite_some_mem {α : Type} {c : Prop} [Decidable c] {x q : α} {e : Option α} {l : List α}
    (h : (if c then some x else e) = some q) (he : e = some q → q ∈ l) : q ∈ x :: l := by
  split at h
  · cases h; simp
  · exact List.mem_cons_of_mem _ (he h)

/-- The possible properties of a command. -/
theorem fillProps_mem {v0 : Tok} {nstats : Nat} {q : CmdProps} (h : fillProps v0 nstats = some q) :
    q ∈ ([{ op := .update, maxArgc := 8, minArgc := 5, hasCmods := true, fpos := 4, tpos := 5, hasSubc := true },
      { op := .lookup, maxArgc := 6, minArgc := 5, hasCmods := true, fpos := 4, tpos := 5, hasSubc := true },
      { op := .delete, maxArgc := 4, minArgc := 3, hasCmods := true, fpos := 2, tpos := 3 },
      { op := .play, maxArgc := 6, minArgc := 5, hasCmods := true, fpos := 4, tpos := 5 },
      { op := .record, maxArgc := 4, minArgc := 3, hasCmods := true, fpos := 2, tpos := 3 },
      { op := .copy, maxArgc := 5, minArgc := 4, hasCmods := true, fpos := 3, tpos := 4 },
      { op := .noplay, maxArgc := 4, minArgc := 3, hasCmods := false, fpos := 2, tpos := 3 },
      { op := .norecord, maxArgc := 4, minArgc := 3, hasCmods := true, fpos := 2, tpos := 3 },
      { op := .verFeature, maxArgc := 2, minArgc := 2, hasCmods := false, hasCallId := false, noGlock := true, skip := 2 },
      { op := .getVer, maxArgc := 1, minArgc := 1, hasCmods := false, hasCallId := false, noGlock := true },
      { op := .info, maxArgc := 1, minArgc := 1, hasCmods := true, hasCallId := false },
      { op := .query, maxArgc := 4 + queryNstats, minArgc := 3, hasCmods := true, fpos := 2, tpos := 3, hasSubc := true },
      { op := .deleteAll, maxArgc := 1, minArgc := 1, hasCmods := false, hasCallId := false },
      { op := .getStats, maxArgc := nstats + 1, minArgc := 1, hasCmods := true, hasCallId := false, noGlock := true }] : List CmdProps) := by
  unfold fillProps at h
  refine ite_some_mem h fun h => ite_some_mem h fun h => ite_some_mem h fun h => ite_some_mem h fun h =>
    ite_some_mem h fun h => ite_some_mem h fun h => ite_some_mem h fun h => ite_some_mem h fun h => ?_
  split at h
  · refine ite_some_mem h fun h => ?_
    cases h; simp
  · refine List.mem_cons_of_mem _ (List.mem_cons_of_mem _ ?_)
    refine ite_some_mem h fun h => ite_some_mem h fun h => ite_some_mem h fun h => ite_some_mem h fun h => ?_
    cases h

/-- **C16**: every argument that the handlers evaluate was given; an omitted to-tag is not among them, but refers to an
element of the argument array (24 elements), which holds no string. -/
theorem C16_arguments_present (v0 : Tok) (argc nsubc nstats : Nat) (a : Admitted)
    (h : preParse v0 argc nsubc nstats = .ok a) :
    (∀ i ∈ uses a argc, i < argc) ∧ (∀ i ∈ a.toTag, i ≤ argc ∧ i < 24) := by
  unfold preParse at h
  split at h
  · cases h
  · rename_i p hp
    split at h
    · cases h
    rename_i hargc
    split at h
    · cases h
    split at h
    · cases h
    cases h
    have hm := fillProps_mem hp
    have h5 : ∀ n, 5 ≤ n → n ≤ 8 → n = 5 ∨ n = 6 ∨ n = 7 ∨ n = 8 := by omega
    have hr : ∀ k i, i ∈ (List.range argc).drop k → i < argc := fun k i hi => by
      simpa using List.mem_of_mem_drop hi
    fin_cases hm
    · rcases h5 argc (by simp at hargc; omega) (by simp at hargc; omega) with rfl | rfl | rfl | rfl <;> decide
    · rcases h5 argc (by simp at hargc; omega) (by simp at hargc; omega) with rfl | rfl | rfl | rfl <;> decide
    · simp [uses] at hargc ⊢; omega
    · simp [uses] at hargc ⊢; omega
    · simp [uses] at hargc ⊢; omega
    · simp [uses] at hargc ⊢; omega
    · simp [uses] at hargc ⊢; omega
    · simp [uses] at hargc ⊢; omega
    · simp [uses] at hargc ⊢; omega
    · simp [uses] at hargc ⊢; omega
    · simp [uses] at hargc ⊢; omega
    · simp [queryNstats] at hargc
      refine ⟨?_, by simp; omega⟩
      intro i hi
      simp [uses] at hi
      rcases hi with rfl | rfl | rfl | hi
      · omega
      · omega
      · omega
      · exact hr _ _ hi
    · simp [uses] at hargc ⊢; omega
    · simp at hargc
      refine ⟨?_, by simp⟩
      intro i hi
      simp [uses] at hi
      rcases hi with rfl | hi
      · omega
      · exact hr 1 i (by simpa using hi)

/-- The roles of the optional arguments of U and L: the tag of the other party is the sixth field if six or eight are given, the
notification pair are the last two of seven or eight. -/
theorem C16_optional_arguments (v0 : Tok) (argc nsubc nstats : Nat) (a : Admitted)
    (h : preParse v0 argc nsubc nstats = .ok a) (hop : a.op = .update ∨ a.op = .lookup) :
    ∃ t n, ulPreParse a.op argc = some (t, n) ∧
      (t = some 5 ↔ argc = 6 ∨ argc = 8) ∧ (t = none ↔ argc = 5 ∨ argc = 7) ∧
      (n = none ↔ argc ≤ 6) ∧ ∀ x ∈ n, x = (argc - 2, argc - 1) := by
  unfold preParse at h
  split at h
  · cases h
  · rename_i p hp
    split at h
    · cases h
    rename_i hargc
    split at h
    · cases h
    split at h
    · cases h
    cases h
    simp only at hop ⊢
    have key : (p.op = .update ∧ 5 ≤ argc ∧ argc ≤ 8) ∨ (p.op = .lookup ∧ 5 ≤ argc ∧ argc ≤ 6) := by
      have hm := fillProps_mem hp
      fin_cases hm <;> simp at hop hargc ⊢ <;> omega
    rcases key with ⟨h1, h2, h3⟩ | ⟨h1, h2, h3⟩
    · rw [h1]
      rcases (by omega : argc = 5 ∨ argc = 6 ∨ argc = 7 ∨ argc = 8) with rfl | rfl | rfl | rfl
      · exact ⟨none, none, rfl, by decide⟩
      · exact ⟨some 5, none, rfl, by decide⟩
      · exact ⟨none, some (5, 6), rfl, by decide⟩
      · exact ⟨some 5, some (6, 7), rfl, by decide⟩
    · rw [h1]
      rcases (by omega : argc = 5 ∨ argc = 6) with rfl | rfl
      · exact ⟨none, none, rfl, by decide⟩
      · exact ⟨some 5, none, rfl, by decide⟩

/-- The statement that every command of the grammar is accepted is false: the server has 29 counters, but a `G` naming 23 of them
is refused by the splitter. -/
theorem C16_stats_limit_counterexample :
    ∃ msg rest mbuf : List UInt8, ∃ toks : List Tok, msg.length + 1 + rest.length = 8192 ∧ mbuf.length = 8192 ∧
      Fields msg toks ∧ toks.length = 24 ∧ amp ∉ toks ∧ (∀ t ∈ toks, (0 : UInt8) ∉ t) ∧
      verdict 29 (toks.headD []) toks.length 0 = .ok .getStats ∧
      split false (fun _ => .fresh) (msg ++ 0 :: rest) mbuf msg.length = .ok .synerr := by
  have hF : ∀ n : Nat, Fields ((List.replicate n [32, 103]).flatten) (List.replicate n [103]) := by
    intro n
    induction n with
    | zero => exact .nil (by simp)
    | succ n ih =>
      rw [List.replicate_succ, List.replicate_succ, List.flatten_cons]
      refine Fields.cons (bs := [32]) (f := [103]) (by decide) (by simp) (by decide) ?_ ih
      cases n with
      | zero => simp
      | succ n => rw [List.replicate_succ]; simp; decide
  refine ⟨(List.replicate 24 [32, 103]).flatten, List.replicate 8143 0, List.replicate 8192 0, List.replicate 24 [103], ?_, ?_, hF 24, ?_, ?_, ?_, ?_, ?_⟩
  · rw [List.length_replicate]; rfl
  · rw [List.length_replicate]
  · rw [List.length_replicate]
  · decide
  · decide
  · rfl
  · obtain ⟨fs, h1, h2⟩ := split_loop false (fun _ => .fresh) ((List.replicate 24 [32, 103]).flatten) (List.replicate 8143 0) (List.replicate 8192 0)
      (by rw [List.length_replicate]; rfl) (by rw [List.length_replicate]; rfl)
    rw [h2, h1.unique, ← (hF 24).unique]
    rfl

/-- `Uc1 …` with eight arguments and a sub-command is accepted, `S1` is not. -/
example : (match preParse [85, 99, 49] 8 1 29, preParse [83, 49] 3 0 29 with
    | .ok a, .error e => decide (a = ⟨.update, some 1, some 4, some 5⟩ ∧ e = .mods)
    | _, _ => false) = true := by decide +kernel

end Verif.Cmd
