import Verif.Query.Lemmas

/-! # C77: the command `Q` shows what happened to the session -/

namespace Verif.Query

open Verif.Stats (label spaced Good spaced_snoc)
open Verif.Cmd (Rep appendf)

variable {J : Type}

theorem Roomy.good {b : Rep} (h : Roomy b) : Good (Cmd.sent b) [] b := by
  obtain ⟨h1, h2, h3, h4⟩ := h
  refine ⟨h1, h3, ?_, by omega, ?_⟩
  · unfold Cmd.sent; rw [List.length_take, h1]; omega
  · unfold Cmd.sent Cmd.used; rw [h2, List.append_nil]

theorem Roomy.length {b : Rep} (h : Roomy b) : (Cmd.sent b).length ≤ 1000 := by
  obtain ⟨h1, h2, h3, h4⟩ := h
  unfold Cmd.sent; rw [List.length_take]; omega

theorem Good.line {pre bd b} (hg : Good pre bd b) (subc : List Cmd.SubRes) : Line (pre ++ bd) subc (Cmd.queryTail b subc) := by
  intro hl
  have hz := hg.size
  have hu := hg.ul
  exact Cmd.C19_query_reply_partial b (pre ++ bd) subc hg.len (by rw [hg.cl]; omega) hg.txt (by omega) hl

theorem sane_mods {mods : List UInt8} (h : ∀ c ∈ mods, c = 118 ∨ c = 86) :
    ¬ mods.all (fun c => c == 118 || c == 86) = false := by
  rw [Bool.not_eq_false, List.all_eq_true]
  intro c hc
  simpa using h c hc

/-- Anything but `v` after the letter is refused. -/
theorem C77_modifier (v : Nat → St J) (fm : Fmt J) (idx : Bool) (b : Rep) (hb : Roomy b) (mods : List UInt8) (args : List (List UInt8))
    (subc : List Cmd.SubRes) (c : UInt8) (hc : c ∈ mods) (hv : c ≠ 118 ∧ c ≠ 86) :
    query v fm idx b mods args subc = .ok (Cmd.sent b ++ [69, 49, 57, 10]) := by
  unfold query
  rw [if_pos]
  · exact hb.good.error hb.length 19 (by decide)
  · rw [List.all_eq_false]
    exact ⟨c, hc, by simpa using hv⟩

/-- The answer to a query for names: the values of the counters asked for, in order, labelled by their names if `v` was
given.  Each value is that of a moment while the command was carried out; but for the timers, a name asked for again gets
the same answer.  Otherwise an error: 26 if the values do not fit into a reply, 62 if one of the names is unknown.  Partial:
the counts of the analysis are right if none of its packets is analysed meanwhile, the longest gap if time does not go back
and is not zero, and the reply ends as it should if it does not take up all of the buffer. -/
theorem C77_reply_partial (fl : Analyze.Fl J) (fm : Fmt J) (ttl0 : Bool → Int) (h : List Ev) (at_ : Nat → Nat) (v : Nat → St J)
    (hs : Sched fl ttl0 h at_ v) (idx : Bool) (b : Rep) (hb : Roomy b) (mods : List UInt8) (hm : ∀ c ∈ mods, c = 118 ∨ c = 86)
    (args : List (List UInt8)) (ha : args ≠ []) (subc : List Cmd.SubRes) :
    (∃ ds, ds.map Prod.fst = args ∧ Texts fl fm ttl0 idx h at_ ds ∧
      (Cmd.sent b ++ body (!mods.isEmpty) ds).length ≤ 1023 ∧
      Line (Cmd.sent b ++ body (!mods.isEmpty) ds) subc (query v fm idx b mods args subc)) ∨
    (query v fm idx b mods args subc = .ok (Cmd.sent b ++ [69, 50, 54, 10]) ∧
      ∃ ds, Texts fl fm ttl0 idx h at_ ds ∧
        (ds.map Prod.fst <+: args ∧ 1024 ≤ (Cmd.sent b ++ body (!mods.isEmpty) ds).length ∨
         ∃ n, ds.map Prod.fst ++ [n] <+: args ∧ 1024 ≤ (Cmd.sent b ++ body (!mods.isEmpty) (ds ++ [(n, [])])).length)) ∨
    (query v fm idx b mods args subc = .ok (Cmd.sent b ++ [69, 54, 50, 10]) ∧ ∃ n ∈ args, n ∉ table.map Prod.fst) := by
  unfold query
  rw [if_neg (sane_mods hm), if_neg ha]
  have hn := names_spec v fm idx (!mods.isEmpty) (Cmd.sent b) args [] b ⟨none, none, none, none⟩ 0 hb.good
    ⟨nofun, nofun, nofun, nofun⟩ (fun _ hx => absurd hx (by simp))
  simp only [List.isEmpty_nil, Bool.not_true, List.map_nil, List.nil_append] at hn
  rcases hn with ⟨b', c', ds, h1, h2, h3, h4, h5⟩ | ⟨b', bd, h1, h2, c', ds, h3, h4, h5⟩ | ⟨b', bd, h1, h2, h3⟩
  · rw [h1]
    have := h2.size
    have := h2.ul
    exact .inl ⟨ds, h5, h4.texts hs h3, by rw [List.length_append]; omega, Good.line h2 subc⟩
  · rw [h1]
    refine .inr (.inl ⟨h2.error hb.length 26 (by decide), ds, h4.texts hs h3, ?_⟩)
    simpa only [List.length_append] using h5
  · rw [h1]
    exact .inr (.inr ⟨h2.error hb.length 62 (by decide), h3⟩)

/-- The answer to a query without names: the timer, the packets received by the stream and by the other one, the packets
relayed and dropped, each at a moment while the command was carried out.  Partial: if the values do not fit into a reply,
the reply has nothing in their place. -/
theorem C77_simple_partial (fl : Analyze.Fl J) (fm : Fmt J) (ttl0 : Bool → Int) (h : List Ev) (at_ : Nat → Nat) (v : Nat → St J)
    (hs : Sched fl ttl0 h at_ v) (idx : Bool) (b : Rep) (hb : Roomy b) (mods : List UInt8) (hm : ∀ c ∈ mods, c = 118 ∨ c = 86)
    (subc : List Cmd.SubRes) :
    ∃ ds, ds.map Prod.fst = basic ∧ Texts fl fm ttl0 idx h at_ ds ∧
      ((Cmd.sent b ++ body (!mods.isEmpty) ds).length ≤ 1023 →
        Line (Cmd.sent b ++ body (!mods.isEmpty) ds) subc (query v fm idx b mods [] subc)) ∧
      (1024 ≤ (Cmd.sent b ++ body (!mods.isEmpty) ds).length → Line (Cmd.sent b) subc (query v fm idx b mods [] subc)) := by
  let c : Pull J := ⟨none, none, some ((v 2).relayed, (v 3).dropped), some ((v 4).pc idx, (v 5).pc (!idx))⟩
  let ds : List (List UInt8 × List UInt8) := [(str "ttl", Cmd.fmtD (getTtl v 0)), (str "npkts_ina", Dec.dec ((v 4).pc idx).n),
    (str "npkts_ino", Dec.dec ((v 5).pc (!idx)).n), (str "nrelayed", Dec.dec (v 2).relayed), (str "ndropped", Dec.dec (v 3).dropped)]
  have hc : CI v idx c := ⟨nofun, nofun, fun r e => ⟨2, by cases e; rfl⟩, fun r e => ⟨4, by cases e; rfl⟩⟩
  have hk : Known v fm c ds := by
    intro x hx
    simp only [ds, List.mem_cons, List.not_mem_nil, or_false] at hx
    rcases hx with rfl | rfl | rfl | rfl | rfl
    · exact ⟨.ttl, (by show (str "ttl", _) ∈ table; decide +kernel), 0, rfl⟩
    · exact ⟨.ina, (by show (str "npkts_ina", _) ∈ table; decide +kernel), _, rfl, rfl⟩
    · exact ⟨.ino, (by show (str "npkts_ino", _) ∈ table; decide +kernel), _, rfl, rfl⟩
    · exact ⟨.rel, (by show (str "nrelayed", _) ∈ table; decide +kernel), _, rfl, rfl⟩
    · exact ⟨.drp, (by show (str "ndropped", _) ∈ table; decide +kernel), _, rfl, rfl⟩
  have he : simple v idx (!mods.isEmpty) = body (!mods.isEmpty) ds := by
    have e1 : str "ttl=" = str "ttl" ++ [61] := by decide +kernel
    have e2 : str " npkts_ina=" = 32 :: (str "npkts_ina" ++ [61]) := by decide +kernel
    have e3 : str " npkts_ino=" = 32 :: (str "npkts_ino" ++ [61]) := by decide +kernel
    have e4 : str " nrelayed=" = 32 :: (str "nrelayed" ++ [61]) := by decide +kernel
    have e5 : str " ndropped=" = 32 :: (str "ndropped" ++ [61]) := by decide +kernel
    unfold simple body
    cases mods.isEmpty <;> simp [ds, spaced, label, e1, e2, e3, e4, e5]
  refine ⟨ds, rfl, hk.texts hs hc, ?_⟩
  unfold query
  rw [if_neg (sane_mods hm), if_pos rfl, he]
  by_cases hf : (Cmd.sent b).length + ([] : List UInt8).length + (body (!mods.isEmpty) ds).length < 1024
  · obtain ⟨b1, h1, h2⟩ := hb.good.fits hf
    rw [h1]
    simp only [List.length_append]
    refine ⟨fun _ => ?_, fun h => ?_⟩
    · simpa using Good.line h2 subc
    · simp only [List.length_nil] at hf; omega
  · obtain ⟨b1, h1, h2⟩ := hb.good.spills (s := body (!mods.isEmpty) ds) (by omega)
    rw [h1]
    simp only [List.length_append]
    refine ⟨fun h => ?_, fun _ => ?_⟩
    · simp only [List.length_nil] at hf; omega
    · simpa using Good.line h2 subc

end Verif.Query
