import Verif.Acct.RowLemmas

/-! # C72: the rows of the accounting file -/

namespace Verif.Acct

theorem names_count : (split 44 headLine).length = 54 := by decide +kernel

/-- A row is one line, as many values as there are names. -/
theorem C72_line_partial {r : Rec} (h : r.Plain) : ∃ w, row r = .ok (w ++ [10]) ∧ 10 ∉ w ∧
    (split 44 w).length = (split 44 headLine).length :=
  ⟨_, row_eq r, cells_line h, by rw [split_cells h, names_count]; rfl⟩

/-- No name is there twice. -/
theorem C72_names : (split 44 headLine).Nodup := by decide +kernel

/-- The names, in the order of the specification. -/
def specNames : List String :=
  ["rec_ver", "rtpp_node_id", "rtpp_pid", "sess_uid", "call_id", "from_tag", "setup_ts", "teardown_ts",
   "rtp_nrelayed", "rtp_ndropped", "rtcp_nrelayed", "rtcp_ndropped"] ++ sideNames "_ino" "_o" ++ sideNames "_ina" "_a"
where
  sideNames (i o : String) : List String :=
    ["first_rtp_ts" ++ i, "last_rtp_ts" ++ i, "rtp_npkts" ++ i, "rtcp_npkts" ++ i,
     "rtpp_rtp_rmt_ip" ++ o, "rtpp_rtp_rmt_pt" ++ o, "rtpp_rtcp_rmt_ip" ++ o, "rtpp_rtcp_rmt_pt" ++ o,
     "rtpp_hld_sts" ++ o, "rtpp_hld_cnt" ++ o, "rtpa_nsent" ++ i, "rtpa_nrcvd" ++ i, "rtpa_ndups" ++ i,
     "rtpa_nlost" ++ i, "rtpa_perrs" ++ i, "rtpa_ssrc_last" ++ i, "rtpa_ssrc_cnt" ++ i, "rtpa_pt_last" ++ i,
     "rtpa_jitter_last" ++ i, "rtpa_jitter_max" ++ i, "rtpa_jitter_avg" ++ i]

theorem spec_names (r : Rec) : r.all.map Prod.fst = specNames := rfl

/-- Where they are in the file. -/
def places : List Nat :=
  [0, 1, 2, 3, 4, 5, 6, 7, 14, 15, 18, 19,
   8, 9, 13, 17, 42, 43, 46, 47, 50, 52, 20, 21, 22, 23, 24, 25, 26, 27, 36, 37, 38,
   10, 11, 12, 16, 44, 45, 48, 49, 51, 53, 28, 29, 30, 31, 32, 33, 34, 35, 39, 40, 41]

theorem spec_places : specNames.map (fun n => (split 44 headLine).idxOf? (bytes n)) = places.map some := by
  decide +kernel

theorem spec_fields {r : Rec} (hu : r.seuid < 2 ^ 63) :
    r.all.map (fun p => some p.2) = places.map (fun i => (fields r)[i]?) := by
  have e1 : ∀ o : Option (List UInt8), o.getD [] = esIfNull o := fun o => by cases o <;> rfl
  have e2 : Dec.dec r.seuid = Dec.decI (toI64 r.seuid) := by
    have h1 : toI64 r.seuid = (r.seuid : Int) := if_pos hu
    rw [h1, Dec.decI, if_neg (by omega)]; rfl
  have e3 : ∀ n : Nat, (if n = 0 then ([102] : List UInt8) else [116]) = fmtBool n := by
    intro n; unfold fmtBool; split <;> decide +kernel
  have e4 : ∀ s, ssrcText s = formatSsrc s := fun s => by cases s <;> rfl
  have e5 : ([49, 46, 50] : List UInt8) = bytes "1.2" := by decide +kernel
  simp only [Rec.all, Rec.values, Face.values, e1, e2, e3, e4, e5]
  rfl

/-- Under each name stands what it stands for. -/
theorem C72_values_partial {r : Rec} (h : r.Plain) (hu : r.seuid < 2 ^ 63) {w : List UInt8} (hw : row r = .ok (w ++ [10])) :
    ∀ p ∈ r.all, value headLine w p.1 = some p.2 := by
  have hw' : w = join (cells r) := by
    rw [row_eq] at hw
    injection hw with hw
    exact (List.append_cancel_right hw).symm
  intro p hp
  obtain ⟨k, hk, rfl⟩ := List.mem_iff_getElem.mp hp
  have h1 := congrArg (fun l => l[k]?) (spec_names r)
  have h2 := congrArg (fun l => l[k]?) spec_places
  have h3 := congrArg (fun l => l[k]?) (spec_fields hu)
  simp only [List.getElem?_map, List.getElem?_eq_getElem hk, Option.map_some] at h1 h3
  rw [List.getElem?_map, ← h1] at h2
  rw [List.getElem?_map] at h2
  cases hq : places[k]? with
  | none => rw [hq] at h3; cases h3
  | some i =>
    rw [hq] at h2 h3
    simp only [Option.map_some, Option.some.injEq] at h2 h3
    rw [value, h2, hw', split_cells h, Option.bind_some, ← h3]

/-- All names are accounted for. -/
theorem C72_all (r : Rec) : ∀ n ∈ split 44 headLine, n ∈ r.all.map fun p => bytes p.1 := by
  have h : ∀ n ∈ split 44 headLine, n ∈ specNames.map bytes := by decide +kernel
  intro n hn
  have := h n hn
  rwa [← spec_names r, List.map_map] at this

/-- The value of a digit. -/
def unhexDigit (c : UInt8) : Nat := if c.toNat < 58 then c.toNat - 48 else c.toNat - 55

/-- The number that a text is in base 16. -/
def unhex (w : List UInt8) : Nat := w.foldl (fun n c => 16 * n + unhexDigit c) 0

/-- **C72.** The text for an SSRC is `0x` and eight digits that are the SSRC in base 16. -/
theorem C72_ssrc {v : Nat} (h : v < 2 ^ 32) : ∃ w, ssrcText (some v) = 48 :: 120 :: w ∧ w.length = 8 ∧ unhex w = v ∧
    ∀ c ∈ w, (48 ≤ c.toNat ∧ c.toNat ≤ 57) ∨ (65 ≤ c.toNat ∧ c.toNat ≤ 70) := by
  have hd : ∀ n < 16, unhexDigit (hexDigit n) = n ∧ ((48 ≤ (hexDigit n).toNat ∧ (hexDigit n).toNat ≤ 57) ∨
      (65 ≤ (hexDigit n).toNat ∧ (hexDigit n).toNat ≤ 70)) := by decide
  refine ⟨[28, 24, 20, 16, 12, 8, 4, 0].map fun (k : Nat) => hexDigit (v / 2 ^ k % 16), rfl, rfl, ?_, ?_⟩
  · simp only [unhex, List.map_cons, List.map_nil, List.foldl_cons, List.foldl_nil, (hd _ (Nat.mod_lt _ (by decide))).1]
    omega
  · intro c hc
    obtain ⟨k, _, rfl⟩ := List.mem_map.mp hc
    exact (hd _ (Nat.mod_lt _ (by decide))).2

end Verif.Acct
