import Verif.Conns.Sweep

/-!
# The table as a list of connections
-/

namespace Verif.Conns

theorem Holds.split {t : Tbl} {w : Nat} {cs : List Conn} (h : Holds t w cs) :
    ∃ (p0 : Pfd) (ps rest : List Pfd) (r0 : Option Conn) (crest : List (Option Conn)),
      t.pfds = p0 :: (ps ++ rest) ∧ p0.fd = w ∧ ps.map (·.fd) = cs.map (·.fdIn) ∧ t.rccs = r0 :: (cs.map some ++ crest) := by
  obtain ⟨p0, hp0, hw⟩ := h.wake
  cases hpf : t.pfds with
  | nil => rw [hpf] at hp0; simp at hp0
  | cons p pt =>
    rw [hpf] at hp0
    simp only [List.getElem?_cons_zero, Option.some.injEq] at hp0
    subst hp0
    cases hrc : t.rccs with
    | nil => have := h.size; rw [hrc] at this; simp at this
    | cons r rt =>
      refine ⟨p, pt.take cs.length, pt.drop cs.length, r, rt.drop cs.length, by simp, hw, ?_, ?_⟩
      · apply List.ext_getElem?
        intro k
        by_cases hk : k < cs.length
        · obtain ⟨q, hq, hf⟩ := h.polled k hk
          rw [hpf, List.getElem?_cons_succ] at hq
          rw [List.getElem?_map, List.getElem?_take_of_lt hk, hq, List.getElem?_map, List.getElem?_eq_getElem hk]
          simp [hf]
        · rw [List.getElem?_eq_none (by simp; omega), List.getElem?_eq_none (by simp; omega)]
      · congr 1
        rw [← List.take_append_drop cs.length rt]
        congr 1
        · apply List.ext_getElem?
          intro k
          by_cases hk : k < cs.length
          · have hq := h.records k hk
            rw [hrc, List.getElem?_cons_succ] at hq
            rw [List.getElem?_take_of_lt hk, hq, List.getElem?_map, List.getElem?_eq_getElem hk]
            rfl
          · rw [List.getElem?_eq_none (by simp; omega), List.getElem?_eq_none (by simp; omega)]
        · simp

theorem Holds.join {t : Tbl} {w : Nat} {cs : List Conn} {p0 : Pfd} {ps rest : List Pfd} {r0 : Option Conn} {crest : List (Option Conn)}
    (hp : t.pfds = p0 :: (ps ++ rest)) (hw : p0.fd = w) (hm : ps.map (·.fd) = cs.map (·.fdIn)) (hr : t.rccs = r0 :: (cs.map some ++ crest))
    (hu : t.used = cs.length + 1) (hs : t.rccs.length = 101) : Holds t w cs := by
  have hl : ps.length = cs.length := by simpa using congrArg List.length hm
  refine ⟨hu, ⟨p0, by rw [hp]; rfl, hw⟩, ?_, ?_, hs⟩
  · intro k hk
    refine ⟨ps[k], ?_, ?_⟩
    · rw [hp, List.getElem?_cons_succ, List.getElem?_append_left (by omega), List.getElem?_eq_getElem (by omega)]
    · have := congrArg (fun l => l[k]?) hm
      simp only [List.getElem?_map, List.getElem?_eq_getElem hk, List.getElem?_eq_getElem (show k < ps.length by omega), Option.map_some,
        Option.some.injEq] at this
      exact this
  · intro k hk
    rw [hr, List.getElem?_cons_succ, List.getElem?_append_left (by simpa using hk), List.getElem?_map, List.getElem?_eq_getElem hk]
    rfl

theorem Holds.bound {t : Tbl} {w : Nat} {cs : List Conn} (h : Holds t w cs) : cs.length ≤ 100 := by
  obtain ⟨_, _, _, _, crest, _, _, _, hr⟩ := h.split
  have := h.size
  rw [hr] at this
  simp at this
  omega

/-- The pairs which a turn looks at. -/
def pairs (revs : Nat → Rev) (cs : List Conn) : List (Pfd × Conn) := (answered revs cs).map fun a => (⟨a.2.fdIn, a.1⟩, a.2)

theorem pairs_snd (revs : Nat → Rev) (cs : List Conn) : (pairs revs cs).map (·.2) = cs := by
  apply List.ext_getElem?
  intro k
  simp only [pairs, answered, List.getElem?_map, List.getElem?_mapIdx]
  cases cs[k]? <;> rfl

theorem pairs_length (revs : Nat → Rev) (cs : List Conn) : (pairs revs cs).length = cs.length := by simp [pairs, answered]

theorem fill_split (revs : Nat → Rev) (p0 : Pfd) (ps rest : List Pfd) (cs : List Conn) (hm : ps.map (·.fd) = cs.map (·.fdIn)) :
    fill revs (cs.length + 1) (p0 :: (ps ++ rest)) = ⟨p0.fd, revs 0⟩ :: ((pairs revs cs).map (·.1) ++ rest) := by
  have hl : ps.length = cs.length := by simpa using congrArg List.length hm
  apply List.ext_getElem?
  intro k
  simp only [fill, List.getElem?_mapIdx]
  cases k with
  | zero => simp
  | succ k =>
    simp only [List.getElem?_cons_succ]
    by_cases hk : k < cs.length
    · rw [List.getElem?_append_left (by omega), List.getElem?_append_left (by rw [List.length_map, pairs_length]; omega),
        List.getElem?_eq_getElem (show k < ps.length by omega)]
      simp only [pairs, answered, List.getElem?_map, List.getElem?_mapIdx, List.getElem?_eq_getElem hk, Option.map_some, Option.some.injEq]
      have := congrArg (fun l => l[k]?) hm
      simp only [List.getElem?_map, List.getElem?_eq_getElem hk, List.getElem?_eq_getElem (show k < ps.length by omega), Option.map_some,
        Option.some.injEq] at this
      rw [if_pos (by omega), this]
    · rw [List.getElem?_append_right (by omega), List.getElem?_append_right (by rw [List.length_map, pairs_length]; omega), List.length_map,
        pairs_length, hl]
      cases rest[k - cs.length]? with
      | none => rfl
      | some p => simp; omega

theorem hangup_iff (r : Rev) (c : Conn) : hangup r c.sock.kind = decide (Over r c) := by
  rw [Bool.eq_iff_iff, decide_eq_true_iff]
  obtain ⟨i, b⟩ := r
  obtain ⟨_, _, _, ⟨k, _, _, _⟩⟩ := c
  cases k <;> cases i <;> cases b <;> simp [hangup, Over, Kind.acceptable]

theorem recycle_iff (k : Kind) (res : Int) :
    recycle k res = true ↔ (k ∉ [Kind.udp4, .udp6] ∧ (res = -1 ∨ k = .ifsun)) := by
  cases k <;> simp [recycle, Kind.isDg, Kind.isStream]

theorem look_stays (out : Nat → Int) (p : Pfd) (c : Conn) : (look out p c).2 = !decide (Ends p.rev c (out c.id)) := by
  unfold look
  rw [hangup_iff]
  by_cases ho : Over p.rev c
  · simp [ho, Ends]
  · cases hi : p.rev.inp with
    | false => simp [ho, Ends, Served, hi]
    | true =>
      by_cases hr : recycle c.sock.kind (out c.id) = true
      · have := (recycle_iff _ _).1 hr
        simp only [ho, decide_false, Bool.false_eq_true, if_false, Bool.not_true, hr, if_true]
        simp [Ends, Served, ho, hi, this.1, this.2]
      · have := mt (recycle_iff _ _).2 hr
        simp only [ho, decide_false, Bool.false_eq_true, if_false, Bool.not_true, hr]
        have : ¬ Ends p.rev c (out c.id) := by
          rintro (h | ⟨_, h⟩)
          · exact ho h
          · exact this h
        simp [this]

end Verif.Conns
