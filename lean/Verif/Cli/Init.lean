import Verif.Cli.Loop

/-! Lemmas about `init_config` as a whole. -/

namespace Verif.Cli

theorem getLastD_some_getD {α : Type} (l : List α) (d : α) : (l.map some).getLastD (some d) = some (l.getLastD d) := by
  induction l generalizing d with
  | nil => rfl
  | cons b l ih => simp only [List.map_cons, List.getLastD_cons]; exact ih b

theorem getLastD_some {α : Type} (l : List α) : (l.map some).getLastD none = l.getLast? := by
  cases l with
  | nil => rfl
  | cons a l =>
    rw [List.map_cons, List.getLastD_cons, getLastD_some_getD, List.getLast?_cons, List.getLastD_eq_getLast?]

theorem normalise_spec {a b : Int} : (Port.normalise a b = if evenUp a ≤ evenDown b then some (evenUp a, evenDown b) else none) ∨ a < 0 ∨ b < 0 := by
  by_cases ha : a < 0
  · exact .inr (.inl ha)
  by_cases hb : b < 0
  · exact .inr (.inr hb)
  left
  have e1 : a.tmod 2 = a % 2 := Int.tmod_eq_emod_of_nonneg (by omega)
  have e2 : b.tmod 2 = b % 2 := Int.tmod_eq_emod_of_nonneg (by omega)
  have h1 : (if a.tmod 2 ≠ 0 then a + 1 else a) = evenUp a := by unfold evenUp; rw [e1]; split <;> omega
  have h2 : (if b.tmod 2 ≠ 0 then b - 1 else b - 2) = evenDown b := by unfold evenDown; rw [e2]; split <;> omega
  simp only [Port.normalise, h1, h2]
  by_cases h : evenUp a ≤ evenDown b
  · rw [if_neg (by omega), if_pos h]
  · rw [if_pos (by omega), if_neg h]

/-- The settings after the loop. -/
abbrev read (l : List Opt) (r : Start.Creds) : Cfg := result cfg0 l r

theorem default_eq : num0 = default := by funext k; cases k <;> rfl

theorem read_num (l : List Opt) (r : Start.Creds) (k : Num) : (read l r).num k = number l k := by
  simp only [read, result, number, cfg0, default_eq]

theorem getLastD_mem {α : Type} (l : List α) (d : α) : l.getLastD d = d ∧ l = [] ∨ l.getLastD d ∈ l := by
  induction l generalizing d with
  | nil => exact .inl ⟨rfl, rfl⟩
  | cons a l ih =>
    right
    rw [List.getLastD_cons]
    rcases ih a with ⟨h, -⟩ | h
    · rw [h]; simp
    · exact List.mem_cons_of_mem _ h

theorem mem_nums {k : Num} {l : List Opt} {s : Bytes} : s ∈ nums k l ↔ Opt.num k s ∈ l := by
  unfold nums
  rw [List.mem_filterMap]
  constructor
  · rintro ⟨o, ho, h⟩
    cases o <;> simp at h
    obtain ⟨rfl, rfl⟩ := h
    exact ho
  · intro h; exact ⟨_, h, by simp⟩

theorem number_ok {y : Sys} {l : List Opt} (hf : ∀ o ∈ l, Fine y o) (k : Num) : number l k = default k ∧ nums k l = [] ∨ Allowed k (number l k) := by
  unfold number
  rcases getLastD_mem ((nums k l).map val) (default k) with ⟨h, h'⟩ | h
  · exact .inl ⟨h, by simpa using h'⟩
  · obtain ⟨s, hs, e⟩ := List.mem_map.mp h
    rw [← e]
    exact .inr (hf _ (mem_nums.mp hs)).2

theorem number_pos {y : Sys} {l : List Opt} (hf : ∀ o ∈ l, Fine y o) : 0 ≤ number l .pmin ∧ 0 ≤ number l .pmax := by
  constructor
  · rcases number_ok hf .pmin with ⟨h, -⟩ | h
    · rw [h]; decide
    · have := h.1; omega
  · rcases number_ok hf .pmax with ⟨h, -⟩ | h
    · rw [h]; decide
    · have := h.1; omega

theorem setup_zero {y : Sys} {l : List Opt} (hf : ∀ o ∈ l, Fine y o) : number l .setup = 0 ↔ nums .setup l = [] := by
  rcases number_ok hf .setup with ⟨h, h'⟩ | h
  · exact ⟨fun _ => h', fun _ => h⟩
  · constructor
    · intro e; rw [e] at h; simp [Allowed] at h
    · intro e; simp [number, e, default]

theorem names_ne {k : Nm} {l : List Opt} : (names k l).getLast?.isSome = true ↔ names k l ≠ [] := by
  cases h : names k l with
  | nil => simp
  | cons a t => simp [List.getLast?_cons]

theorem pid_eq : pidFile = bytes "/var/run/rtpproxy.pid" := by decide
theorem sock_eq : cmdSock = bytes "/var/run/rtpproxy.sock" := by decide

theorem read_name (l : List Opt) (r : Start.Creds) (k : Nm) (h : k ≠ .pid) : (read l r).name k = (names k l).getLast? := by
  simp only [read, result, cfg0, if_neg h]; exact getLastD_some _

/-- The settings in the end. -/
def final (c : Cfg) (bmode : Bool) : Cfg :=
  let d := setNum (setNum (fill c) .pmin (evenUp (c.num .pmin))) .pmax (evenDown (c.num .pmax))
  if bmode && !c.on .brsym then setFlag d .aforce else d

theorem init_spec (y : Sys) (l : List Opt) (e : Nat) (c : Cfg) :
    init y l e = .ok c ↔ ∃ r bmode, Taken y l e r ∧ y.bind (decide (Opt.flag .noresolve ∈ l)) (listens l) (advertised l) = some bmode ∧
      c = final (read l r) bmode := by
  have hadv : ∀ r, (read l r).adv = advertised l := fun r => by
    simp only [read, result, cfg0, advertised]
    rw [getLastD_some, ← getLastD_some ((advs l).map (before 47)), List.map_map]
    rfl
  have hon : ∀ r k, (read l r).on k = decide (Opt.flag k ∈ l) := fun r k => by simp [read, result, cfg0]
  have hbargs : ∀ r, (read l r).bargs = listens l := fun r => by simp [read, result, cfg0]
  have hst : ∀ r, (read l r).stdio = true ↔ ∃ s ∈ socks l, (Ctl.parse false s).kind = .stdio := fun r => by
    simp [read, result, cfg0]
  have hum : ∀ r, (read l r).umode = true ↔ ∃ s ∈ socks l, (Ctl.parse false s).kind = .udp4 ∨ (Ctl.parse false s).kind = .udp6 := fun r => by
    simp [read, result, cfg0, Start.isDg]
  have hcheck : ∀ r, (∀ o ∈ l, Fine y o) → (check y (read l r) e = .ok c ↔
      e = 0 ∧ (∀ f, (names .config l).getLast? = some f → y.file f = true) ∧ (names .sdir l ≠ [] → names .rdir l ≠ []) ∧
      ((∃ s ∈ socks l, (Ctl.parse false s).kind = .stdio) → Opt.flag .nodaemon ∈ l) ∧
      (y.root = true → r.uname = false → (∃ s ∈ socks l, (Ctl.parse false s).kind = .udp4 ∨ (Ctl.parse false s).kind = .udp6) →
        Opt.flag .nocheck ∈ l) ∧ evenUp (number l .pmin) ≤ evenDown (number l .pmax) ∧
      ∃ bmode, y.bind (decide (Opt.flag .noresolve ∈ l)) (listens l) (advertised l) = some bmode ∧ c = final (read l r) bmode) := by
    intro r hf
    have hnorm : Port.normalise ((fill (read l r)).num .pmin) ((fill (read l r)).num .pmax) =
        if evenUp (number l .pmin) ≤ evenDown (number l .pmax) then some (evenUp (number l .pmin), evenDown (number l .pmax)) else none := by
      have e1 : (fill (read l r)).num .pmin = number l .pmin := by simp [fill, read_num]
      have e2 : (fill (read l r)).num .pmax = number l .pmax := by simp [fill, read_num]
      rw [e1, e2]
      have := number_pos hf
      rcases normalise_spec (a := number l .pmin) (b := number l .pmax) with h | h | h
      · exact h
      · omega
      · omega
    have hrest : rest y (fill (read l r)) = .ok c ↔ evenUp (number l .pmin) ≤ evenDown (number l .pmax) ∧
        ∃ bmode, y.bind (decide (Opt.flag .noresolve ∈ l)) (listens l) (advertised l) = some bmode ∧ c = final (read l r) bmode := by
      simp only [rest, hnorm]
      have e1 : (fill (read l r)).on = (read l r).on := rfl
      have e2 : (fill (read l r)).bargs = (read l r).bargs := rfl
      have e3 : (fill (read l r)).adv = (read l r).adv := rfl
      rw [e1, e2, e3, hon r .noresolve, hbargs, hadv]
      by_cases h : evenUp (number l .pmin) ≤ evenDown (number l .pmax)
      · simp only [h, true_and]
        cases hbd : y.bind (decide (Opt.flag .noresolve ∈ l)) (listens l) (advertised l) with
        | none => simp
        | some b =>
          simp only [Option.some.injEq, exists_eq_left', Res.ok.injEq, final, read_num, if_true]
          exact eq_comm
      · simp [h]
    have e4 : (fill (read l r)).name = (read l r).name := rfl
    have e5 : (fill (read l r)).creds.uname = r.uname := rfl
    have e6 : (fill (read l r)).on = (read l r).on := rfl
    have e7 : (fill (read l r)).stdio = (read l r).stdio := rfl
    have e8 : (fill (read l r)).umode = (read l r).umode := rfl
    simp only [check, e4, e5, e6, e7, e8, read_name l r _ (show Nm.config ≠ .pid by decide), read_name l r _ (show Nm.rdir ≠ .pid by decide),
      read_name l r _ (show Nm.sdir ≠ .pid by decide), hon]
    rw [← hst r, ← hum r]
    have hc1 : ((names .rdir l).getLast?.isNone && (names .sdir l).getLast?.isSome) = true ↔ ¬ (names .sdir l ≠ [] → names .rdir l ≠ []) := by
      rw [Bool.and_eq_true, names_ne, ← Option.not_isSome, Bool.not_eq_true', ← Bool.not_eq_true, names_ne]
      by_cases hA : names .rdir l = [] <;> by_cases hB : names .sdir l = [] <;> simp [hA, hB]
    have hc0 : (Option.any (fun f => !y.file f) (names .config l).getLast?) = true ↔
        ¬ (∀ f, (names .config l).getLast? = some f → y.file f = true) := by
      cases (names .config l).getLast? with
      | none => simp
      | some f => simp
    by_cases h0 : e = 0
    case neg => simp [h0]
    by_cases h1 : ∀ f, (names .config l).getLast? = some f → y.file f = true
    case neg => rw [if_neg (by simp [h0]), if_pos (hc0.mpr h1)]; simp [h1]
    by_cases h2 : names .sdir l ≠ [] → names .rdir l ≠ []
    case neg => rw [if_neg (by simp [h0]), if_neg (by rw [hc0]; exact fun hn => hn h1), if_pos (hc1.mpr h2)]; simp only [h2]; simp
    rw [if_neg (by simp [h0]), if_neg (by rw [hc0]; exact fun hn => hn h1), if_neg (by rw [hc1]; exact fun hn => hn h2)]
    rw [eq_true h1, eq_true h2]
    cases (read l r).stdio <;> cases (read l r).umode <;> cases y.root <;> cases r.uname <;> by_cases h3 : Opt.flag .nodaemon ∈ l <;>
      by_cases h4 : Opt.flag .nocheck ∈ l <;> simp [h0, h3, h4, hrest]
  unfold init
  constructor
  · intro h
    split at h
    · rename_i c1 h1
      obtain ⟨f, m, r, e1, rfl⟩ := (loop_spec y l cfg0 c1 (by simp [cfg0])).mp h1
      obtain ⟨a0, a1, a2, a3, a4, a5, b, a6, a7⟩ := (hcheck r f).mp h
      exact ⟨r, b, ⟨a0, f, by simpa [cfg0] using m.1, by simpa [cfg0] using m.2, e1, a1, a2, a3, a5, a4⟩, a6, a7⟩
    · cases h
  · rintro ⟨r, b, t, a6, a7⟩
    rw [(loop_spec y l cfg0 (read l r) (by simp [cfg0])).mpr ⟨t.fine, ⟨by simpa [cfg0] using t.listens, t.targets⟩, r, t.creds, rfl⟩]
    exact (hcheck r t.fine).mpr ⟨t.extra, t.file, t.spool, t.stdio, t.root, t.ports, b, a6, a7⟩

end Verif.Cli
