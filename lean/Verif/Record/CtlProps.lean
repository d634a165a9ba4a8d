import Verif.Record.Ctl

/-!
# C62: starting and stopping recordings
-/

namespace Verif.Record.Ctl

def ind (v : Option Nat) (q : Nat) : Nat := if v = some q then 1 else 0
def ind2 (f : Bool → Option Nat) (q : Nat) : Nat := ind (f false) q + ind (f true) q

/-- The number of slots that hold recorder `q`. -/
def holders (s : S) (q : Nat) : Nat := ind2 s.rtp q + ind2 s.rtcp q

/-- The number of references of recorder `q`. -/
def refsAt (l : List R) (q : Nat) : Nat := ((l[q]?).map R.refs).getD 0

theorem ind2_set (f : Bool → Option Nat) (i : Bool) (v : Option Nat) (q : Nat) :
    ind2 (set f i v) q + ind (f i) q = ind2 f q + ind v q := by
  cases i <;> simp only [ind2, set, if_true, if_false, reduceCtorEq] <;> omega

theorem ind_le (f : Bool → Option Nat) (i : Bool) (q : Nat) : ind (f i) q ≤ ind2 f q := by
  cases i <;> simp only [ind2] <;> omega

theorem ind_some (r q : Nat) : ind (some r) q = if q = r then 1 else 0 := by
  unfold ind
  simp only [Option.some.injEq, eq_comm]

theorem incref_spec {l : List R} {r : Nat} (h : 0 < refsAt l r) :
    ∃ l', incref l r = .ok l' ∧ ∀ q, refsAt l' q = refsAt l q + if q = r then 1 else 0 := by
  unfold incref
  unfold refsAt at h
  cases hx : l[r]? with
  | none => simp [hx] at h
  | some x =>
    simp only [hx, Option.map_some, Option.getD_some] at h
    have hr : r < l.length := by
      rcases Nat.lt_or_ge r l.length with hlt | hge
      · exact hlt
      · rw [List.getElem?_eq_none hge] at hx; cases hx
    refine ⟨_, by simp only; rw [if_neg (by omega)], fun q => ?_⟩
    unfold refsAt
    by_cases hq : q = r
    · subst hq; rw [List.getElem?_set_self hr, hx]; simp
    · rw [List.getElem?_set_ne (Ne.symm hq), if_neg hq, Nat.add_zero]

theorem decref_spec {l : List R} {r : Nat} (h : 0 < refsAt l r) :
    ∃ l', decref l r = .ok l' ∧ ∀ q, refsAt l' q + (if q = r then 1 else 0) = refsAt l q := by
  unfold decref
  unfold refsAt at h
  cases hx : l[r]? with
  | none => simp [hx] at h
  | some x =>
    simp only [hx, Option.map_some, Option.getD_some] at h
    have hr : r < l.length := by
      rcases Nat.lt_or_ge r l.length with hlt | hge
      · exact hlt
      · rw [List.getElem?_eq_none hge] at hx; cases hx
    refine ⟨_, by simp only; rw [if_neg (by omega)], fun q => ?_⟩
    unfold refsAt
    by_cases hq : q = r
    · subst hq; rw [List.getElem?_set_self hr, hx]; simp only [Option.map_some, Option.getD_some, if_true]; omega
    · rw [List.getElem?_set_ne (Ne.symm hq), if_neg hq, Nat.add_zero]

theorem append_spec (l : List R) (t : Target) (q : Nat) : refsAt (l ++ [⟨1, t⟩]) q = refsAt l q + if q = l.length then 1 else 0 := by
  unfold refsAt
  by_cases hq : q = l.length
  · subst hq; simp
  · rw [if_neg hq]
    rcases Nat.lt_or_ge q l.length with hlt | hge
    · rw [List.getElem?_append_left hlt, Nat.add_zero]
    · rw [List.getElem?_eq_none (by simp; omega), List.getElem?_eq_none hge, Nat.add_zero]

/-- The references are the slots; RTP and RTCP are recorded together. -/
structure Inv (rrtcp : Bool) (s : S) : Prop where
  refs : ∀ q, refsAt s.recs q = holders s q
  pair : ∀ i, if rrtcp then (s.rtcp i = none ↔ s.rtp i = none) else s.rtcp i = none

theorem held_pos {rrtcp : Bool} {s : S} (h : Inv rrtcp s) {i : Bool} {r : Nat} (hr : s.rtp i = some r) : 0 < refsAt s.recs r := by
  have h1 := h.refs r
  have h2 := ind_le s.rtp i r
  rw [hr] at h2
  simp only [ind, if_true] at h2
  unfold holders at h1
  omega

theorem inv_init (rrtcp : Bool) : Inv rrtcp .init :=
  ⟨fun q => by simp [S.init, refsAt, holders, ind2, ind], fun i => by cases rrtcp <;> simp [S.init]⟩

theorem set_same (f : Bool → Option Nat) (i : Bool) (v : Option Nat) : set f i v i = v := by simp [set]
theorem set_other (f : Bool → Option Nat) {i j : Bool} (v : Option Nat) (h : j ≠ i) : set f i v j = f j := by simp [set, h]

theorem joinRtcp_inv {rrtcp : Bool} {s : S} {i : Bool} {r : Nat} (hr : s.rtp i = some r) (hrefs : ∀ q, refsAt s.recs q = holders s q)
    (hnone : s.rtcp i = none) (hpair : ∀ j, j ≠ i → if rrtcp then (s.rtcp j = none ↔ s.rtp j = none) else s.rtcp j = none) :
    ∃ s', joinRtcp rrtcp s i r = .ok (s', true) ∧ Inv rrtcp s' ∧ s'.rtp = s.rtp ∧ (rrtcp = true → s'.rtcp i = some r) := by
  unfold joinRtcp
  rw [if_neg (by simp [hnone])]
  cases rrtcp with
  | false =>
    refine ⟨s, rfl, ⟨hrefs, fun j => ?_⟩, rfl, fun h => by cases h⟩
    by_cases hj : j = i
    · subst hj; simpa using hnone
    · exact hpair j hj
  | true =>
    have hp : 0 < refsAt s.recs r := by
      have h1 := hrefs r
      have h2 := ind_le s.rtp i r
      rw [hr] at h2
      simp only [ind, if_true] at h2
      unfold holders at h1
      omega
    obtain ⟨l, h1, h2⟩ := incref_spec hp
    simp only [if_true, h1]
    refine ⟨_, rfl, ⟨fun q => ?_, fun j => ?_⟩, rfl, fun _ => set_same _ _ _⟩
    · have e := hrefs q
      have e2 := ind2_set s.rtcp i (some r) q
      rw [hnone, ind_some] at e2
      simp only [ind, reduceCtorEq, if_false] at e2
      have e3 := h2 q
      unfold holders at e ⊢
      simp only
      omega
    · simp only [if_true]
      by_cases hj : j = i
      · subst hj; simp [set_same, hr]
      · rw [set_other _ _ hj]
        have := hpair j hj
        simpa using this

theorem copySingle_inv {rrtcp : Bool} {e : Env} {s : S} {i : Bool} (h : Inv rrtcp s) :
    ∃ s' b, copySingle rrtcp e s i = .ok (s', b) ∧ Inv rrtcp s' ∧ (b = true → s.rtp i = none ∧ ∃ r, s'.rtp i = some r ∧
      (rrtcp = true → s'.rtcp i = some r) ∧ (∀ r', s.rtp (!i) = some r' → r = r')) ∧ (b = false → s' = s) := by
  unfold copySingle
  by_cases hi : s.rtp i = none
  · rw [if_neg (by simp [hi])]
    have hci : s.rtcp i = none := by
      have := h.pair i
      cases rrtcp <;> simp_all
    have hnew : ∀ (l : List R) (r : Nat), (∀ q, refsAt l q = refsAt s.recs q + if q = r then 1 else 0) →
        (∀ q, refsAt l q = holders { s with recs := l, rtp := set s.rtp i (some r) } q) ∧
        ∀ j, j ≠ i → if rrtcp then (s.rtcp j = none ↔ set s.rtp i (some r) j = none) else s.rtcp j = none := by
      intro l r hl
      constructor
      · intro q
        have e1 := h.refs q
        have e2 := ind2_set s.rtp i (some r) q
        rw [hi, ind_some] at e2
        simp only [ind, reduceCtorEq, if_false] at e2
        have e3 := hl q
        unfold holders at e1 ⊢
        simp only
        omega
      · intro j hj
        rw [set_other _ _ hj]
        exact h.pair j
    cases ho : s.rtp (!i) with
    | some r =>
      obtain ⟨l, h1, h2⟩ := incref_spec (held_pos h ho)
      simp only [h1]
      obtain ⟨n1, n2⟩ := hnew l r h2
      obtain ⟨s', k1, k2, k3, k4⟩ := joinRtcp_inv (rrtcp := rrtcp) (s := { s with recs := l, rtp := set s.rtp i (some r) }) (i := i) (r := r)
        (set_same _ _ _) n1 hci n2
      refine ⟨s', true, k1, k2, fun _ => ⟨hi, r, by rw [k3]; exact set_same _ _ _, k4, fun r' hr' => by cases hr'; rfl⟩, fun hh => by cases hh⟩
    | none =>
      simp only
      cases e.ctor1 with
      | false => exact ⟨s, false, rfl, h, (fun hh => by cases hh), fun _ => rfl⟩
      | true =>
        simp only [Bool.not_true, Bool.false_eq_true, if_false]
        obtain ⟨n1, n2⟩ := hnew (s.recs ++ [⟨1, .single⟩]) s.recs.length (append_spec _ _)
        obtain ⟨s', k1, k2, k3, k4⟩ := joinRtcp_inv (rrtcp := rrtcp)
          (s := { s with recs := s.recs ++ [⟨1, .single⟩], rtp := set s.rtp i (some s.recs.length) }) (i := i) (r := s.recs.length)
          (set_same _ _ _) n1 hci n2
        exact ⟨s', true, k1, k2, fun _ => ⟨hi, _, by rw [k3]; exact set_same _ _ _, k4, fun r' hr' => by cases hr'⟩, fun hh => by cases hh⟩
  · rw [if_pos hi]
    exact ⟨s, false, rfl, h, (fun hh => by cases hh), fun _ => rfl⟩

/-- The second half of the other kind of recording: RTP is recorded, RTCP may still be missing. -/
theorem copyRtcp_inv {rrtcp : Bool} {e : Env} {remote : Bool} {s : S} {i : Bool} {r : Nat} (hr : s.rtp i = some r)
    (hrefs : ∀ q, refsAt s.recs q = holders s q)
    (hpair : ∀ j, j ≠ i → if rrtcp then (s.rtcp j = none ↔ s.rtp j = none) else s.rtcp j = none)
    (hrt : rrtcp = false → s.rtcp i = none) :
    ∃ s' b, copyRtcp rrtcp e remote s i = .ok (s', b) ∧ Inv rrtcp s' ∧ (b = true → s'.rtp i = some r ∧ (rrtcp = true → s'.rtcp i ≠ none)) := by
  unfold copyRtcp
  by_cases hc : s.rtcp i = none ∧ rrtcp = true
  · rw [if_pos hc]
    obtain ⟨hc, rfl⟩ := hc
    cases e.ctor2 with
    | false =>
      simp only [Bool.not_false, if_true, hr]
      have hp : 0 < refsAt s.recs r := by
        have h1 := hrefs r
        have h2 := ind_le s.rtp i r
        rw [hr] at h2
        simp only [ind, if_true] at h2
        unfold holders at h1
        omega
      obtain ⟨l, h1, h2⟩ := decref_spec hp
      simp only [h1]
      refine ⟨_, _, rfl, ⟨fun q => ?_, fun j => ?_⟩, fun hh => by cases hh⟩
      · have e1 := hrefs q
        have e2 := ind2_set s.rtp i none q
        rw [hr, ind_some] at e2
        simp only [ind, reduceCtorEq, if_false] at e2
        have e3 := h2 q
        unfold holders at e1 ⊢
        simp only
        omega
      · simp only [if_true]
        by_cases hj : j = i
        · subst hj; simp [set_same, hc]
        · rw [set_other _ _ hj]
          simpa using hpair j hj
    | true =>
      simp only [Bool.not_true, Bool.false_eq_true, if_false]
      refine ⟨_, _, rfl, ⟨fun q => ?_, fun j => ?_⟩, fun _ => ⟨hr, fun _ => by simp [set_same]⟩⟩
      · have e1 := hrefs q
        have e2 := ind2_set s.rtcp i (some s.recs.length) q
        rw [hc, ind_some] at e2
        simp only [ind, reduceCtorEq, if_false] at e2
        have e3 := append_spec s.recs (if remote then .remote true else .rtcp) q
        unfold holders at e1 ⊢
        simp only
        omega
      · simp only [if_true]
        by_cases hj : j = i
        · subst hj; simp [set_same, hr]
        · rw [set_other _ _ hj]
          simpa using hpair j hj
  · rw [if_neg hc]
    refine ⟨_, _, rfl, ⟨hrefs, fun j => ?_⟩, fun _ => ⟨hr, fun ht hn => hc ⟨hn, ht⟩⟩⟩
    by_cases hj : j = i
    · subst hj
      cases rrtcp with
      | false => simpa using hrt rfl
      | true => simp only [if_true]; simp_all
    · exact hpair j hj

theorem copy_inv {rrtcp : Bool} {e : Env} {remote single : Bool} {s : S} {i : Bool} (h : Inv rrtcp s) :
    ∃ s' b, copy rrtcp e remote single s i = .ok (s', b) ∧ Inv rrtcp s' ∧
      (b = true → s'.rtp i ≠ none ∧ (rrtcp = true → s'.rtcp i ≠ none)) := by
  unfold copy
  split
  · obtain ⟨s', b, h1, h2, h3, -⟩ := copySingle_inv (e := e) (i := i) h
    refine ⟨s', b, h1, h2, fun hb => ?_⟩
    obtain ⟨-, r, k1, k2, -⟩ := h3 hb
    exact ⟨by simp [k1], fun ht => by simp [k2 ht]⟩
  · split
    · exact ⟨s, false, rfl, h, fun hh => by cases hh⟩
    · split
      · rename_i hi
        cases e.ctor1 with
        | false => exact ⟨s, false, rfl, h, fun hh => by cases hh⟩
        | true =>
          simp only [Bool.not_true, Bool.false_eq_true, if_false]
          have hci : s.rtcp i = none := by
            have := h.pair i
            cases rrtcp <;> simp_all
          have hq1 : ∀ q, refsAt (s.recs ++ [⟨1, if remote then .remote false else .rtp⟩]) q = holders
              { s with recs := s.recs ++ [⟨1, if remote then .remote false else .rtp⟩], rtp := set s.rtp i (some s.recs.length) } q := by
            intro q
            have e1 := h.refs q
            have e2 := ind2_set s.rtp i (some s.recs.length) q
            rw [hi, ind_some] at e2
            simp only [ind, reduceCtorEq, if_false] at e2
            have e3 := append_spec s.recs (if remote then .remote false else .rtp) q
            unfold holders at e1 ⊢
            simp only
            omega
          have hq2 : ∀ j, j ≠ i → if rrtcp then (s.rtcp j = none ↔ set s.rtp i (some s.recs.length) j = none) else s.rtcp j = none := by
            intro j hj
            rw [set_other _ _ hj]
            exact h.pair j
          obtain ⟨s', b, h1, h2, h3⟩ := copyRtcp_inv (rrtcp := rrtcp) (e := e) (remote := remote)
            (s := { s with recs := s.recs ++ [⟨1, if remote then .remote false else .rtp⟩], rtp := set s.rtp i (some s.recs.length) })
            (i := i) (r := s.recs.length) (set_same _ _ _) hq1 hq2 (fun _ => hci)
          exact ⟨s', b, h1, h2, fun hb => ⟨by simp [(h3 hb).1], (h3 hb).2⟩⟩
      · rename_i hi
        obtain ⟨r, hr⟩ := Option.ne_none_iff_exists'.1 hi
        obtain ⟨s', b, h1, h2, h3⟩ := copyRtcp_inv (rrtcp := rrtcp) (e := e) (remote := remote) (i := i) hr h.refs (fun j _ => h.pair j)
          (fun hf => by have := h.pair i; rw [hf] at this; simpa using this)
        exact ⟨s', b, h1, h2, fun hb => ⟨by simp [(h3 hb).1], (h3 hb).2⟩⟩

theorem stop_inv {rrtcp : Bool} {s : S} {i : Bool} (h : Inv rrtcp s) :
    ∃ s', stop rrtcp s i = .ok (s', (s.rtp i).isSome) ∧ Inv rrtcp s' ∧ s'.rtp = set s.rtp i none ∧ s'.rtcp = set s.rtcp i none := by
  unfold stop
  have hself : ∀ f : Bool → Option Nat, f i = none → f = set f i none := by
    intro f hf; funext j; by_cases hj : j = i
    · subst hj; rw [set_same, hf]
    · rw [set_other _ _ hj]
  cases hr : s.rtp i with
  | none =>
    have hci : s.rtcp i = none := by
      have := h.pair i
      cases rrtcp <;> simp_all
    exact ⟨s, rfl, h, hself _ hr, hself _ hci⟩
  | some r =>
    simp only
    cases rrtcp with
    | false =>
      simp only [Bool.false_eq_true, if_false]
      obtain ⟨l, h1, h2⟩ := decref_spec (held_pos h hr)
      have hci : s.rtcp i = none := by simpa using h.pair i
      rw [h1]
      refine ⟨_, rfl, ⟨fun q => ?_, fun j => by simpa using h.pair j⟩, rfl, hself _ hci⟩
      have e1 := h.refs q
      have e2 := ind2_set s.rtp i none q
      rw [hr, ind_some] at e2
      simp only [ind, reduceCtorEq, if_false] at e2
      have e3 := h2 q
      unfold holders at e1 ⊢
      simp only
      omega
    | true =>
      simp only [if_true]
      have hci : s.rtcp i ≠ none := by
        have := h.pair i
        simp_all
      obtain ⟨p, hp⟩ := Option.ne_none_iff_exists'.1 hci
      simp only [hp]
      have hpp : 0 < refsAt s.recs p := by
        have h1 := h.refs p
        have h2 := ind_le s.rtcp i p
        rw [hp] at h2
        simp only [ind, if_true] at h2
        unfold holders at h1
        omega
      obtain ⟨l, h1, h2⟩ := decref_spec hpp
      simp only [h1]
      have hpr : 0 < refsAt l r := by
        have e1 := h.refs r
        have e2 := ind_le s.rtp i r
        have e3 := ind_le s.rtcp i r
        rw [hr] at e2
        rw [hp] at e3
        have e4 := h2 r
        rw [ind_some] at e2 e3
        simp only [if_true] at e2
        unfold holders at e1
        omega
      obtain ⟨l2, h3, h4⟩ := decref_spec hpr
      simp only [h3]
      refine ⟨_, rfl, ⟨fun q => ?_, fun j => ?_⟩, rfl, rfl⟩
      · have e1 := h.refs q
        have e2 := ind2_set s.rtp i none q
        have e5 := ind2_set s.rtcp i none q
        rw [hr, ind_some] at e2
        rw [hp, ind_some] at e5
        simp only [ind, reduceCtorEq, if_false] at e2 e5
        have e3 := h2 q
        have e4 := h4 q
        unfold holders at e1 ⊢
        simp only
        omega
      · simp only [if_true]
        by_cases hj : j = i
        · subst hj; simp [set_same]
        · rw [set_other _ _ hj, set_other _ _ hj]
          simpa using h.pair j

theorem run_inv {rrtcp : Bool} : ∀ (ops : List Op) (s : S), Inv rrtcp s → ∃ s', run rrtcp s ops = .ok s' ∧ Inv rrtcp s'
  | [], s, h => ⟨s, rfl, h⟩
  | o :: ops, s, h => by
    have : ∃ s1 b, step rrtcp s o = .ok (s1, b) ∧ Inv rrtcp s1 := by
      cases o with
      | copy e remote single i =>
        obtain ⟨s1, b, h1, h2, -⟩ := copy_inv (e := e) (remote := remote) (single := single) (i := i) h
        exact ⟨s1, b, h1, h2⟩
      | stop i =>
        obtain ⟨s1, h1, h2, -⟩ := stop_inv (i := i) h
        exact ⟨s1, _, h1, h2⟩
    obtain ⟨s1, b, h1, h2⟩ := this
    obtain ⟨s2, k1, k2⟩ := run_inv ops s1 h2
    exact ⟨s2, by rw [run, h1]; exact k1, k2⟩

theorem drop_spec {l : List R} {v : Option Nat} (h : ∀ r, v = some r → 0 < refsAt l r) :
    ∃ l', drop l v = .ok l' ∧ ∀ q, refsAt l' q + ind v q = refsAt l q := by
  unfold drop
  cases v with
  | none => exact ⟨l, rfl, fun q => by simp [ind]⟩
  | some r =>
    obtain ⟨l', h1, h2⟩ := decref_spec (h r rfl)
    exact ⟨l', h1, fun q => by rw [ind_some]; exact h2 q⟩

/-! ## The theorems -/

/-- Whatever is started and stopped, in any order and with any failures: no assertion fails, no recorder is used after its
end, every recorder has as many references as there are slots that hold it (so that it is closed, and its file complete,
exactly when nothing records into it any more), and RTP and RTCP are recorded together or, if so configured, RTP alone. -/
theorem C62_consistent (rrtcp : Bool) (ops : List Op) : ∃ s, run rrtcp .init ops = .ok s ∧
    (∀ q, refsAt s.recs q = holders s q) ∧ (∀ i, (s.rtcp i ≠ none) ↔ (rrtcp = true ∧ s.rtp i ≠ none)) := by
  obtain ⟨s, h1, h2⟩ := run_inv ops .init (inv_init rrtcp)
  refine ⟨s, h1, h2.refs, fun i => ?_⟩
  have := h2.pair i
  cases rrtcp
  · simp_all
  · simp only [if_true] at this
    simp [this]

/-- A start that is reported as a success leaves the direction recorded, RTCP as well if configured. -/
theorem C62_start (rrtcp : Bool) (ops : List Op) (s : S) (h : run rrtcp .init ops = .ok s) (e : Env) (remote single : Bool) (i : Bool)
    (s' : S) (hs : copy rrtcp e remote single s i = .ok (s', true)) : s'.rtp i ≠ none ∧ (rrtcp = true → s'.rtcp i ≠ none) := by
  obtain ⟨s0, h1, h2⟩ := run_inv ops .init (inv_init rrtcp)
  rw [h] at h1; cases h1
  obtain ⟨s1, b, k1, -, k3⟩ := copy_inv (e := e) (remote := remote) (single := single) (i := i) h2
  rw [hs] at k1
  cases k1
  exact k3 rfl

/-- A stop ends the recording of its direction, of RTP and RTCP, and of no other; it fails only if there is none. -/
theorem C62_stop (rrtcp : Bool) (ops : List Op) (s : S) (h : run rrtcp .init ops = .ok s) (i : Bool) :
    ∃ s', stop rrtcp s i = .ok (s', (s.rtp i).isSome) ∧ s'.rtp i = none ∧ s'.rtcp i = none ∧ s'.rtp (!i) = s.rtp (!i) ∧
      s'.rtcp (!i) = s.rtcp (!i) := by
  obtain ⟨s0, h1, h2⟩ := run_inv ops .init (inv_init rrtcp)
  rw [h] at h1; cases h1
  obtain ⟨s', k1, -, k3, k4⟩ := stop_inv (i := i) h2
  refine ⟨s', k1, by rw [k3, set_same], by rw [k4, set_same], ?_, ?_⟩
  · rw [k3, set_other _ _ (by cases i <;> simp)]
  · rw [k4, set_other _ _ (by cases i <;> simp)]

/-- At the end of the session every recorder is closed. -/
theorem C62_end (rrtcp : Bool) (ops : List Op) (s : S) (h : run rrtcp .init ops = .ok s) :
    ∃ s', destroy s = .ok s' ∧ ∀ q, refsAt s'.recs q = 0 := by
  obtain ⟨s0, h1, h2⟩ := run_inv ops .init (inv_init rrtcp)
  rw [h] at h1; cases h1
  have hr := h2.refs
  unfold holders ind2 at hr
  unfold destroy
  obtain ⟨l1, a1, b1⟩ := drop_spec (l := s.recs) (v := s.rtp false) (fun r hv => by
    have := hr r; rw [hv, ind_some, if_pos rfl] at this; omega)
  rw [a1]; simp only
  obtain ⟨l2, a2, b2⟩ := drop_spec (l := l1) (v := s.rtp true) (fun r hv => by
    have := hr r; have := b1 r; rw [hv, ind_some, if_pos rfl] at *; omega)
  rw [a2]; simp only
  obtain ⟨l3, a3, b3⟩ := drop_spec (l := l2) (v := s.rtcp false) (fun r hv => by
    have := hr r; have := b1 r; have := b2 r; rw [hv, ind_some, if_pos rfl] at *; omega)
  rw [a3]; simp only
  obtain ⟨l4, a4, b4⟩ := drop_spec (l := l3) (v := s.rtcp true) (fun r hv => by
    have := hr r; have := b1 r; have := b2 r; have := b3 r; rw [hv, ind_some, if_pos rfl] at *; omega)
  rw [a4]
  refine ⟨_, rfl, fun q => ?_⟩
  have := hr q; have := b1 q; have := b2 q; have := b3 q; have := b4 q
  simp only
  omega

/-- Recording into a single file: started for both directions, all four streams write into the same recorder. -/
theorem C62_single_shared (rrtcp : Bool) (ops : List Op) (s : S) (h : run rrtcp .init ops = .ok s) (e : Env) (i : Bool)
    (s' : S) (hs : copy rrtcp e false true s i = .ok (s', true)) (r : Nat) (hr : s.rtp (!i) = some r) :
    s'.rtp i = some r ∧ (rrtcp = true → s'.rtcp i = some r) := by
  obtain ⟨s0, h1, h2⟩ := run_inv ops .init (inv_init rrtcp)
  rw [h] at h1; cases h1
  obtain ⟨s1, b, k1, -, k3, -⟩ := copySingle_inv (e := e) (i := i) h2
  have : copy rrtcp e false true s i = copySingle rrtcp e s i := by simp [copy]
  rw [this, k1] at hs
  cases hs
  obtain ⟨-, r', q1, q2, q3⟩ := k3 rfl
  cases q3 r hr
  exact ⟨q1, q2⟩

/-- Where each stream writes. -/
def targets (s : S) : List (Option Target) :=
  [s.rtp false, s.rtp true, s.rtcp false, s.rtcp true].map fun v => v.bind fun r => (s.recs[r]?).map R.target

def yes : Env := ⟨true, true, true, true⟩

/-- Two directions started one after the other, one of them stopped, started again: one recorder throughout, closed at the end. -/
example : (match run true .init [.copy yes false true true, .copy yes false true false, .stop true, .copy yes false true true] with
    | .ok s => some (targets s, s.recs)
    | .error _ => none) = some (List.replicate 4 (some Target.single), [⟨4, .single⟩]) := by decide +kernel

/-- The request for a file may be answered by success though nothing is written to a file: if the other direction is copied
to a remote host, the recording joins that copy. -/
theorem C62_target_counterexample :
    (match run true .init [.copy yes true false false] with
      | .ok s => match copy true yes false true s true with
        | .ok (s', b) => some (b, targets s')
        | .error _ => none
      | .error _ => none) =
      some (true, [some (.remote false), some (.remote false), some (.remote true), some (.remote false)]) := by decide +kernel

/-- A request to copy to a remote host is answered by success though the stream goes on being recorded into a file only, if
it was already. -/
theorem C62_already_counterexample :
    (match run true .init [.copy yes false true false] with
      | .ok s => match copy true yes true false s false with
        | .ok (s', b) => some (b, targets s')
        | .error _ => none
      | .error _ => none) =
      some (true, [some .single, none, some .single, none]) := by decide +kernel

/-- If a packet is not being recorded while the recording is stopped, nothing goes wrong: any sequence of whole packets and
whole stops. -/
theorem C62_race_partial (l : List Bool) :
    ∃ p, prun .init (l.flatMap fun b => if b then [.load, .call] else [.decref, .clear]) = .ok p := by
  suffices h : ∀ (l : List Bool) (p : P), p.held = false → p.mid = false → (p.slot = none ∨ 0 < p.refs) →
      ∃ p', prun p (l.flatMap fun b => if b then [.load, .call] else [.decref, .clear]) = .ok p' from
    h l .init rfl rfl (.inr (by decide))
  intro l
  induction l with
  | nil => exact fun p _ _ _ => ⟨p, rfl⟩
  | cons b l ih =>
    rintro ⟨slot, refs, held, mid⟩ h1 h2 h3
    simp only at h1 h2 h3
    subst h1; subst h2
    rw [List.flatMap_cons]
    cases b with
    | true =>
      simp only [if_true, List.cons_append, List.nil_append]
      cases slot with
      | none => simp only [prun, pstep]; exact ih _ rfl rfl (.inl rfl)
      | some u =>
        have h0 : refs ≠ 0 := by
          rcases h3 with h3 | h3
          · cases h3
          · omega
        simp only [prun, pstep, Option.isSome_some, Bool.not_true, Bool.false_eq_true, if_false, h0]
        exact ih _ rfl rfl (.inr (by simp only; omega))
    | false =>
      simp only [Bool.false_eq_true, if_false, List.cons_append, List.nil_append]
      cases slot with
      | none => simp only [prun, pstep]; exact ih _ rfl rfl (.inl rfl)
      | some u =>
        have h0 : refs ≠ 0 := by
          rcases h3 with h3 | h3
          · cases h3
          · omega
        simp only [prun, pstep, Bool.false_eq_true, if_false, h0, Bool.not_true]
        exact ih _ rfl rfl (.inl rfl)

/-- At the same time the recorder can be used after its end: the packet thread fetches the pointer, the recording is stopped,
the packet is written. -/
theorem C62_race_counterexample :
    (match prun .init [.load, .decref, .clear, .call] with | .error .ub => true | _ => false) = true ∧
    (match prun .init [.decref, .load, .clear, .call] with | .error .ub => true | _ => false) = true := by decide

end Verif.Record.Ctl
