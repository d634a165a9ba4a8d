import Verif.Sinfo.World

/-!
# C29: the poll tables

Partial: when there is no memory the statement is false (`C29_lost_counterexample`, `C29_twice_counterexample` in `Cases.lean`).
-/

namespace Verif.Sinfo

/-- From a state, by steps that keep to the rules; none of them satisfies `bad`. -/
inductive Path (bad : Op → Prop) : World → World → Prop where
  | refl (w) : Path bad w w
  | step {w w1 w2} (o : Op) : ¬ bad o → Ok w o → Sinfo.step w o = .ok w1 → Path bad w1 w2 → Path bad w w2

/-- Nothing is written outside a table or a log, and no assertion fails, in any order of events. -/
theorem C29_safe_partial {w : World} (h : Reach w) (o : Op) (ok : Ok w o) : ∃ w', step w o = .ok w' := by
  obtain ⟨w', a, _⟩ := step_inv (reach_inv h) o ok
  exact ⟨w', a⟩

theorem exact_of {p : Pipe} (h : PInv p) (s : p.Settled) : Exact p := by
  obtain ⟨s1, s2⟩ := s
  have e1 : p.taken = [] := by unfold Pipe.taken; rw [s1]
  have e2 : p.logged = [] := by unfold Pipe.logged; rw [s2]; rfl
  obtain ⟨t, ho, _, hof⟩ := h.out
  rw [e1, e2] at ho
  injection ho with ho
  refine ⟨?_, h.uniq, ?_, h.ep.1⟩
  · intro u x
    rw [fdOf_iff h.fdu, ho]
    exact hof _
  · intro x
    rw [h.ep.2, List.mem_map]
    constructor
    · rintro ⟨⟨u, y⟩, hy, rfl⟩; exact ⟨u, hy⟩
    · rintro ⟨u, hu⟩; exact ⟨_, hu, rfl⟩

/-- Whenever nothing is pending, the poll table of RTP, and of RTCP, has exactly the streams with a socket, each once, with the socket it has,
and the kernel watches exactly these. -/
theorem C29_settled_partial {w : World} (h : Reach w) : (w.rtp.Settled → Exact w.rtp) ∧ (w.rtcp.Settled → Exact w.rtcp) :=
  ⟨exact_of (reach_inv h).1, exact_of (reach_inv h).2⟩

/-- Between two synchronisations, too, no stream is in the table twice, and the kernel watches exactly what is in the table. -/
theorem C29_aligned_partial {w : World} (h : Reach w) :
    (∀ p ∈ [w.rtp, w.rtcp], (p.table.map (·.1)).Nodup ∧ p.ep.Nodup ∧ ∀ s, s ∈ p.ep ↔ ∃ u, (u, s) ∈ p.table) := by
  have key : ∀ p, PInv p → (p.table.map (·.1)).Nodup ∧ p.ep.Nodup ∧ ∀ s, s ∈ p.ep ↔ ∃ u, (u, s) ∈ p.table := by
    intro p hp
    refine ⟨hp.uniq, hp.ep.1, fun s => ?_⟩
    rw [hp.ep.2, List.mem_map]
    constructor
    · rintro ⟨⟨u, y⟩, hy, rfl⟩; exact ⟨u, hy⟩
    · rintro ⟨u, hu⟩; exact ⟨_, hu, rfl⟩
  intro p hp
  simp only [List.mem_cons, List.not_mem_nil, or_false] at hp
  rcases hp with rfl | rfl
  · exact key _ (reach_inv h).1
  · exact key _ (reach_inv h).2

theorem path_rtp {bad : Op → Prop} {w w' : World} (hb : ∀ m, bad (.beginRtp m)) (h : WInv w) (pa : Path bad w w') :
    WInv w' ∧ changes w'.rtp.table w'.rtp.taken = changes w.rtp.table w.rtp.taken := by
  induction pa with
  | refl => exact ⟨h, rfl⟩
  | step o n ok e _ ih =>
    obtain ⟨w2, a, b⟩ := step_inv h o ok
    have e' := e
    rw [a] at e'
    cases e'
    obtain ⟨i1, i2⟩ := ih b
    refine ⟨i1, i2.trans (step_rtp h o ok e ?_)⟩
    intro m hm; subst hm; exact n (hb m)

theorem path_rtcp {bad : Op → Prop} {w w' : World} (hb : ∀ m, bad (.beginRtcp m)) (h : WInv w) (pa : Path bad w w') :
    WInv w' ∧ changes w'.rtcp.table w'.rtcp.taken = changes w.rtcp.table w.rtcp.taken := by
  induction pa with
  | refl => exact ⟨h, rfl⟩
  | step o n ok e _ ih =>
    obtain ⟨w2, a, b⟩ := step_inv h o ok
    have e' := e
    rw [a] at e'
    cases e'
    obtain ⟨i1, i2⟩ := ih b
    refine ⟨i1, i2.trans (step_rtcp h o ok e ?_)⟩
    intro m hm; subst hm; exact n (hb m)

theorem sync_exact {p q : Pipe} (h : PInv p) (hb : p.busy = none) (hq : PInv q) (b : q.busy = none)
    (e : changes q.table q.taken = changes (begin p true).table (begin p true).taken) :
    (q.table.map (·.1)).Nodup ∧ ∀ u s, (u, s) ∈ q.table ↔ fdOf p u = some s := by
  obtain ⟨_, _, c⟩ := begin_inv h
  obtain ⟨c1, c2, _⟩ := c hb
  have t0 : q.taken = [] := by unfold Pipe.taken; rw [b]
  have t1 : p.taken = [] := by unfold Pipe.taken; rw [hb]
  obtain ⟨t, ho, _, hof⟩ := h.out
  rw [t1] at ho
  rw [t0, c1, c2] at e
  have e' : some q.table = some t := e.trans ho
  injection e' with e'
  refine ⟨hq.uniq, fun u s => ?_⟩
  rw [e', fdOf_iff h.fdu]
  exact hof _

/-- A synchronisation makes the table what the streams are at the moment the log is taken, whatever else is done until it is over. -/
theorem C29_sync_partial {w w' : World} (h : Reach w) :
    (w.rtp.busy = none → Path (fun o => ∃ m, o = .beginRtp m) { w with rtp := begin w.rtp true } w' → w'.rtp.busy = none →
      (w'.rtp.table.map (·.1)).Nodup ∧ ∀ u s, (u, s) ∈ w'.rtp.table ↔ fdOf w.rtp u = some s) ∧
    (w.rtcp.busy = none → Path (fun o => ∃ m, o = .beginRtcp m) { w with rtcp := begin w.rtcp true } w' → w'.rtcp.busy = none →
      (w'.rtcp.table.map (·.1)).Nodup ∧ ∀ u s, (u, s) ∈ w'.rtcp.table ↔ fdOf w.rtcp u = some s) := by
  obtain ⟨h0, h1⟩ := reach_inv h
  constructor
  · intro hb pa b
    obtain ⟨i1, i2⟩ := path_rtp (fun m => ⟨m, rfl⟩) (w := { w with rtp := begin w.rtp true }) ⟨(begin_inv h0).1, h1⟩ pa
    exact sync_exact h0 hb i1.1 b i2
  · intro hb pa b
    obtain ⟨i1, i2⟩ := path_rtcp (fun m => ⟨m, rfl⟩) (w := { w with rtcp := begin w.rtcp true }) ⟨h0, (begin_inv h1).1⟩ pa
    exact sync_exact h1 hb i1.2 b i2

/-- One time around the loop. -/
theorem turn_busy {p p' : Pipe} (h : PInv p) (e : turn p = .ok p') {i n : Nat} (b : p.busy = some (i, n)) :
    p'.busy = if i + 1 < n then some (i + 1, n) else none := by
  obtain ⟨b1, _, _⟩ := h.bz i n b
  unfold turn at e
  rw [b] at e
  simp only at e
  rw [if_pos b1] at e
  split at e
  · cases e
  · split at e
    · cases e
    · cases e; rfl

theorem ends_rtp {w : World} (hw : WInv w) {i n : Nat} (b : w.rtp.busy = some (i, n)) :
    ∃ w', run w (List.replicate (n - i) .turnRtp) = .ok w' ∧ w'.rtp.busy = none := by
  induction hk : n - i generalizing w i with
  | zero => have := (hw.1.bz i n b).1; omega
  | succ k ih =>
    obtain ⟨p, a, c, _⟩ := turn_inv hw.1
    have hb := turn_busy hw.1 a b
    rw [List.replicate_succ, run]
    simp only [step]
    rw [a]
    simp only
    by_cases hi : i + 1 < n
    · rw [if_pos hi] at hb
      exact ih (w := { w with rtp := p }) (i := i + 1) ⟨c, hw.2⟩ hb (by omega)
    · rw [if_neg hi] at hb
      have : k = 0 := by omega
      subst this
      exact ⟨_, rfl, hb⟩

theorem ends_rtcp {w : World} (hw : WInv w) {i n : Nat} (b : w.rtcp.busy = some (i, n)) :
    ∃ w', run w (List.replicate (n - i) .turnRtcp) = .ok w' ∧ w'.rtcp.busy = none := by
  induction hk : n - i generalizing w i with
  | zero => have := (hw.2.bz i n b).1; omega
  | succ k ih =>
    obtain ⟨p, a, c, _⟩ := turn_inv hw.2
    have hb := turn_busy hw.2 a b
    rw [List.replicate_succ, run]
    simp only [step]
    rw [a]
    simp only
    by_cases hi : i + 1 < n
    · rw [if_pos hi] at hb
      exact ih (w := { w with rtcp := p }) (i := i + 1) ⟨hw.1, c⟩ hb (by omega)
    · rw [if_neg hi] at hb
      have : k = 0 := by omega
      subst this
      exact ⟨_, rfl, hb⟩

/-- The turns of a synchronisation end: there is one for each entry taken. -/
theorem C29_ends_partial {w : World} (h : Reach w) {i n : Nat} :
    (w.rtp.busy = some (i, n) → ∃ w', run w (List.replicate (n - i) .turnRtp) = .ok w' ∧ w'.rtp.busy = none) ∧
    (w.rtcp.busy = some (i, n) → ∃ w', run w (List.replicate (n - i) .turnRtcp) = .ok w' ∧ w'.rtcp.busy = none) :=
  ⟨ends_rtp (reach_inv h), ends_rtcp (reach_inv h)⟩

theorem fdOf_set {p q : Pipe} {u s : Nat} (h : q.fds = (p.fds.filter fun x => x.1 != u) ++ [(u, s)]) (hp : (p.fds.map (·.1)).Nodup) (v : Nat) :
    fdOf q v = if v = u then some s else fdOf p v := by
  have hq : (q.fds.map (·.1)).Nodup := by rw [h]; exact set_keys u s hp
  apply Option.ext
  intro x
  rw [fdOf_iff hq, h, List.mem_append, List.mem_filter, List.mem_singleton]
  by_cases e : v = u
  · subst e
    rw [if_pos rfl]
    simp [eq_comm]
  · rw [if_neg e, fdOf_iff hp]
    simp [e]

theorem fdOf_filter {p q : Pipe} {u : Nat} (h : q.fds = p.fds.filter fun x => x.1 != u) (hp : (p.fds.map (·.1)).Nodup) (v : Nat) :
    fdOf q v = if v = u then none else fdOf p v := by
  have hq : (q.fds.map (·.1)).Nodup := by rw [h]; exact filter_keys u hp
  apply Option.ext
  intro x
  rw [fdOf_iff hq, h, List.mem_filter]
  by_cases e : v = u
  · subst e
    rw [if_pos rfl]
    simp
  · rw [if_neg e, fdOf_iff hp]
    simp [e]

/-- The socket a stream has is the one it was given last: `append` and `update` give both streams of a side their new sockets, or, if there is no
memory, change nothing; `remove` takes them away; nothing else changes a socket. -/
theorem C29_streams_partial {w w' : World} (h : Reach w) (o : Op) (ok : Ok w o) (e : step w o = .ok w') :
    match o with
    | .append u s0 s1 m0 m1 | .update u s0 s1 m0 m1 =>
      ((∀ v, fdOf w'.rtp v = if v = u then some s0 else fdOf w.rtp v) ∧ (∀ v, fdOf w'.rtcp v = if v = u then some s1 else fdOf w.rtcp v)) ∨
      ((m0 = false ∨ m1 = false) ∧ (∀ v, fdOf w'.rtp v = fdOf w.rtp v) ∧ (∀ v, fdOf w'.rtcp v = fdOf w.rtcp v))
    | .remove u _ _ =>
      (∀ v, fdOf w'.rtp v = if v = u then none else fdOf w.rtp v) ∧ (∀ v, fdOf w'.rtcp v = if v = u then none else fdOf w.rtcp v)
    | _ => (∀ v, fdOf w'.rtp v = fdOf w.rtp v) ∧ (∀ v, fdOf w'.rtcp v = fdOf w.rtcp v) := by
  have hw := reach_inv h
  have both : ∀ {u s0 s1 : Nat} {m0 m1 : Bool}, Fds w w' u s0 s1 →
      (m0 = true → m1 = true → w'.rtp.fds = (w.rtp.fds.filter fun x => x.1 != u) ++ [(u, s0)] ∧ w'.rtcp.fds = (w.rtcp.fds.filter fun x => x.1 != u) ++ [(u, s1)]) →
      ((∀ v, fdOf w'.rtp v = if v = u then some s0 else fdOf w.rtp v) ∧ (∀ v, fdOf w'.rtcp v = if v = u then some s1 else fdOf w.rtcp v)) ∨
      ((m0 = false ∨ m1 = false) ∧ (∀ v, fdOf w'.rtp v = fdOf w.rtp v) ∧ (∀ v, fdOf w'.rtcp v = fdOf w.rtcp v)) := by
    intro u s0 s1 m0 m1 hf ht
    by_cases hm : m0 = true ∧ m1 = true
    · obtain ⟨e0, e1⟩ := ht hm.1 hm.2
      exact Or.inl ⟨fdOf_set e0 hw.1.fdu, fdOf_set e1 hw.2.fdu⟩
    · cases hf with
      | same a b =>
        refine Or.inr ⟨?_, fdOf_congr a, fdOf_congr b⟩
        cases m0 with
        | false => exact Or.inl rfl
        | true => cases m1 with
          | false => exact Or.inr rfl
          | true => exact absurd ⟨rfl, rfl⟩ hm
      | set a b => exact Or.inl ⟨fdOf_set a hw.1.fdu, fdOf_set b hw.2.fdu⟩
  cases o with
  | append u s0 s1 m0 m1 =>
    obtain ⟨w1, a, _, _, _, f1, f2⟩ := append_inv hw m0 m1 ok
    simp only [step] at e; rw [a] at e; cases e
    exact both f1 f2
  | update u s0 s1 m0 m1 =>
    obtain ⟨w1, a, _, _, _, f1, f2⟩ := update_inv hw m0 m1 ok
    simp only [step] at e; rw [a] at e; cases e
    exact both f1 f2
  | remove u m0 m1 =>
    obtain ⟨e0, e1⟩ := ok
    subst e0; subst e1
    obtain ⟨w1, a, _, _, _, f1, f2⟩ := remove_inv hw u
    simp only [step] at e; rw [a] at e; cases e
    exact ⟨fdOf_filter f1 hw.1.fdu, fdOf_filter f2 hw.2.fdu⟩
  | beginRtp m =>
    have hm : m = true := ok
    subst hm
    simp only [step] at e; cases e
    exact ⟨fdOf_congr (begin_inv hw.1).2.1, fun _ => rfl⟩
  | beginRtcp m =>
    have hm : m = true := ok
    subst hm
    simp only [step] at e; cases e
    exact ⟨fun _ => rfl, fdOf_congr (begin_inv hw.2).2.1⟩
  | turnRtp =>
    obtain ⟨p, a, _, _, _, c, _⟩ := turn_inv hw.1
    simp only [step] at e; rw [a] at e; cases e
    exact ⟨fdOf_congr c, fun _ => rfl⟩
  | turnRtcp =>
    obtain ⟨p, a, _, _, _, c, _⟩ := turn_inv hw.2
    simp only [step] at e; rw [a] at e; cases e
    exact ⟨fun _ => rfl, fdOf_congr c⟩

/-- The references to a socket are exactly those of the streams, of what is pending and of the table: a socket is closed when the last of them is
given up, and not while the kernel still watches it. -/
theorem C29_references_partial {w : World} (h : Reach w) :
    (∀ s, w.rtp.refs s = w.rtp.held s ∧ (s ∈ w.rtp.ep → 0 < w.rtp.refs s)) ∧
    (∀ s, w.rtcp.refs s = w.rtcp.held s ∧ (s ∈ w.rtcp.ep → 0 < w.rtcp.refs s)) := by
  have key : ∀ p, PInv p → ∀ s, p.refs s = p.held s ∧ (s ∈ p.ep → 0 < p.refs s) := by
    intro p hp s
    refine ⟨hp.refs s, fun hs => ?_⟩
    rw [hp.refs s]
    have := List.count_pos_iff.2 ((hp.ep.2 s).1 hs)
    unfold Pipe.held
    omega
  exact ⟨key _ (reach_inv h).1, key _ (reach_inv h).2⟩

end Verif.Sinfo
