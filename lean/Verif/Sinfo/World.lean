import Verif.Sinfo.Steps

/-!
# Steps of both pipes
-/

namespace Verif.Sinfo

def WInv (w : World) : Prop := PInv w.rtp ∧ PInv w.rtcp

/-- What a step that is not of the thread of a pipe leaves as it is. -/
structure Quiet (p q : Pipe) : Prop where
  table : q.table = p.table
  taken : q.taken = p.taken
  busy : q.busy = p.busy

theorem Quiet.refl (p : Pipe) : Quiet p p := ⟨rfl, rfl, rfl⟩

theorem Quiet.trans {p q r : Pipe} (a : Quiet p q) (b : Quiet q r) : Quiet p r :=
  ⟨b.table.trans a.table, b.taken.trans a.taken, b.busy.trans a.busy⟩

theorem Kept.quiet {p q : Pipe} (h : Kept p q) : Quiet p q := ⟨h.table, h.taken, h.busy⟩

theorem fdOf_congr {p q : Pipe} (h : q.fds = p.fds) (u : Nat) : fdOf q u = fdOf p u := by unfold fdOf; rw [h]

/-- What `append` and `update` do to the sockets. -/
inductive Fds (w w' : World) (u s0 s1 : Nat) : Prop where
  | same : w'.rtp.fds = w.rtp.fds → w'.rtcp.fds = w.rtcp.fds → Fds w w' u s0 s1
  | set : w'.rtp.fds = (w.rtp.fds.filter fun x => x.1 != u) ++ [(u, s0)] → w'.rtcp.fds = (w.rtcp.fds.filter fun x => x.1 != u) ++ [(u, s1)] →
      Fds w w' u s0 s1

theorem room_true (p : Pipe) : ∃ q, room true p = some q := by
  unfold room
  split
  · exact ⟨_, rfl⟩
  · exact ⟨_, rfl⟩

theorem append_inv {w : World} (h : WInv w) {u s0 s1 : Nat} (m0 m1 : Bool) (ok : Ok w (.append u s0 s1 m0 m1)) :
    ∃ w', append w u s0 s1 m0 m1 = .ok w' ∧ WInv w' ∧ Quiet w.rtp w'.rtp ∧ Quiet w.rtcp w'.rtcp ∧ Fds w w' u s0 s1 ∧
      (m0 = true → m1 = true → w'.rtp.fds = (w.rtp.fds.filter fun x => x.1 != u) ++ [(u, s0)] ∧ w'.rtcp.fds = (w.rtcp.fds.filter fun x => x.1 != u) ++ [(u, s1)]) := by
  obtain ⟨o1, o2, o3, o4⟩ := ok
  unfold append
  cases r0 : room m0 w.rtp with
  | none =>
    refine ⟨w, rfl, h, Quiet.refl _, Quiet.refl _, .same rfl rfl, ?_⟩
    intro e _; subst e
    obtain ⟨q, hq⟩ := room_true w.rtp
    rw [hq] at r0; cases r0
  | some p0 =>
    obtain ⟨a1, a2, a3, a4, a5, a6, a7, a8⟩ := room_inv h.1 r0
    simp only
    cases r1 : room m1 w.rtcp with
    | none =>
      refine ⟨_, rfl, ⟨a1, h.2⟩, ⟨a5, a6, a8⟩, Quiet.refl _, .same a3 rfl, ?_⟩
      intro _ e; subst e
      obtain ⟨q, hq⟩ := room_true w.rtcp
      rw [hq] at r1; cases r1
    | some p1 =>
      obtain ⟨b1, b2, b3, b4, b5, b6, b7, b8⟩ := room_inv h.2 r1
      have n0 : fdOf p0 u = none := by rw [fdOf_congr a3]; exact o1
      have n1 : fdOf p1 u = none := by rw [fdOf_congr b3]; exact o2
      obtain ⟨q0, c1, c2, c3⟩ := pappend_inv a1 a2 (u := u) (s := s0) n0 (by rw [a4]; exact o3)
      obtain ⟨q1, d1, d2, d3⟩ := pappend_inv b1 b2 (u := u) (s := s1) n1 (by rw [b4]; exact o4)
      simp only
      rw [c1, d1]
      have e0 : q0.fds = (w.rtp.fds.filter fun x => x.1 != u) ++ [(u, s0)] := by
        rw [c3, a3, filter_none ((fdOf_none u).1 o1)]
      have e1 : q1.fds = (w.rtcp.fds.filter fun x => x.1 != u) ++ [(u, s1)] := by
        rw [d3, b3, filter_none ((fdOf_none u).1 o2)]
      exact ⟨_, rfl, ⟨c2.inv, d2.inv⟩, Quiet.trans ⟨a5, a6, a8⟩ c2.quiet, Quiet.trans ⟨b5, b6, b8⟩ d2.quiet, .set e0 e1, fun _ _ => ⟨e0, e1⟩⟩

theorem update_inv {w : World} (h : WInv w) {u s0 s1 : Nat} (m0 m1 : Bool) (ok : Ok w (.update u s0 s1 m0 m1)) :
    ∃ w', update w u s0 s1 m0 m1 = .ok w' ∧ WInv w' ∧ Quiet w.rtp w'.rtp ∧ Quiet w.rtcp w'.rtcp ∧ Fds w w' u s0 s1 ∧
      (m0 = true → m1 = true → w'.rtp.fds = (w.rtp.fds.filter fun x => x.1 != u) ++ [(u, s0)] ∧ w'.rtcp.fds = (w.rtcp.fds.filter fun x => x.1 != u) ++ [(u, s1)]) := by
  obtain ⟨o3, o4⟩ := ok
  unfold update
  cases r0 : room m0 w.rtp with
  | none =>
    refine ⟨w, rfl, h, Quiet.refl _, Quiet.refl _, .same rfl rfl, ?_⟩
    intro e _; subst e
    obtain ⟨q, hq⟩ := room_true w.rtp
    rw [hq] at r0; cases r0
  | some p0 =>
    obtain ⟨a1, a2, a3, a4, a5, a6, a7, a8⟩ := room_inv h.1 r0
    simp only
    cases r1 : room m1 w.rtcp with
    | none =>
      refine ⟨_, rfl, ⟨a1, h.2⟩, ⟨a5, a6, a8⟩, Quiet.refl _, .same a3 rfl, ?_⟩
      intro _ e; subst e
      obtain ⟨q, hq⟩ := room_true w.rtcp
      rw [hq] at r1; cases r1
    | some p1 =>
      obtain ⟨b1, b2, b3, b4, b5, b6, b7, b8⟩ := room_inv h.2 r1
      obtain ⟨q0, c1, c2, c3⟩ := pupdate_inv a1 a2 (u := u) (s := s0) (by rw [a4]; exact o3)
      obtain ⟨q1, d1, d2, d3⟩ := pupdate_inv b1 b2 (u := u) (s := s1) (by rw [b4]; exact o4)
      simp only
      rw [c1, d1]
      rw [a3] at c3
      rw [b3] at d3
      exact ⟨_, rfl, ⟨c2.inv, d2.inv⟩, Quiet.trans ⟨a5, a6, a8⟩ c2.quiet, Quiet.trans ⟨b5, b6, b8⟩ d2.quiet, .set c3 d3, fun _ _ => ⟨c3, d3⟩⟩

theorem roomIf_inv {p : Pipe} (h : PInv p) (u : Nat) :
    ∃ q, roomIf true p u = some q ∧ PInv q ∧ (fdOf q u ≠ none → q.ulen < q.main.length) ∧ q.fds = p.fds ∧ Quiet p q := by
  unfold roomIf
  cases ho : fdOf p u with
  | none => exact ⟨p, rfl, h, fun n => absurd ho n, rfl, Quiet.refl p⟩
  | some o =>
    obtain ⟨q, hq⟩ := room_true p
    obtain ⟨a1, a2, a3, a4, a5, a6, a7, a8⟩ := room_inv h hq
    exact ⟨q, hq, a1, fun _ => a2, a3, ⟨a5, a6, a8⟩⟩

theorem remove_inv {w : World} (h : WInv w) (u : Nat) :
    ∃ w', remove w u true true = .ok w' ∧ WInv w' ∧ Quiet w.rtp w'.rtp ∧ Quiet w.rtcp w'.rtcp ∧
      w'.rtp.fds = (w.rtp.fds.filter fun x => x.1 != u) ∧ w'.rtcp.fds = (w.rtcp.fds.filter fun x => x.1 != u) := by
  unfold remove
  obtain ⟨p0, a1, a2, a3, a4, a5⟩ := roomIf_inv h.1 u
  obtain ⟨p1, b1, b2, b3, b4, b5⟩ := roomIf_inv h.2 u
  obtain ⟨q0, c1, c2, c3⟩ := premove_inv a2 a3
  obtain ⟨q1, d1, d2, d3⟩ := premove_inv b2 b3
  rw [a1]
  simp only
  rw [b1]
  simp only
  rw [c1, d1]
  rw [a4] at c3
  rw [b4] at d3
  exact ⟨_, rfl, ⟨c2.inv, d2.inv⟩, a5.trans c2.quiet, b5.trans d2.quiet, c3, d3⟩

theorem step_inv {w : World} (h : WInv w) (o : Op) (ok : Ok w o) : ∃ w', step w o = .ok w' ∧ WInv w' := by
  cases o with
  | append u s0 s1 m0 m1 =>
    obtain ⟨w', a, b, _⟩ := append_inv h m0 m1 ok
    exact ⟨w', a, b⟩
  | update u s0 s1 m0 m1 =>
    obtain ⟨w', a, b, _⟩ := update_inv h m0 m1 ok
    exact ⟨w', a, b⟩
  | remove u m0 m1 =>
    obtain ⟨e0, e1⟩ := ok
    subst e0; subst e1
    obtain ⟨w', a, b, _⟩ := remove_inv h u
    exact ⟨w', a, b⟩
  | beginRtp m =>
    have : m = true := ok
    subst this
    exact ⟨_, rfl, (begin_inv h.1).1, h.2⟩
  | beginRtcp m =>
    have : m = true := ok
    subst this
    exact ⟨_, rfl, h.1, (begin_inv h.2).1⟩
  | turnRtp =>
    obtain ⟨p, a, b, _⟩ := turn_inv h.1
    refine ⟨{ w with rtp := p }, ?_, b, h.2⟩
    simp only [step]
    rw [a]
  | turnRtcp =>
    obtain ⟨p, a, b, _⟩ := turn_inv h.2
    refine ⟨{ w with rtcp := p }, ?_, h.1, b⟩
    simp only [step]
    rw [a]

theorem reach_inv {w : World} (h : Reach w) : WInv w := by
  induction h with
  | init => exact ⟨pinv_new, pinv_new⟩
  | step o _ ok e ih =>
    obtain ⟨w1, a, b⟩ := step_inv ih o ok
    rw [a] at e
    cases e
    exact b

/-- What is left to do for RTP comes to the same thing, whatever is done other than taking more. -/
theorem step_rtp {w w' : World} (h : WInv w) (o : Op) (ok : Ok w o) (e : step w o = .ok w') (n : ∀ m, o ≠ .beginRtp m) :
    changes w'.rtp.table w'.rtp.taken = changes w.rtp.table w.rtp.taken := by
  cases o with
  | append u s0 s1 m0 m1 =>
    obtain ⟨w1, a, _, q, _⟩ := append_inv h m0 m1 ok
    simp only [step] at e; rw [a] at e; cases e
    rw [q.table, q.taken]
  | update u s0 s1 m0 m1 =>
    obtain ⟨w1, a, _, q, _⟩ := update_inv h m0 m1 ok
    simp only [step] at e; rw [a] at e; cases e
    rw [q.table, q.taken]
  | remove u m0 m1 =>
    obtain ⟨e0, e1⟩ := ok
    subst e0; subst e1
    obtain ⟨w1, a, _, q, _⟩ := remove_inv h u
    simp only [step] at e; rw [a] at e; cases e
    rw [q.table, q.taken]
  | beginRtp m => exact absurd rfl (n m)
  | beginRtcp m => simp only [step] at e; cases e; rfl
  | turnRtp =>
    obtain ⟨p, a, _, _, _, _, c⟩ := turn_inv h.1
    simp only [step] at e; rw [a] at e; cases e
    exact c
  | turnRtcp =>
    simp only [step] at e
    obtain ⟨p, a, _⟩ := turn_inv h.2
    rw [a] at e; cases e; rfl

theorem step_rtcp {w w' : World} (h : WInv w) (o : Op) (ok : Ok w o) (e : step w o = .ok w') (n : ∀ m, o ≠ .beginRtcp m) :
    changes w'.rtcp.table w'.rtcp.taken = changes w.rtcp.table w.rtcp.taken := by
  cases o with
  | append u s0 s1 m0 m1 =>
    obtain ⟨w1, a, _, _, q, _⟩ := append_inv h m0 m1 ok
    simp only [step] at e; rw [a] at e; cases e
    rw [q.table, q.taken]
  | update u s0 s1 m0 m1 =>
    obtain ⟨w1, a, _, _, q, _⟩ := update_inv h m0 m1 ok
    simp only [step] at e; rw [a] at e; cases e
    rw [q.table, q.taken]
  | remove u m0 m1 =>
    obtain ⟨e0, e1⟩ := ok
    subst e0; subst e1
    obtain ⟨w1, a, _, _, q, _⟩ := remove_inv h u
    simp only [step] at e; rw [a] at e; cases e
    rw [q.table, q.taken]
  | beginRtcp m => exact absurd rfl (n m)
  | beginRtp m => simp only [step] at e; cases e; rfl
  | turnRtcp =>
    obtain ⟨p, a, _, _, _, _, c⟩ := turn_inv h.2
    simp only [step] at e; rw [a] at e; cases e
    exact c
  | turnRtp =>
    simp only [step] at e
    obtain ⟨p, a, _⟩ := turn_inv h.1
    rw [a] at e; cases e; rfl

end Verif.Sinfo
