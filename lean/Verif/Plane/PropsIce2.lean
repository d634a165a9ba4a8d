import Verif.Plane.PropsIce
import Verif.Plane.PropsDtls

/-! # C68: the address while the checks run; C69: no second handshake -/

namespace Verif.Plane

open Verif.Latch (Addr)

theorem completed_same {st st' : St} {a : Nat} (h : st.completed a = true) (e : st'.agents = st.agents) :
    st'.completed a = true := by
  simp only [St.completed] at h ⊢
  rw [e]; exact h

theorem completed_agentOf {st : St} (hI : InvM st) {a : Nat} (h : st.completed a = true) (j : Bool) :
    (agentOf st j).1.completed a = true := by
  cases hj : st.ice j with
  | some x => rw [agentOf_some hI hj]; exact h
  | none =>
    rw [agentOf_none hI hj]
    simp only [St.completed, activate] at h ⊢
    by_cases hlt : a < st.agents.length
    · rw [List.getElem?_append_left hlt]; exact h
    · rw [List.getElem?_eq_none (by omega)] at h; cases h

/-- Completed checks stay completed. -/
theorem completed_step {st st' : St} {e : Ev} {b : Bool} {a : Nat} (hI : Inv st) (h : st.completed a = true)
    (hs : step st e = .ok (st', b)) : st'.completed a = true := by
  cases e with
  | rx s now buf src chg peer ir dr =>
    have hs := (ok1_ok hs).1
    rcases rx_cases hI.toInvM hs with ⟨_, rfl⟩ | ⟨_, hi, hp, hs⟩
    · exact h
    · obtain ⟨_, _, _, _, _, _, _, _, c4, _⟩ := pass_spec hi hp hs
      exact completed_same h c4
  | inject s now p cow rz chg dr =>
    obtain ⟨_, _, _, _, _, _, _, _, c4, _⟩ := pass_spec hI.toInvM (pre_inject s p cow rz) (ok1_ok hs).1
    exact completed_same h c4
  | iceWork now fl rs =>
    cases hs
    rcases iceWork_cases st now fl rs with ⟨_, e⟩ | ⟨it, q, hq, e | ⟨g, hg, hb, ⟨hgc, hfl, e⟩ | ⟨_, e⟩⟩⟩
    · rw [e]; exact h
    · rw [e]; exact h
    · rw [e]; exact completed_set (st := st) h hg (fun _ => rfl)
    · rw [e]; exact h
  | dtlsWork now hk cr sends chg dr =>
    have hs := (ok1_ok hs).1
    rcases dtlsWork_cases hs with ⟨_, rfl⟩ | ⟨it, q, hq, hc⟩
    · exact h
    have hmem : it ∈ st.dtlsQ := by rw [hq]; exact List.mem_cons_self ..
    have h0 := invM_q hI.toInvM q
    rcases hc with rfl | ⟨c, hd, hc, rfl⟩ | ⟨c, b, hd, hc, hu, rfl, hp⟩ | ⟨c, b, hd, hc, hu, rfl, _, hp⟩
    · exact h
    · exact h
    · obtain ⟨_, _, _, _, _, _, _, _, c4, _⟩ := pass_spec h0 (pre_srtp hI hmem hd b q) hp
      exact completed_same h c4
    · obtain ⟨_, _, _, _, _, _, _, _, c4, _⟩ := pass_spec h0 (pre_out hI hmem hd b q hc hu) hp
      exact completed_same h c4
  | iceStart j comp cand =>
    simp only [step] at hs
    have hj := completed_agentOf hI.toInvM h j
    split at hs <;> cases hs
    · exact hj
    next g hg =>
      refine completed_set hj hg ?_
      intro hgc
      simp only [startAgent]
      split <;> exact hgc
  | iceAuth j ok => cases hs; exact completed_agentOf hI.toInvM h j
  | iceOff j =>
    rcases iceOff_spec hI.toInvM j with ⟨_, h1⟩ | ⟨x, l1, l3, hi, h1, _⟩ <;> simp only [step] at hs <;> rw [h1] at hs <;>
      cases hs <;> exact h
  | dtlsOn j sp b' =>
    simp only [step, Except.ok.injEq] at hs
    cases hi : st.dtls j with
    | some m =>
      obtain ⟨c, hc, e⟩ := dtlsOn_some hI.toInvM hi sp b'
      rw [e] at hs; cases hs; exact h
    | none =>
      rw [dtlsOn_none hI.toInvM hi] at hs
      split at hs <;> cases hs <;> exact h
  | dtlsOff j =>
    rcases dtlsOff_spec hI.toInvM j with ⟨_, h1⟩ | ⟨m, c, l1, l2, hi, hc, h1, _⟩ <;> simp only [step] at hs <;>
      rw [h1] at hs <;> cases hs <;> exact h
  | reg s order n f =>
    simp only [step] at hs
    split at hs <;> cases hs <;> exact h
  | unreg s n =>
    simp only [step] at hs
    split at hs <;> cases hs <;> exact h
  | prefill s now x => cases hs; exact h
  | socket s x => cases hs; exact h

theorem pending_frame {st st' : St} {i : Bool} {a : Nat} (h : Pending st i a) (hi : st'.ice i = st.ice i)
    (hs : (st'.strm (rtp i)).mode = (st.strm (rtp i)).mode)
    (hq : ∀ it ∈ st'.iceQ, it ∈ st.iceQ ∨ (it.s = rtp i → it.agent = a)) :
    st'.completed a = true ∨ Pending st' i a := by
  cases hc : st'.completed a with
  | true => exact Or.inl rfl
  | false =>
    refine Or.inr ⟨by rw [hi]; exact h.ice, hc, by rw [hs]; exact h.mode, ?_⟩
    intro it hit
    rcases hq it hit with h1 | h1
    · exact h.queue it h1
    · exact h1

/-- What arrives leaves a stream whose checks run as it is. -/
theorem latchIn_pending {st : St} {i : Bool} {a : Nat} (h : Pending st i a) (s : Sid) (now : Int) (p : Pkt) :
    (latchIn st s now p).1 (rtp i) = st.strm (rtp i) := by
  have hcomp : ∀ (f : Sid → Latch.Strm) (x : Latch.Strm) (c : Prop) [Decidable c],
      (if c then upd f (rtcp s.side) x else f) (rtp i) = f (rtp i) := by
    intro f x c _
    split
    · exact upd_ne _ _ (ne_rtp_rtcp _ _)
    · rfl
  simp only [latchIn, hcomp]
  by_cases hs : rtp i = s
  · subst hs
    rw [upd_self]
    simp only [Latch.rx1, h.mode, if_true]
  · exact upd_ne _ _ hs

theorem pending_pass {st st' : St} {i : Bool} {a : Nat} (h : Pending st i a) (hI : InvM st) {now : Int}
    {chg ir dr : Bool} {m : Sid} {c : Ctx} {n : Nat} (hp : Pre st m c n) (hs : pass st now chg ir dr m c n = .ok st') :
    (st'.completed a = true ∨ Pending st' i a) ∧ (st'.strm (rtp i)).rem = (st.strm (rtp i)).rem := by
  obtain ⟨_, ⟨n2, a2, b2⟩, _, _, b5, _, c2, _, c4, _⟩ := pass_spec hI hp hs
  refine ⟨pending_frame h (by rw [c2]) (b5 (rtp i)).2.1 ?_, (b5 (rtp i)).1⟩
  intro it hit
  rw [a2] at hit
  rcases List.mem_append.mp hit with hit | hit
  · exact Or.inl hit
  · right
    intro hs
    obtain ⟨_, _, _, _, j, h1, h2⟩ := b2 it hit
    have : j = i := by rw [hs] at h1; simpa [rtp] using h1.symm
    subst this
    have := h.ice
    rw [h2] at this
    injection this

theorem pending_agentOf {st : St} {i : Bool} {a : Nat} (h : Pending st i a) (hI : InvM st) (j : Bool) :
    ((agentOf st j).1.ice i = st.ice i) ∧ (agentOf st j).1.strm (rtp i) = st.strm (rtp i) ∧
      (agentOf st j).1.iceQ = st.iceQ := by
  cases hj : st.ice j with
  | some x => rw [agentOf_some hI hj]; exact ⟨rfl, rfl, rfl⟩
  | none =>
    rw [agentOf_none hI hj]
    have hne : i ≠ j := by rintro rfl; rw [h.ice] at hj; cases hj
    have hne' : rtp i ≠ rtp j := by simp [rtp, hne]
    exact ⟨upd_ne _ _ hne, by simp only [activate, upd_ne _ _ hne'], rfl⟩

theorem pending_step {st st' : St} {i : Bool} {a : Nat} {e : Ev} {b : Bool} (h : Pending st i a)
    (hI : Inv st) (he : e ≠ .iceOff i) (hpf : ∀ now x, e ≠ .prefill (rtp i) now x) (hs : step st e = .ok (st', b)) :
    st'.completed a = true ∨ (Pending st' i a ∧ (st'.strm (rtp i)).rem = (st.strm (rtp i)).rem) := by
  have hand : ∀ {P Q R : Prop}, (P ∨ Q) ∧ R → P ∨ (Q ∧ R) := by
    rintro P Q R ⟨h1 | h1, h2⟩
    · exact Or.inl h1
    · exact Or.inr ⟨h1, h2⟩
  have hsame : st'.ice i = st.ice i → st'.strm (rtp i) = st.strm (rtp i) → (∀ it ∈ st'.iceQ, it ∈ st.iceQ) →
      st'.completed a = true ∨ (Pending st' i a ∧ (st'.strm (rtp i)).rem = (st.strm (rtp i)).rem) := by
    intro e1 e3 e4
    exact hand ⟨pending_frame h e1 (by rw [e3]) (fun it hit => Or.inl (e4 it hit)), by rw [e3]⟩
  cases e with
  | rx s now buf src chg peer ir dr =>
    have hs := (ok1_ok hs).1
    have hl := latchIn_pending h s now (arrived st s buf src)
    have hp' : Pending { st with strm := (latchIn st s now (arrived st s buf src)).1 } i a :=
      ⟨h.ice, h.open_, by rw [← h.mode]; exact congrArg _ hl, h.queue⟩
    rcases rx_cases hI.toInvM hs with ⟨_, rfl⟩ | ⟨_, hi, hp, hs⟩
    · exact hsame rfl hl (fun it h => h)
    · have := pending_pass hp' hi hp hs
      refine hand ⟨this.1, ?_⟩
      rw [this.2]
      exact congrArg _ hl
  | inject s now p cow rz chg dr => exact hand (pending_pass h hI.toInvM (pre_inject s p cow rz) (ok1_ok hs).1)
  | iceWork now fl rs =>
    cases hs
    rcases iceWork_cases st now fl rs with ⟨_, e⟩ | ⟨it, q, hq, e | ⟨g, hg, hb, ⟨hgc, hfl, e⟩ | ⟨_, e⟩⟩⟩
    · rw [e] at hsame ⊢; exact hsame rfl rfl (fun it h => h)
    · rw [e] at hsame ⊢; exact hsame rfl rfl (fun x hx => by rw [hq]; exact List.mem_cons_of_mem _ hx)
    · have hmem : it ∈ st.iceQ := by rw [hq]; exact List.mem_cons_self ..
      by_cases hs : rtp i = it.s
      · left
        have ha := h.queue it hmem hs.symm
        rw [e]
        simp only [St.completed, ha] at hg ⊢
        have hlt := (List.getElem?_eq_some_iff.mp hg).1
        simp only [List.getElem?_set_self hlt]
      · rw [e] at hsame ⊢
        exact hsame rfl (upd_ne _ _ hs) (fun x hx => by rw [hq]; exact List.mem_cons_of_mem _ hx)
    · rw [e] at hsame ⊢; exact hsame rfl rfl (fun x hx => by rw [hq]; exact List.mem_cons_of_mem _ hx)
  | dtlsWork now hk cr sends chg dr =>
    have hs := (ok1_ok hs).1
    rcases dtlsWork_cases hs with ⟨_, rfl⟩ | ⟨it, q, hq, hc⟩
    · exact hsame rfl rfl (fun it h => h)
    have hmem : it ∈ st.dtlsQ := by rw [hq]; exact List.mem_cons_self ..
    have h0 := invM_q hI.toInvM q
    have hl : Pending { st with dtlsQ := q } i a := ⟨h.ice, h.open_, h.mode, h.queue⟩
    rcases hc with rfl | ⟨c, hd, hc, rfl⟩ | ⟨c, b, hd, hc, hu, rfl, hp⟩ | ⟨c, b, hd, hc, hu, rfl, _, hp⟩
    · exact hsame rfl rfl (fun it h => h)
    · exact hsame rfl rfl (fun it h => h)
    · have := pending_pass hl h0 (pre_srtp hI hmem hd b q) hp
      exact hand ⟨this.1, this.2⟩
    · have := pending_pass hl h0 (pre_out hI hmem hd b q hc hu) hp
      exact hand ⟨this.1, this.2⟩
  | iceStart j comp cand =>
    simp only [step] at hs
    obtain ⟨e1, e2, e3⟩ := pending_agentOf h hI.toInvM j
    split at hs <;> cases hs
    · exact hsame e1 e2 (fun it h => by rw [e3] at h; exact h)
    · exact hsame e1 e2 (fun it h => by simp only [setAgent, e3] at h; exact h)
  | iceAuth j ok =>
    cases hs
    obtain ⟨e1, e2, e3⟩ := pending_agentOf h hI.toInvM j
    exact hsame e1 e2 (fun it h => by rw [e3] at h; exact h)
  | iceOff j =>
    have hne : i ≠ j := by rintro rfl; exact he rfl
    have hne' : rtp i ≠ rtp j := by simp [rtp, hne]
    rcases iceOff_spec hI.toInvM j with ⟨_, h1⟩ | ⟨x, l1, l3, hi, h1, _⟩ <;> simp only [step] at hs <;> rw [h1] at hs <;>
      cases hs
    · exact hsame rfl rfl (fun it h => h)
    · exact hsame (upd_ne _ _ hne) (upd_ne _ _ hne') (fun it h => h)
  | dtlsOn j sp b' =>
    simp only [step, Except.ok.injEq] at hs
    cases hi : st.dtls j with
    | some m =>
      obtain ⟨c, hc, e⟩ := dtlsOn_some hI.toInvM hi sp b'
      rw [e] at hs; cases hs
      exact hsame rfl rfl (fun it h => h)
    | none =>
      rw [dtlsOn_none hI.toInvM hi] at hs
      split at hs <;> cases hs <;> exact hsame rfl rfl (fun it h => h)
  | dtlsOff j =>
    rcases dtlsOff_spec hI.toInvM j with ⟨_, h1⟩ | ⟨m, c, l1, l2, hi, hc, h1, _⟩ <;> simp only [step] at hs <;>
      rw [h1] at hs <;> cases hs <;> exact hsame rfl rfl (fun it h => h)
  | reg s order n f =>
    simp only [step] at hs
    split at hs <;> cases hs <;> exact hsame rfl rfl (fun it h => h)
  | unreg s n =>
    simp only [step] at hs
    split at hs <;> cases hs <;> exact hsame rfl rfl (fun it h => h)
  | prefill s now x =>
    cases hs
    have hne : rtp i ≠ s := by rintro rfl; exact hpf now x rfl
    exact hsame rfl (upd_ne _ _ hne) (fun it h => h)
  | socket s x => cases hs; exact hsame rfl rfl (fun it h => h)

/-- **No address from what arrives.**  While the checks run, nothing but signalling changes where the media of the
stream goes: not media, not STUN, not a change of SSRC.  (Full claim: from any start of ICE on.  Missing: messages for
an earlier agent in the queue, `C68_stale_message_counterexample`.) -/
theorem C68_address_while_checking_partial (es : List Ev) (st st' : St) (i : Bool) (a : Nat) (h : Reachable st)
    (hp : Pending st i a) (he : ∀ e ∈ es, e ≠ .iceOff i) (hpf : ∀ e ∈ es, ∀ now x, e ≠ .prefill (rtp i) now x)
    (hs : run st es = .ok st') (hc : st'.completed a = false) :
    (st'.strm (rtp i)).rem = (st.strm (rtp i)).rem := by
  have mono : ∀ (es : List Ev) s0, Inv s0 → s0.completed a = true → run s0 es = .ok st' → False := by
    intro es
    induction es with
    | nil => intro s0 _ h1 hs; cases hs; rw [hc] at h1; cases h1
    | cons e es ih =>
      intro s0 h0 h1 hs
      simp only [run] at hs
      split at hs
      · cases hs
      next s b hst => exact ih s (inv_step h0 hst) (completed_step h0 h1 hst) hs
  suffices H : ∀ s0, Inv s0 → Pending s0 i a → run s0 es = .ok st' → (st'.strm (rtp i)).rem = (s0.strm (rtp i)).rem from
    H st h.inv hp hs
  clear hs hp
  induction es with
  | nil => intro s0 _ _ hs; cases hs; rfl
  | cons e es ih =>
    intro s0 h0 hp hs
    simp only [run] at hs
    split at hs
    · cases hs
    next s b hst =>
      rcases pending_step hp h0 (he e (List.mem_cons_self ..)) (hpf e (List.mem_cons_self ..)) hst with h1 | ⟨h1, h2⟩
      · exact (mono es s (inv_step h0 hst) h1 hs).elim
      · rw [← h2]
        exact ih (fun x hx => he x (List.mem_cons_of_mem _ hx)) (fun x hx => hpf x (List.mem_cons_of_mem _ hx)) s
          (inv_step h0 hst) h1 hs

/-- Starting ICE for a side that had none puts a new agent in charge, whose checks are to come. -/
theorem C68_start (st st' : St) (e : Ev) (b : Bool) (i : Bool) (h : Reachable st) (hi : st.ice i = none)
    (he : (∃ comp cand, e = .iceStart i comp cand) ∨ ∃ ok, e = .iceAuth i ok)
    (hq : ∀ it ∈ st.iceQ, it.s ≠ rtp i) (hs : step st e = .ok (st', b)) :
    ∃ a, Pending st' i a ∧ ∀ j, st.ice j ≠ some a := by
  have h := h.inv
  have hp : Pending (activate st i).1 i st.agents.length := by
    refine ⟨upd_self _ _ _, ?_, ?_, fun it hit hs => absurd hs (hq it hit)⟩
    · simp [St.completed, activate]
    · simp only [activate, upd_self]
  refine ⟨st.agents.length, ?_, fun j hj => absurd (h.iceLt j _ hj) (by omega)⟩
  rcases he with ⟨comp, cand, rfl⟩ | ⟨ok, rfl⟩
  · simp only [step, agentOf_none h.toInvM hi] at hs
    split at hs
    next hn => simp [activate] at hn
    next g hg =>
      cases hs
      refine ⟨hp.ice, ?_, hp.mode, hp.queue⟩
      have hgc : g.completed = false := by
        have := hp.open_
        simp only [St.completed] at this
        rw [show (activate st i).2 = st.agents.length from rfl] at hg
        simp only [hg] at this
        exact this
      have hlt := (List.getElem?_eq_some_iff.mp hg).1
      rw [show (activate st i).2 = st.agents.length from rfl] at hlt ⊢
      simp only [St.completed, setAgent, List.getElem?_set_self hlt]
      simp only [startAgent]
      split <;> exact hgc
  · simp only [step, agentOf_none h.toInvM hi] at hs
    cases hs
    exact hp

/-- **No second handshake.**  If the peer begins a new handshake over a connection that is up, the connection is given
up. -/
theorem C69_no_renegotiation (st st' : St) (now : Int) (hk : Hs) (cr : Option (List UInt8)) (sends : List (List UInt8))
    (chg dr b : Bool) (it : DItem) (q : List DItem) (hq : st.dtlsQ = it :: q) (hd : it.dir = .dtls)
    (hu : IsUp st it.conn) (h1 : hk.bio = true) (h2 : hk.okBefore = false)
    (hs : step st (.dtlsWork now hk cr sends chg dr) = .ok (st', b)) :
    ∃ c, st'.conns[it.conn]? = some c ∧ c.st = .dead := by
  obtain ⟨c, hc, hcu⟩ := hu
  have hlt := (List.getElem?_eq_some_iff.mp hc).1
  have hs := (ok1_ok hs).1
  simp only [dtlsWork, hq, hc, hd] at hs
  cases hs
  refine ⟨_, by simp only [setConn]; exact List.getElem?_set_self hlt, ?_⟩
  simp [dtlsRecv, hcu, h1, h2]

end Verif.Plane
