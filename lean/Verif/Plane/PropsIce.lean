import Verif.Plane.Own

/-! # C68: media of a stream under ICE -/

namespace Verif.Plane

open Verif.Pproc (Act)
open Verif.Latch (Addr)

theorem activate_ice (st : St) (i j : Bool) : ((activate st i).1.ice j).isSome = if j = i then true else (st.ice j).isSome := by
  simp only [activate, upd]
  split <;> rfl

theorem agentOf_ice {st : St} (h : InvM st) (i j : Bool) :
    ((agentOf st i).1.ice j).isSome = if i = j then true else (st.ice j).isSome := by
  cases hi : st.ice i with
  | none =>
    rw [agentOf_none h hi, activate_ice]
    by_cases e : j = i
    · rw [if_pos e, if_pos e.symm]
    · rw [if_neg e, if_neg (Ne.symm e)]
  | some a =>
    rw [agentOf_some h hi]
    split
    · subst_vars; rw [hi]; rfl
    · rfl

theorem ice_next {st st' : St} {e : Ev} {b : Bool} (h : Inv st) (hs : step st e = .ok (st', b)) (i : Bool) :
    (st'.ice i).isSome = iceNext i (st.ice i).isSome (e, b) := by
  cases e with
  | rx s now buf src chg peer ir dr =>
    have hs := (ok1_ok hs).1
    rcases rx_cases h.toInvM hs with ⟨_, rfl⟩ | ⟨_, hi, hp, hs⟩
    · rfl
    · obtain ⟨_, _, _, _, _, _, h2, _⟩ := pass_spec hi hp hs
      rw [h2]; rfl
  | inject s now p cow rz chg dr =>
    obtain ⟨_, _, _, _, _, _, h2, _⟩ := pass_spec h.toInvM (pre_inject s p cow rz) (ok1_ok hs).1
    rw [h2]; rfl
  | iceWork now fl rs =>
    cases hs
    have : (iceWork st now fl rs).ice = st.ice := by
      simp only [iceWork]
      (repeat' split) <;> rfl
    rw [this]; rfl
  | dtlsWork now x cr sends chg dr =>
    have hs := (ok1_ok hs).1
    rcases dtlsWork_cases hs with ⟨_, rfl⟩ | ⟨it, q, hq, hc⟩
    · rfl
    rcases hc with rfl | ⟨c, hd, hc, rfl⟩ | ⟨c, b, hd, hc, hu, rfl, hp⟩ | ⟨c, b, hd, hc, hu, rfl, hl, hp⟩
    · rfl
    · rfl
    · obtain ⟨r, _, rfl⟩ := pass_ok hp
      rw [(applyAll_frame _ _ _ _).2.1]; rfl
    · obtain ⟨r, _, rfl⟩ := pass_ok hp
      rw [(applyAll_frame _ _ _ _).2.1]; rfl
  | iceStart j comp cand =>
    simp only [step] at hs
    have e1 := agentOf_ice h.toInvM j i
    split at hs <;> cases hs <;> exact e1
  | iceAuth j ok =>
    cases hs
    exact agentOf_ice h.toInvM j i
  | iceOff j =>
    rcases iceOff_spec h.toInvM j with ⟨_, h1⟩ | ⟨a, l1, l3, hi, h1, _⟩ <;> simp only [step] at hs <;> rw [h1] at hs <;>
      cases hs
    · rfl
    · simp only [iceNext]
      by_cases e : i = j
      · subst e; simp [upd]
      · simp [upd_ne _ _ e, Ne.symm e]
  | dtlsOn j sp b' =>
    simp only [step, Except.ok.injEq] at hs
    cases hi : st.dtls j with
    | some n =>
      obtain ⟨c, hc, e⟩ := dtlsOn_some h.toInvM hi sp b'
      rw [e] at hs; cases hs; rfl
    | none =>
      rw [dtlsOn_none h.toInvM hi] at hs
      split at hs <;> cases hs <;> rfl
  | dtlsOff j =>
    rcases dtlsOff_spec h.toInvM j with ⟨_, h1⟩ | ⟨n, c, l1, l2, hi, hc, h1, _⟩ <;> simp only [step] at hs <;>
      rw [h1] at hs <;> cases hs <;> rfl
  | reg s order n f =>
    simp only [step] at hs
    split at hs <;> cases hs <;> rfl
  | unreg s n =>
    simp only [step] at hs
    split at hs <;> cases hs <;> rfl
  | prefill s now a => cases hs; rfl
  | socket s x => cases hs; rfl

/-- An agent is in charge of the RTP stream of a side exactly when, by the commands and their replies, ICE is on. -/
theorem C68_in_charge (es : List Ev) (st : St) (tr : List (Ev × Bool)) (h : runT init es = .ok (st, tr)) (i : Bool) :
    (st.ice i).isSome = iceIs i tr := by
  suffices H : ∀ (s0 : St), Inv s0 → ∀ st tr, runT s0 es = .ok (st, tr) →
      (st.ice i).isSome = tr.foldl (iceNext i) (s0.ice i).isSome from H init inv_init st tr h
  clear h
  induction es with
  | nil => intro s0 _ st tr h; cases h; rfl
  | cons e es ih =>
    intro s0 h0 st tr h
    simp only [runT] at h
    split at h
    · cases h
    next s1 b he =>
      split at h
      · cases h
      next s2 t ht =>
        cases h
        rw [List.foldl_cons, ← ice_next h0 he]
        exact ih s1 (inv_step h0 he) _ _ ht

/-- The agent's processor is the first of its chain. -/
theorem ice_first {st : St} (h : InvM st) {i : Bool} {a : Nat} (hi : st.ice i = some a) :
    ∃ post, st.mgr (rtp i) = ⟨oRecv, .ice, .ice a⟩ :: post := by
  have hs : sel .ice (st.mgr (rtp i)) = [⟨oRecv, .ice, .ice a⟩] := by
    rw [h.keys _ _ (by simp)]; simp [want, hi]
  obtain ⟨pre, post, h1, _, h3, _⟩ := split_of_sel hs
  have hpre : pre = [] := by
    refine List.eq_nil_iff_forall_not_mem.mpr fun q hq => ?_
    have hmem : q ∈ st.mgr (rtp i) := by rw [h1]; exact List.mem_append_left _ hq
    have hso := h.sorted (rtp i)
    rw [h1] at hso
    have hle : q.order ≤ 1 := (List.pairwise_append.mp hso).2.2 q hq _ (List.mem_cons_self ..)
    rcases proc_cases h hmem with ⟨j, b, _, _, rfl⟩ | ⟨j, b, _, _, rfl⟩ | ⟨j, b, _, _, rfl⟩ | ⟨j, b, _, _, rfl⟩ |
      ⟨j, b, _, _, rfl⟩ | rfl | ⟨h4, _, _⟩
    · have : (⟨oRecv, .ice, .ice b⟩ : Proc) ∈ sel .ice pre := mem_sel.mpr ⟨hq, rfl⟩
      rw [h3] at this; cases this
    · exact absurd hle (by show ¬ 3 ≤ 1; omega)
    · exact absurd hle (by show ¬ 10 ≤ 1; omega)
    · exact absurd hle (by show ¬ 2 ≤ 1; omega)
    · exact absurd hle (by show ¬ 11 ≤ 1; omega)
    · exact absurd hle (by decide)
    · omega
  rw [hpre] at h1
  exact ⟨post, h1⟩

/-- What the agent stops. -/
theorem ice_stops {st : St} (h : InvM st) {i : Bool} {a : Nat} (hi : st.ice i = some a) (ir dr : Bool) (fuel : Nat)
    (c : Ctx) (hc : c.pkt.isStun = true ∨ st.completed a = false) :
    ∃ act, handleat (st.view ir dr) (fuel + 1) (rtp i) c 0 = .ok (act,
      if c.pkt.isStun ∧ ir then [.iceq a c.inS c.pkt] else [.drop c.inS c.pkt]) := by
  obtain ⟨post, hp⟩ := ice_first h hi
  have hl : likes (st.view ir dr) c (.ice a) = true := by
    rcases hc with hc | hc <;> simp [likes, hc, St.view]
  have hm : (st.view ir dr).mgr (rtp i) = ⟨oRecv, .ice, .ice a⟩ :: post := hp
  simp only [handleat, hm, loop, hl, enq, Act.or_nop]
  by_cases h1 : c.pkt.isStun = true
  · by_cases h2 : ir = true
    · refine ⟨aTake, ?_⟩
      simp [h1, h2, St.view, aTake, finish]
    · refine ⟨aDrop, ?_⟩
      have h2 : ir = false := by simpa using h2
      simp [h2, h1, St.view, aDrop, finish]
  · refine ⟨aDrop, ?_⟩
    have h1 : c.pkt.isStun = false := by simpa using h1
    simp [h1, aDrop, finish]

theorem apply_drop {st : St} {now : Int} {chg : Bool} {s : Sid} {p : Pkt} : applyAll now chg st [.drop s p] = st := rfl
theorem apply_iceq {st : St} {now : Int} {chg : Bool} {a : Nat} {s : Sid} {p : Pkt} :
    applyAll now chg st [.iceq a s p] = { st with iceQ := st.iceQ ++ [⟨a, s, p⟩] } := rfl

/-- **The gate.**  While the checks are not completed no datagram received by the RTP stream gets past the agent,
and afterwards no STUN message does: nothing is relayed, nothing is shown to any other processor, and nothing is handed
to the DTLS module; STUN messages go to the agent (if there is room), all others are dropped.  The handling cannot
fail. -/
theorem C68_gate (st : St) (i : Bool) (a : Nat) (now : Int) (buf : List UInt8) (src : Addr) (chg peer ir dr : Bool)
    (h : Reachable st) (hi : st.ice i = some a)
    (hc : ({ buf := buf, src := src } : Pkt).isStun = true ∨ st.completed a = false) :
    ∃ st', step st (.rx (rtp i) now buf src chg peer ir dr) = .ok (st', true) ∧
      st'.log = st.log ∧ st'.seen = st.seen ∧ st'.dtlsQ = st.dtlsQ ∧ st'.conns = st.conns ∧ st'.agents = st.agents ∧
      (st'.iceQ = st.iceQ ∨ ({ buf := buf, src := src } : Pkt).isStun = true ∧
        ∃ p, p.buf = buf ∧ p.src = src ∧ st'.iceQ = st.iceQ ++ [⟨a, rtp i, p⟩]) := by
  have h := h.inv
  have hst : (arrived st (rtp i) buf src).isStun = ({ buf := buf, src := src } : Pkt).isStun := rfl
  simp only [step, receive]
  split
  · exact ⟨_, rfl, rfl, rfl, rfl, rfl, rfl, Or.inl rfl⟩
  · have hI : InvM { st with strm := (latchIn st (rtp i) now (arrived st (rtp i) buf src)).1 } := by
      refine invM_same h.toInvM ?_ ?_ ?_ ?_ ?_ <;> rfl
    obtain ⟨act, he⟩ := ice_stops hI (i := i) (a := a) hi ir dr 14
      ⟨rtp i, if peer then some (rtp i).rev else none, arrived st (rtp i) buf src, false⟩
      (by rw [hst]; exact hc)
    simp only [pass, depth]
    rw [he]
    simp only [ok1]
    split
    next hq =>
      rw [apply_iceq]
      refine ⟨_, rfl, rfl, rfl, rfl, rfl, rfl, Or.inr ⟨by rw [← hst]; exact hq.1, _, rfl, rfl, rfl⟩⟩
    · rw [apply_drop]
      exact ⟨_, rfl, rfl, rfl, rfl, rfl, rfl, Or.inl rfl⟩

/-- Before completion the agent keeps the address of the stream from being learnt from what arrives. -/
theorem C68_no_latching (st st' : St) (i : Bool) (a : Nat) (now : Int) (buf : List UInt8) (src : Addr)
    (chg peer ir dr b : Bool) (h : Reachable st) (hi : st.ice i = some a) (hc : st.completed a = false)
    (hm : (st.strm (rtp i)).mode = .forceOff)
    (hs : step st (.rx (rtp i) now buf src chg peer ir dr) = .ok (st', b)) : st'.strm = st.strm := by
  have h := h.inv
  have hs := (ok1_ok hs).1
  have hl : (latchIn st (rtp i) now (arrived st (rtp i) buf src)).1 = st.strm := by
    simp only [latchIn, Latch.rx1, hm]
    simp only [if_true, Bool.false_eq_true, and_false, if_false]
    funext s
    simp only [upd]
    split
    · subst_vars; rfl
    · rfl
  rcases rx_cases h.toInvM hs with ⟨_, rfl⟩ | ⟨_, hI, hp, hs⟩
  · exact hl
  · obtain ⟨r, hr, rfl⟩ := pass_ok hs
    obtain ⟨act, he⟩ := ice_stops hI (i := i) (a := a) hi ir dr 14
      ⟨rtp i, if peer then some (rtp i).rev else none, arrived st (rtp i) buf src, false⟩ (Or.inr hc)
    rw [show depth = 14 + 1 from rfl, he] at hr
    cases hr
    simp only
    split
    · rw [apply_iceq]; exact hl
    · rw [apply_drop]; exact hl

/-- **Completion.**  The gate of an agent opens only when its thread handles a STUN message, all pairs of the agent's
valid list (and there is one) are completed then, and the stream is made to send to the source of that message. -/
theorem C68_completion (st st' : St) (e : Ev) (b : Bool) (h : Reachable st) (hs : step st e = .ok (st', b)) (a : Nat)
    (h0 : st.completed a = false) (h1 : st'.completed a = true) :
    ∃ now flags replies it q, e = .iceWork now flags replies ∧ flags ≠ [] ∧ (∀ f ∈ flags, f = true) ∧
      st.iceQ = it :: q ∧ it.agent = a ∧ it.p.isStun = true ∧ it.s.rtcp = false ∧
      (st'.strm it.s).rem = some it.p.src ∧ (st'.strm it.s).mode = .forceOn := by
  have h := h.inv
  have hsame : st'.agents = st.agents → False := fun e => by
    simp only [St.completed] at h0 h1
    rw [e, h0] at h1; cases h1
  have hact : ∀ j, (agentOf st j).1.completed a = false := by
    intro j
    cases hj : st.ice j with
    | none =>
      rw [agentOf_none h.toInvM hj]
      simp only [activate, St.completed] at h0 ⊢
      by_cases hlt : a < st.agents.length
      · rw [List.getElem?_append_left hlt]; exact h0
      · rw [List.getElem?_append_right (by omega), List.getElem?_singleton]
        by_cases hz : a - st.agents.length = 0
        · rw [if_pos hz]
        · rw [if_neg hz]
    | some x => rw [agentOf_some h.toInvM hj]; exact h0
  cases e with
  | rx s now buf src chg peer ir dr =>
    have hs := (ok1_ok hs).1
    rcases rx_cases h.toInvM hs with ⟨_, rfl⟩ | ⟨_, _, _, hs⟩
    · exact absurd rfl hsame
    · obtain ⟨r, _, rfl⟩ := pass_ok hs
      exact absurd (applyAll_frame _ _ _ _).2.2.2.1 hsame
  | inject s now p cow rz chg dr =>
    obtain ⟨r, _, rfl⟩ := pass_ok (ok1_ok hs).1
    exact absurd (applyAll_frame _ _ _ _).2.2.2.1 hsame
  | iceWork now fl rs =>
    cases hs
    rcases iceWork_cases st now fl rs with ⟨_, e⟩ | ⟨it, q, hq, e | ⟨g, hg, hb, ⟨hgc, hfl, e⟩ | ⟨_, e⟩⟩⟩
    · exact absurd (by rw [e]) hsame
    · exact absurd (by rw [e]) hsame
    · have hit := h.qice it (by rw [hq]; exact List.mem_cons_self ..)
      have ha : it.agent = a := by
        rw [e] at h1
        simp only [St.completed] at h0 h1
        by_cases ha : it.agent = a
        · exact ha
        · rw [List.getElem?_set_ne ha, h0] at h1; cases h1
      simp only [isCompleted, Bool.and_eq_true, Bool.not_eq_true', List.all_eq_true, id_eq] at hfl
      refine ⟨now, fl, rs, it, q, rfl, ?_, hfl.2, hq, ha, hit.1, hit.2, ?_, ?_⟩
      · intro hn; rw [hn] at hfl; cases hfl.1
      · rw [e]; simp [upd, Latch.latch, Latch.fill1, Pkt.lat]
      · rw [e]; simp [upd, Latch.latch, Latch.fill1]
    · exact absurd (by rw [e]) hsame
  | dtlsWork now hk cr sends chg dr =>
    have hs := (ok1_ok hs).1
    rcases dtlsWork_cases hs with ⟨_, rfl⟩ | ⟨it, q, hq, hc⟩
    · exact absurd rfl hsame
    rcases hc with rfl | ⟨c, hdir, hc, rfl⟩ | ⟨c, b, hdir, hc, hu, rfl, hp⟩ | ⟨c, b, hdir, hc, hu, rfl, hl, hp⟩
    · exact absurd rfl hsame
    · exact absurd rfl hsame
    · obtain ⟨r, _, rfl⟩ := pass_ok hp
      exact absurd (applyAll_frame _ _ _ _).2.2.2.1 hsame
    · obtain ⟨r, _, rfl⟩ := pass_ok hp
      exact absurd (applyAll_frame _ _ _ _).2.2.2.1 hsame
  | iceStart j comp cand =>
    simp only [step] at hs
    have hj := hact j
    split at hs <;> cases hs
    · rw [hj] at h1; cases h1
    next g hg =>
      exfalso
      simp only [setAgent, St.completed] at h1 hj
      by_cases e : (agentOf st j).2 = a
      · have hlt := (List.getElem?_eq_some_iff.mp hg).1
        subst e
        rw [List.getElem?_set_self hlt] at h1
        rw [hg] at hj
        simp only [startAgent] at h1 hj
        split at h1 <;> simp_all
      · rw [List.getElem?_set_ne e, hj] at h1; cases h1
  | iceAuth j ok =>
    cases hs
    rw [hact j] at h1; cases h1
  | iceOff j =>
    rcases iceOff_spec h.toInvM j with ⟨_, h1⟩ | ⟨a, l1, l3, hi, h1, _⟩ <;> simp only [step] at hs <;> rw [h1] at hs <;>
      cases hs <;> exact absurd rfl hsame
  | dtlsOn j sp b' =>
    simp only [step, Except.ok.injEq] at hs
    cases hi : st.dtls j with
    | some m =>
      obtain ⟨c, hc, e⟩ := dtlsOn_some h.toInvM hi sp b'
      rw [e] at hs; cases hs
      exact absurd rfl hsame
    | none =>
      rw [dtlsOn_none h.toInvM hi] at hs
      split at hs <;> cases hs <;> exact absurd rfl hsame
  | dtlsOff j =>
    rcases dtlsOff_spec h.toInvM j with ⟨_, h1⟩ | ⟨m, c, l1, l2, hi, hc, h1, _⟩ <;> simp only [step] at hs <;>
      rw [h1] at hs <;> cases hs <;> exact absurd rfl hsame
  | reg s order n f =>
    simp only [step] at hs
    split at hs <;> cases hs <;> exact absurd rfl hsame
  | unreg s n =>
    simp only [step] at hs
    split at hs <;> cases hs <;> exact absurd rfl hsame
  | prefill s now a => cases hs; exact absurd rfl hsame
  | socket s x => cases hs; exact absurd rfl hsame

/-- What is in the queue of the ICE module was received: a STUN message, by the stream in question, from that source. -/
theorem C68_queue_is_received (es : List Ev) (st : St) (h : run init es = .ok st) (it : IItem) (hit : it ∈ st.iceQ) :
    it.p.isStun = true ∧
      ∃ now chg peer ir dr, Ev.rx it.s now it.p.buf it.p.src chg peer ir dr ∈ es := by
  refine ⟨((inv_run es inv_init h).qice it hit).1, ?_⟩
  suffices H : ∀ s0, Inv s0 → run s0 es = .ok st →
      it ∈ s0.iceQ ∨ ∃ now chg peer ir dr, Ev.rx it.s now it.p.buf it.p.src chg peer ir dr ∈ es by
    rcases H init inv_init h with h1 | h1
    · cases h1
    · exact h1
  clear h
  induction es with
  | nil => intro s0 _ h; cases h; exact Or.inl hit
  | cons e es ih =>
    intro s0 h0 h
    simp only [run] at h
    split at h
    · cases h
    next s1 b he =>
      rcases ih s1 (inv_step h0 he) h with h1 | ⟨n, c, p, i, d, h1⟩
      · have := iceQ_step h0 he h1
        rcases this with h2 | ⟨n, c, p, i, d, h2⟩
        · exact Or.inl h2
        · exact Or.inr ⟨n, c, p, i, d, by rw [h2]; exact List.mem_cons_self ..⟩
      · exact Or.inr ⟨n, c, p, i, d, List.mem_cons_of_mem _ h1⟩
where
  iceQ_step {st st' : St} {e : Ev} {b : Bool} {it : IItem} (h : Inv st) (hs : step st e = .ok (st', b))
      (hit : it ∈ st'.iceQ) :
      it ∈ st.iceQ ∨ ∃ now chg peer ir dr, e = Ev.rx it.s now it.p.buf it.p.src chg peer ir dr := by
    have hsame : st'.iceQ = st.iceQ → it ∈ st.iceQ := fun e => by rw [← e]; exact hit
    cases e with
    | rx s now buf src chg peer ir dr =>
      have hs := (ok1_ok hs).1
      rcases rx_cases h.toInvM hs with ⟨_, rfl⟩ | ⟨_, hI, hp, hs⟩
      · exact Or.inl (hsame rfl)
      · obtain ⟨_, ⟨n2, a2, b2⟩, _⟩ := pass_spec hI hp hs
        rw [a2] at hit
        rcases List.mem_append.mp hit with hit | hit
        · exact Or.inl hit
        · obtain ⟨_, e1, e2, _⟩ := b2 it hit
          right
          rw [e1, e2]
          exact ⟨_, _, _, _, _, rfl⟩
    | inject s now p cow rz chg dr =>
      obtain ⟨_, ⟨n2, a2, b2⟩, _⟩ := pass_spec h.toInvM (pre_inject s p cow rz) (ok1_ok hs).1
      rw [a2] at hit
      rcases List.mem_append.mp hit with hit | hit
      · exact Or.inl hit
      · obtain ⟨e1, _⟩ := b2 it hit
        exact absurd e1 (by cases rz <;> decide)
    | iceWork now fl rs =>
      cases hs
      left
      rcases iceWork_cases st now fl rs with ⟨_, e⟩ | ⟨it', q, hq, e | ⟨g, hg, hb, ⟨hgc, hfl, e⟩ | ⟨_, e⟩⟩⟩ <;>
        rw [e] at hit
      · exact hit
      all_goals rw [hq]; exact List.mem_cons_of_mem _ hit
    | dtlsWork now hk cr sends chg dr =>
      have hs := (ok1_ok hs).1
      left
      rcases dtlsWork_cases hs with ⟨_, rfl⟩ | ⟨it', q, hq, hc⟩
      · exact hit
      have hmem : it' ∈ st.dtlsQ := by rw [hq]; exact List.mem_cons_self ..
      have h0 := invM_q h.toInvM q
      rcases hc with rfl | ⟨c, hd, hc, rfl⟩ | ⟨c, b, hd, hc, hu, rfl, hp⟩ | ⟨c, b, hd, hc, hu, rfl, hl, hp⟩
      · exact hit
      · exact hit
      · obtain ⟨_, ⟨n2, a2, b2⟩, _⟩ := pass_spec h0 (pre_srtp h hmem hd b q) hp
        rw [a2] at hit
        rcases List.mem_append.mp hit with hit | hit
        · exact hit
        · exact absurd (b2 it hit).1 (by decide)
      · obtain ⟨_, ⟨n2, a2, b2⟩, _⟩ := pass_spec h0 (pre_out h hmem hd b q hc hu) hp
        rw [a2] at hit
        rcases List.mem_append.mp hit with hit | hit
        · exact hit
        · exact absurd (b2 it hit).1 (by decide)
    | iceStart j comp cand =>
      simp only [step] at hs
      have e1 := (agentOf_frame st j).2.2.2.1
      split at hs <;> cases hs <;> exact Or.inl (hsame e1)
    | iceAuth j ok =>
      cases hs
      exact Or.inl (hsame (agentOf_frame st j).2.2.2.1)
    | iceOff j =>
      rcases iceOff_spec h.toInvM j with ⟨_, h1⟩ | ⟨a, l1, l3, hi, h1, _⟩ <;> simp only [step] at hs <;> rw [h1] at hs <;>
        cases hs <;> exact Or.inl (hsame rfl)
    | dtlsOn j sp b' =>
      simp only [step, Except.ok.injEq] at hs
      cases hi : st.dtls j with
      | some m =>
        obtain ⟨c, hc, e⟩ := dtlsOn_some h.toInvM hi sp b'
        rw [e] at hs; cases hs
        exact Or.inl (hsame rfl)
      | none =>
        rw [dtlsOn_none h.toInvM hi] at hs
        split at hs <;> cases hs <;> exact Or.inl (hsame rfl)
    | dtlsOff j =>
      rcases dtlsOff_spec h.toInvM j with ⟨_, h1⟩ | ⟨m, c, l1, l2, hi, hc, h1, _⟩ <;> simp only [step] at hs <;>
        rw [h1] at hs <;> cases hs <;> exact Or.inl (hsame rfl)
    | reg s order n f =>
      simp only [step] at hs
      split at hs <;> cases hs <;> exact Or.inl (hsame rfl)
    | unreg s n =>
      simp only [step] at hs
      split at hs <;> cases hs <;> exact Or.inl (hsame rfl)
    | prefill s now a => cases hs; exact Or.inl (hsame rfl)
    | socket s x => cases hs; exact Or.inl (hsame rfl)

/-- **Switching off.**  `D` and `U` never abort, answer with success exactly if ICE was on, and leave no processor of
the module in the chains of that side; latching is back to normal; the other side is left alone. -/
theorem C68_off (st : St) (i : Bool) (h : Reachable st) :
    ∃ st', step st (.iceOff i) = .ok (st', (st.ice i).isSome) ∧ st'.ice i = none ∧ st'.ice (!i) = st.ice (!i) ∧
      (∀ p ∈ st'.mgr (rtp i), p.key ≠ .ice ∧ p.key ≠ .dmx) ∧ (∀ p ∈ st'.mgr (rtcp !i), p.key ≠ .mx) ∧
      (st.ice i ≠ none → (st'.strm (rtp i)).mode = .normal) := by
  have h := h.inv
  have hk : ∀ (l : List Proc) (k : Key), sel k l = [] → ∀ p ∈ l, p.key ≠ k := by
    intro l k hl p hp e
    have : p ∈ sel k l := mem_sel.mpr ⟨hp, e⟩
    rw [hl] at this; cases this
  rcases iceOff_spec h.toInvM i with ⟨h0, h1⟩ | ⟨a, l1, l3, hi, h1, _, p2, _, _, q2, q3, _⟩
  · refine ⟨st, by simp only [step]; rw [h1, h0]; rfl, h0, rfl, fun p hp => ⟨hk _ .ice ?_ p hp, hk _ .dmx ?_ p hp⟩,
      hk _ _ ?_, fun hn => absurd h0 hn⟩
    · rw [h.keys _ _ (by simp)]; simp [want, h0]
    · rw [h.keys _ _ (by simp)]; simp [want, h0]
    · rw [h.keys _ _ (by simp)]; simp [want, h0]
  · rw [show (st.ice i).isSome = true by rw [hi]; rfl]
    refine ⟨_, h1, by simp [upd], ?_, ?_, ?_, ?_⟩
    · have : (!i) ≠ i := by cases i <;> simp
      simp [upd_ne _ _ this]
    · simp only [upd_self]
      exact fun p hp => ⟨hk _ .ice q2 p hp, hk _ .dmx q3 p hp⟩
    · simp only [upd_ne _ _ (ne_rtcp_rtp (!i) i), upd_self]; exact hk _ _ p2
    · intro _; simp [upd]

/-! ### The address after completion -/

theorem locked_frame {st st' : St} {i : Bool} {a : Nat} {addr : Addr} (h : Locked st i a addr)
    (hi : st'.ice i = st.ice i) (hc : st'.completed a = true)
    (hs : (st'.strm (rtp i)).mode = (st.strm (rtp i)).mode ∧ (st'.strm (rtp i)).rem = (st.strm (rtp i)).rem ∧
      (st'.strm (rtp i)).latched = (st.strm (rtp i)).latched ∧ (st'.strm (rtp i)).asym = (st.strm (rtp i)).asym ∧
      (st'.strm (rtp i)).untrusted = (st.strm (rtp i)).untrusted)
    (hq : ∀ it ∈ st'.iceQ, it ∈ st.iceQ ∨ (it.s = rtp i → it.agent = a)) : Locked st' i a addr := by
  obtain ⟨h1, h2, h3, h4, h5⟩ := hs
  refine ⟨by rw [hi]; exact h.ice, hc, by rw [h1]; exact h.mode, by rw [h2]; exact h.rem, by rw [h3]; exact h.latched,
    by rw [h4]; exact h.symmetric, by rw [h5]; exact h.untrusted, ?_⟩
  intro it hit
  rcases hq it hit with h6 | h6
  · exact h.queue it h6
  · exact h6

theorem latchSync_frame (s : Latch.Strm) (now : Int) (p : Latch.Pkt) :
    (Latch.latchSync s now p).mode = s.mode ∧ (Latch.latchSync s now p).rem = s.rem ∧
    (Latch.latchSync s now p).latched = s.latched ∧ (Latch.latchSync s now p).asym = s.asym ∧
    (Latch.latchSync s now p).untrusted = s.untrusted := by
  simp only [Latch.latchSync]
  (repeat' split) <;> exact ⟨rfl, rfl, rfl, rfl, rfl⟩

/-- Nothing that arrives moves a locked stream. -/
theorem latchIn_locked {st : St} {i : Bool} {a : Nat} {addr : Addr} (h : Locked st i a addr) (s : Sid) (now : Int)
    (p : Pkt) :
    let f := (latchIn st s now p).1
    (f (rtp i)).mode = (st.strm (rtp i)).mode ∧ (f (rtp i)).rem = (st.strm (rtp i)).rem ∧
      (f (rtp i)).latched = (st.strm (rtp i)).latched ∧ (f (rtp i)).asym = (st.strm (rtp i)).asym ∧
      (f (rtp i)).untrusted = (st.strm (rtp i)).untrusted := by
  have hcomp : ∀ (f : Sid → Latch.Strm) (x : Latch.Strm) (c : Prop) [Decidable c],
      (if c then upd f (rtcp s.side) x else f) (rtp i) = f (rtp i) := by
    intro f x c _
    split
    · exact upd_ne _ _ (ne_rtp_rtcp _ _)
    · rfl
  simp only [latchIn, hcomp]
  by_cases hs : rtp i = s
  · subst hs
    rw [upd_self]
    have hne : (st.strm (rtp i)).mode ≠ .forceOff := by rw [h.mode]; simp
    have ho : Latch.override (st.strm (rtp i)) now p.lat = none := by
      simp only [Latch.override, h.mode]
      (repeat' split) <;> first | rfl | simp_all
    simp only [Latch.rx1, hne, if_false, h.rem, h.symmetric, h.latched, ho, Bool.false_eq_true, if_true]
    split
    · exact ⟨rfl, h.rem, h.latched, h.symmetric, rfl⟩
    · have := latchSync_frame (st.strm (rtp i)) now p.lat
      rw [h.rem, h.latched, h.symmetric] at this
      exact this
  · rw [upd_ne _ _ hs]; exact ⟨rfl, rfl, rfl, rfl, rfl⟩

theorem completed_set {st : St} {a k : Nat} {g g' : Agent} (h : st.completed a = true) (hk : st.agents[k]? = some g)
    (hg : g.completed = true → g'.completed = true) : (setAgent st k g').completed a = true := by
  simp only [St.completed, setAgent] at h ⊢
  by_cases e : k = a
  · subst e
    have hlt := (List.getElem?_eq_some_iff.mp hk).1
    rw [List.getElem?_set_self hlt]
    rw [hk] at h
    exact hg h
  · rw [List.getElem?_set_ne e]; exact h

theorem locked_pass {st st' : St} {i : Bool} {a : Nat} {addr : Addr} (h : Locked st i a addr) (hI : InvM st) {now : Int}
    {chg ir dr : Bool} {m : Sid} {c : Ctx} {n : Nat} (hp : Pre st m c n) (hs : pass st now chg ir dr m c n = .ok st') :
    Locked st' i a addr := by
  obtain ⟨_, ⟨n2, a2, b2⟩, _, _, b5, _, c2, _, c4, _⟩ := pass_spec hI hp hs
  refine locked_frame h (by rw [c2]) ?_ ?_ ?_
  · have := h.completed
    simp only [St.completed] at this ⊢
    rw [c4]; exact this
  · rw [(b5 (rtp i)).2.2 h.mode]; exact ⟨rfl, rfl, rfl, rfl, rfl⟩
  · intro it hit
    rw [a2] at hit
    rcases List.mem_append.mp hit with hit | hit
    · exact Or.inl hit
    · right
      intro hs
      obtain ⟨_, _, _, _, j, h1, h2⟩ := b2 it hit
      have : j = i := by rw [hs] at h1; simpa [rtp] using h1.symm
      subst this
      have := h.ice
      rw [h2] at this
      injection this

theorem locked_agentOf {st : St} {i : Bool} {a : Nat} {addr : Addr} (h : Locked st i a addr) (hI : InvM st) (j : Bool) :
    Locked (agentOf st j).1 i a addr := by
  cases hj : st.ice j with
  | some x => rw [agentOf_some hI hj]; exact h
  | none =>
    rw [agentOf_none hI hj]
    have hne : i ≠ j := by rintro rfl; rw [h.ice] at hj; cases hj
    have hne' : rtp i ≠ rtp j := by simp [rtp, hne]
    refine locked_frame h (upd_ne _ _ hne) ?_ ?_ (fun it hit => Or.inl hit)
    · have := h.completed
      simp only [St.completed, activate] at this ⊢
      have hlt : a < st.agents.length := hI.iceLt i a h.ice
      rw [List.getElem?_append_left hlt]; exact this
    · simp only [activate, upd_ne _ _ hne', and_self]

theorem locked_step {st st' : St} {i : Bool} {a : Nat} {addr : Addr} {e : Ev} {b : Bool} (h : Locked st i a addr)
    (hI : Inv st) (he : e ≠ .iceOff i) (hs : step st e = .ok (st', b)) : Locked st' i a addr := by
  have hsame : st'.ice = st.ice → st'.agents = st.agents → st'.strm = st.strm → st'.iceQ = st.iceQ →
      Locked st' i a addr := by
    intro e1 e2 e3 e4
    refine locked_frame h (by rw [e1]) ?_ (by rw [e3]; exact ⟨rfl, rfl, rfl, rfl, rfl⟩) (by rw [e4]; exact fun it h => Or.inl h)
    have := h.completed
    simp only [St.completed] at this ⊢
    rw [e2]; exact this
  cases e with
  | rx s now buf src chg peer ir dr =>
    have hs := (ok1_ok hs).1
    have hl : Locked { st with strm := (latchIn st s now (arrived st s buf src)).1 } i a addr :=
      locked_frame h rfl h.completed (latchIn_locked h s now _) (fun it h => Or.inl h)
    rcases rx_cases hI.toInvM hs with ⟨_, rfl⟩ | ⟨_, hi, hp, hs⟩
    · exact hl
    · exact locked_pass hl hi hp hs
  | inject s now p cow rz chg dr => exact locked_pass h hI.toInvM (pre_inject s p cow rz) (ok1_ok hs).1
  | iceWork now fl rs =>
    cases hs
    rcases iceWork_cases st now fl rs with ⟨_, e⟩ | ⟨it, q, hq, e | ⟨g, hg, hb, ⟨hgc, hfl, e⟩ | ⟨_, e⟩⟩⟩
    · rw [e]; exact h
    · rw [e]
      refine locked_frame h rfl h.completed ⟨rfl, rfl, rfl, rfl, rfl⟩ ?_
      intro x hx; exact Or.inl (by rw [hq]; exact List.mem_cons_of_mem _ hx)
    · rw [e]
      have hmem : it ∈ st.iceQ := by rw [hq]; exact List.mem_cons_self ..
      have hne : rtp i ≠ it.s := by
        intro hs
        have ha := h.queue it hmem hs.symm
        have := h.completed
        simp only [St.completed] at this
        rw [ha] at hg
        simp only [hg, hgc] at this
        cases this
      refine locked_frame h rfl ?_ ?_ ?_
      · exact completed_set (st := st) h.completed hg (fun _ => rfl)
      · simp only [upd_ne _ _ hne, and_self]
      · intro x hx; exact Or.inl (by rw [hq]; exact List.mem_cons_of_mem _ hx)
    · rw [e]
      refine locked_frame h rfl h.completed ⟨rfl, rfl, rfl, rfl, rfl⟩ ?_
      intro x hx; exact Or.inl (by rw [hq]; exact List.mem_cons_of_mem _ hx)
  | dtlsWork now hk cr sends chg dr =>
    have hs := (ok1_ok hs).1
    rcases dtlsWork_cases hs with ⟨_, rfl⟩ | ⟨it, q, hq, hc⟩
    · exact h
    have hmem : it ∈ st.dtlsQ := by rw [hq]; exact List.mem_cons_self ..
    have h0 := invM_q hI.toInvM q
    have hl : Locked { st with dtlsQ := q } i a addr :=
      locked_frame h rfl h.completed ⟨rfl, rfl, rfl, rfl, rfl⟩ (fun it h => Or.inl h)
    rcases hc with rfl | ⟨c, hd, hc, rfl⟩ | ⟨c, b, hd, hc, hu, rfl, hp⟩ | ⟨c, b, hd, hc, hu, rfl, _, hp⟩
    · exact hl
    · exact hsame rfl rfl rfl rfl
    · exact locked_pass hl h0 (pre_srtp hI hmem hd b q) hp
    · exact locked_pass hl h0 (pre_out hI hmem hd b q hc hu) hp
  | iceStart j comp cand =>
    simp only [step] at hs
    have hj := locked_agentOf h hI.toInvM j
    split at hs <;> cases hs
    · exact hj
    next g hg =>
      refine locked_frame hj rfl (completed_set hj.completed hg ?_) ⟨rfl, rfl, rfl, rfl, rfl⟩ (fun it h => Or.inl h)
      intro hgc
      simp only [startAgent]
      split
      · exact hgc
      · exact hgc
  | iceAuth j ok =>
    cases hs
    exact locked_agentOf h hI.toInvM j
  | iceOff j =>
    have hne : i ≠ j := by rintro rfl; exact he rfl
    have hne' : rtp i ≠ rtp j := by simp [rtp, hne]
    rcases iceOff_spec hI.toInvM j with ⟨_, h1⟩ | ⟨x, l1, l3, hi, h1, _⟩ <;> simp only [step] at hs <;> rw [h1] at hs <;>
      cases hs
    · exact h
    · refine locked_frame h (upd_ne _ _ hne) h.completed ?_ (fun it h => Or.inl h)
      simp only [upd_ne _ _ hne', and_self]
  | dtlsOn j sp b' =>
    simp only [step, Except.ok.injEq] at hs
    cases hi : st.dtls j with
    | some m =>
      obtain ⟨c, hc, e⟩ := dtlsOn_some hI.toInvM hi sp b'
      rw [e] at hs; cases hs
      exact hsame rfl rfl rfl rfl
    | none =>
      rw [dtlsOn_none hI.toInvM hi] at hs
      split at hs <;> cases hs <;> exact hsame rfl rfl rfl rfl
  | dtlsOff j =>
    rcases dtlsOff_spec hI.toInvM j with ⟨_, h1⟩ | ⟨m, c, l1, l2, hi, hc, h1, _⟩ <;> simp only [step] at hs <;>
      rw [h1] at hs <;> cases hs <;> exact hsame rfl rfl rfl rfl
  | reg s order n f =>
    simp only [step] at hs
    split at hs <;> cases hs <;> exact hsame rfl rfl rfl rfl
  | unreg s n =>
    simp only [step] at hs
    split at hs <;> cases hs <;> exact hsame rfl rfl rfl rfl
  | prefill s now x =>
    cases hs
    refine locked_frame h rfl h.completed ?_ (fun it h => Or.inl h)
    by_cases hs : rtp i = s
    · subst hs
      simp only [upd_self, Latch.prefill]
      have hu : (if (st.strm (rtp i)).rem ≠ none then { st.strm (rtp i) with lastUpdate := now } else st.strm (rtp i))
          = { st.strm (rtp i) with lastUpdate := now } := by rw [if_pos (by rw [h.rem]; simp)]
      rw [hu]
      simp only [h.untrusted, if_true, and_self]
    · simp only [upd_ne _ _ hs, and_self]
  | socket s x => cases hs; exact hsame rfl rfl rfl rfl

/-- **The address stays.**  Once the stream is locked to the address that the checks settled, neither media from
elsewhere, nor signalling, nor further STUN messages change where its media goes, until ICE is switched off for that
side.  Full claim: completion always locks the stream.  Missing: it does not if the address was that of the stream
before signalling moved it (`C68_not_locked_counterexample`), and messages for an earlier agent of the stream are
still handled (`C68_stale_message_counterexample`). -/
theorem C68_address_stays_partial (es : List Ev) (st st' : St) (i : Bool) (a : Nat) (addr : Addr) (h : Reachable st)
    (hl : Locked st i a addr) (he : ∀ e ∈ es, e ≠ .iceOff i) (hs : run st es = .ok st') :
    (st'.strm (rtp i)).rem = some addr := by
  suffices H : ∀ s0, Inv s0 → Locked s0 i a addr → run s0 es = .ok st' → Locked st' i a addr from
    (H st h.inv hl hs).rem
  clear hs hl
  induction es with
  | nil => intro s0 _ hl hs; cases hs; exact hl
  | cons e es ih =>
    intro s0 h0 hl hs
    simp only [run] at hs
    split at hs
    · cases hs
    next s b hst =>
      exact ih (fun x hx => he x (List.mem_cons_of_mem _ hx)) s (inv_step h0 hst)
        (locked_step hl h0 (he e (List.mem_cons_self ..)) hst) hs

/-- Completion locks a symmetric stream, provided the address is not the one that the stream had before signalling
moved it, and the module's queue has no messages for earlier agents. -/
theorem C68_completion_locks_partial (st st' : St) (e : Ev) (b : Bool) (i : Bool) (a : Nat) (h : Reachable st)
    (hs : step st e = .ok (st', b)) (h0 : st.completed a = false) (h1 : st'.completed a = true) (hi : st.ice i = some a)
    (hq : ∀ it ∈ st.iceQ, it.s = rtp i ↔ it.agent = a) (hsym : (st.strm (rtp i)).asym = false)
    (hp : ∀ it ∈ st.iceQ, (st.strm (rtp i)).prev ≠ some it.p.src) :
    ∃ it ∈ st.iceQ, it.p.isStun = true ∧ Locked st' i a it.p.src := by
  obtain ⟨now, fl, rs, it, q, rfl, hf1, hf2, hqq, ha, hst, _, hr, hm⟩ := C68_completion st st' e b h hs a h0 h1
  have hmem : it ∈ st.iceQ := by rw [hqq]; exact List.mem_cons_self ..
  have hsi : it.s = rtp i := (hq it hmem).mpr ha
  refine ⟨it, hmem, hst, ?_⟩
  cases hs
  have hfl : isCompleted fl = true := by
    simp only [isCompleted, Bool.and_eq_true, Bool.not_eq_true', List.all_eq_true, id_eq]
    refine ⟨?_, hf2⟩
    cases fl with
    | nil => exact absurd rfl hf1
    | cons x xs => rfl
  rw [hsi] at hr hm
  rcases iceWork_cases st now fl rs with ⟨h2, _⟩ | ⟨it', q', hq', e | ⟨g, hg, hb, ⟨hgc, _, e⟩ | ⟨hn, e⟩⟩⟩
  · rw [hqq] at h2; cases h2
  · rw [e] at h1; simp only [St.completed] at h0 h1; rw [h0] at h1; cases h1
  · rw [hqq] at hq'
    injection hq' with e1 e2
    subst e1 e2
    refine ⟨by rw [e]; exact hi, h1, hm, hr, ?_, ?_, ?_, ?_⟩
    · rw [e, hsi]
      simp only [upd_self, Latch.latch, if_true, Latch.fill1]
      exact if_pos (Or.inr (hp it hmem))
    · rw [e, hsi]; simp only [upd_self, Latch.latch, if_true, Latch.fill1]; exact hsym
    · rw [e, hsi]; simp only [upd_self, Latch.latch, if_true, Latch.fill1]
    · intro x hx hxs
      rw [e] at hx
      exact (hq x (by rw [hqq]; exact List.mem_cons_of_mem _ hx)).mp hxs
  · exfalso
    rw [e] at h1
    simp only [St.completed] at h0 h1
    rw [h0] at h1; cases h1

end Verif.Plane
