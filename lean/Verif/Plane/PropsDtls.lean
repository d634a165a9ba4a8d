import Verif.Plane.Own

/-! # C69: media of a stream under DTLS -/

namespace Verif.Plane

open Verif.Latch (Addr)

theorem dtls_next {st st' : St} {e : Ev} {b : Bool} (h : Inv st) (hs : step st e = .ok (st', b)) (i : Bool) :
    (st'.dtls i).isSome = dtlsNext i (st.dtls i).isSome (e, b) := by
  cases e with
  | rx s now buf src chg peer ir dr =>
    have hs := (ok1_ok hs).1
    rcases rx_cases h.toInvM hs with ⟨_, rfl⟩ | ⟨_, hi, hp, hs⟩
    · rfl
    · obtain ⟨_, _, _, _, _, _, _, h3, _⟩ := pass_spec hi hp hs
      rw [h3]; rfl
  | inject s now p cow rz chg dr =>
    obtain ⟨_, _, _, _, _, _, _, h3, _⟩ := pass_spec h.toInvM (pre_inject s p cow rz) (ok1_ok hs).1
    rw [h3]; rfl
  | iceWork now fl rs =>
    cases hs
    have : (iceWork st now fl rs).dtls = st.dtls := by
      simp only [iceWork]
      (repeat' split) <;> rfl
    rw [this]; rfl
  | dtlsWork now x cr sends chg dr =>
    have hs := (ok1_ok hs).1
    rcases dtlsWork_cases hs with ⟨_, rfl⟩ | ⟨it, q, hq, hc⟩
    · rfl
    have hmem : it ∈ st.dtlsQ := by rw [hq]; exact List.mem_cons_self ..
    have h0 := invM_q h.toInvM q
    rcases hc with rfl | ⟨c, hd, hc, rfl⟩ | ⟨c, b, hd, hc, hu, rfl, hp⟩ | ⟨c, b, hd, hc, hu, rfl, hl, hp⟩
    · rfl
    · rfl
    · obtain ⟨_, _, _, _, _, _, _, h3, _⟩ := pass_spec h0 (pre_srtp h hmem hd b q) hp
      rw [h3]; rfl
    · obtain ⟨_, _, _, _, _, _, _, h3, _⟩ := pass_spec h0 (pre_out h hmem hd b q hc hu) hp
      rw [h3]; rfl
  | iceStart j comp cand =>
    simp only [step] at hs
    have e1 := (agentOf_frame st j).1
    split at hs <;> cases hs
    · rw [e1]; rfl
    · simp only [setAgent]; rw [e1]; rfl
  | iceAuth j ok =>
    cases hs
    rw [(agentOf_frame st j).1]; rfl
  | iceOff j =>
    rcases iceOff_spec h.toInvM j with ⟨_, h1⟩ | ⟨a, l1, l3, hi, h1, _⟩ <;> simp only [step] at hs <;> rw [h1] at hs <;>
      cases hs <;> rfl
  | dtlsOn j sp b' =>
    simp only [step, Except.ok.injEq] at hs
    cases hi : st.dtls j with
    | some n =>
      obtain ⟨c, hc, e⟩ := dtlsOn_some h.toInvM hi sp b'
      rw [e] at hs
      have hd : st'.dtls = st.dtls := by cases hs; rfl
      rw [hd]
      cases b <;> simp only [dtlsNext]
      split
      · subst_vars; rw [hi]; rfl
      · rfl
    | none =>
      rw [dtlsOn_none h.toInvM hi] at hs
      split at hs
      · cases hs
        simp only [dtlsNext]
        by_cases e : i = j
        · subst e; simp [upd]
        · simp [upd_ne _ _ e, Ne.symm e]
      · cases hs; rfl
  | dtlsOff j =>
    rcases dtlsOff_spec h.toInvM j with ⟨_, h1⟩ | ⟨n, c, l1, l2, hi, hc, h1, _⟩ <;> simp only [step] at hs <;>
      rw [h1] at hs <;> cases hs
    · rfl
    · simp only [dtlsNext]
      by_cases e : i = j
      · subst e; simp [upd]
      · simp [upd_ne _ _ e, Ne.symm e]
  | reg s order n f =>
    simp only [step] at hs
    split at hs <;> cases hs <;> rfl
  | unreg s n =>
    simp only [step] at hs
    split at hs <;> cases hs <;> rfl
  | prefill s now a => cases hs; rfl
  | socket s x => cases hs; rfl

/-- A connection is in charge of the RTP stream of a side exactly when, by the commands and their replies, DTLS is on
for it. -/
theorem C69_in_charge (es : List Ev) (st : St) (tr : List (Ev × Bool)) (h : runT init es = .ok (st, tr)) (i : Bool) :
    (st.dtls i).isSome = dtlsIs i tr := by
  suffices H : ∀ (s0 : St), Inv s0 → ∀ st tr, runT s0 es = .ok (st, tr) →
      (st.dtls i).isSome = tr.foldl (dtlsNext i) (s0.dtls i).isSome from H init inv_init st tr h
  clear h
  induction es with
  | nil => intro s0 _ st tr h; cases h; rfl
  | cons e es ih =>
    intro s0 h0 st tr h
    simp only [runT] at h
    split at h
    · cases h
    next s1 b he =>
      split at h
      · cases h
      next s2 t ht =>
        cases h
        rw [List.foldl_cons, ← dtls_next h0 he]
        exact ih s1 (inv_step h0 he) _ _ ht

/-- **No media in the clear.**  While a DTLS connection is in charge of the RTP stream of a side, the only packets
relayed to that side by it are outputs of `srtp_protect` of that connection, after its handshake; this covers the
media of the other side, players, copies of other sessions and multiplexed RTCP. -/
theorem C69_no_media_in_the_clear (st st' : St) (e : Ev) (b : Bool) (h : Reachable st)
    (hs : step st e = .ok (st', b)) (i : Bool) (n : Nat) (hd : st.dtls i = some n) :
    ∃ new, st'.log = st.log ++ new ∧ ∀ x ∈ new, x.to = rtp i → x.who = .relay →
      ∃ now hk buf sends chg dr, e = .dtlsWork now hk (some buf) sends chg dr ∧ x.pkt.buf = buf ∧
        x.dst = (st.strm (rtp i)).rem ∧ IsUp st n := by
  have h := h.inv
  have hsame : st'.log = st.log → ∃ new, st'.log = st.log ++ new ∧ ∀ x ∈ new, x.to = rtp i → x.who = .relay →
      ∃ now hk buf sends chg dr, e = .dtlsWork now hk (some buf) sends chg dr ∧ x.pkt.buf = buf ∧
        x.dst = (st.strm (rtp i)).rem ∧ IsUp st n := fun e => ⟨[], by simp [e], by simp⟩
  cases e with
  | rx s now buf src chg peer ir dr =>
    have hs := (ok1_ok hs).1
    rcases rx_cases h.toInvM hs with ⟨_, rfl⟩ | ⟨_, hi, hp, hs⟩
    · exact hsame rfl
    · obtain ⟨⟨new, h1, h2⟩, _⟩ := pass_spec hi hp hs
      refine ⟨new, h1, fun x hx ht _ => ?_⟩
      obtain ⟨_, _, h3, _, h4⟩ := h2 x hx
      have := h4 i n ht hd
      rw [h3] at this; cases this
  | inject s now p cow rz chg dr =>
    obtain ⟨⟨new, h1, h2⟩, _⟩ := pass_spec h.toInvM (pre_inject s p cow rz) (ok1_ok hs).1
    refine ⟨new, h1, fun x hx ht _ => ?_⟩
    obtain ⟨_, _, h3, _, h4⟩ := h2 x hx
    have := h4 i n ht hd
    rw [h3] at this; cases this
  | iceWork now fl rs =>
    cases hs
    have : ∃ new, (iceWork st now fl rs).log = st.log ++ new ∧ ∀ x ∈ new, ∃ a, x.who = .stun a := by
      rcases iceWork_cases st now fl rs with ⟨_, e⟩ | ⟨it, q, _, e | ⟨g, _, _, ⟨_, _, e⟩ | ⟨_, e⟩⟩⟩ <;> rw [e]
      · exact ⟨[], by simp⟩
      · exact ⟨[], by simp⟩
      · exact ⟨_, rfl, fun x hx => ⟨_, stunOut_who hx⟩⟩
      · exact ⟨_, rfl, fun x hx => ⟨_, stunOut_who hx⟩⟩
    obtain ⟨new, h1, h2⟩ := this
    refine ⟨new, h1, fun x hx _ hw => ?_⟩
    obtain ⟨a, ha⟩ := h2 x hx
    rw [ha] at hw; cases hw
  | dtlsWork now hk cr sends chg dr =>
    have hs := (ok1_ok hs).1
    rcases dtlsWork_cases hs with ⟨_, rfl⟩ | ⟨it, q, hq, hc⟩
    · exact hsame rfl
    have hmem : it ∈ st.dtlsQ := by rw [hq]; exact List.mem_cons_self ..
    have h0 := invM_q h.toInvM q
    rcases hc with rfl | ⟨c, hdir, hc, rfl⟩ | ⟨c, b, hdir, hc, hu, rfl, hp⟩ | ⟨c, b, hdir, hc, hu, rfl, hl, hp⟩
    · exact hsame rfl
    · refine ⟨_, rfl, fun x hx _ hw => ?_⟩
      obtain ⟨r, _, rfl⟩ := List.mem_map.mp hx
      cases hw
    · obtain ⟨⟨new, h1, h2⟩, _⟩ := pass_spec h0 (pre_srtp h hmem hdir b q) hp
      refine ⟨new, h1, fun x hx ht _ => ?_⟩
      obtain ⟨_, _, h3, _, h4⟩ := h2 x hx
      have := h4 i n ht hd
      rw [h3] at this; cases this
    · obtain ⟨⟨new, h1, h2⟩, _⟩ := pass_spec h0 (pre_out h hmem hdir b q hc hu) hp
      refine ⟨new, h1, fun x hx ht _ => ?_⟩
      obtain ⟨_, h5, h3, _, h4⟩ := h2 x hx
      have h6 := h4 i n ht hd
      rw [h3] at h6
      injection h6 with h6
      rw [h6] at hc
      exact ⟨_, _, _, _, _, _, rfl, by rw [h3], by rw [h5, ht], c, hc, hu⟩
  | iceStart j comp cand =>
    simp only [step] at hs
    have e1 := (agentOf_frame st j).2.2.2.2.2.1
    split at hs <;> cases hs <;> exact hsame e1
  | iceAuth j ok =>
    cases hs
    exact hsame (agentOf_frame st j).2.2.2.2.2.1
  | iceOff j =>
    rcases iceOff_spec h.toInvM j with ⟨_, h1⟩ | ⟨a, l1, l3, hi, h1, _⟩ <;> simp only [step] at hs <;> rw [h1] at hs <;>
      cases hs <;> exact hsame rfl
  | dtlsOn j sp b' =>
    simp only [step, Except.ok.injEq] at hs
    cases hi : st.dtls j with
    | some n =>
      obtain ⟨c, hc, e⟩ := dtlsOn_some h.toInvM hi sp b'
      rw [e] at hs; cases hs; exact hsame rfl
    | none =>
      rw [dtlsOn_none h.toInvM hi] at hs
      split at hs <;> cases hs <;> exact hsame rfl
  | dtlsOff j =>
    rcases dtlsOff_spec h.toInvM j with ⟨_, h1⟩ | ⟨n, c, l1, l2, hi, hc, h1, _⟩ <;> simp only [step] at hs <;>
      rw [h1] at hs <;> cases hs <;> exact hsame rfl
  | reg s order n f =>
    simp only [step] at hs
    split at hs <;> cases hs <;> exact hsame rfl
  | unreg s n =>
    simp only [step] at hs
    split at hs <;> cases hs <;> exact hsame rfl
  | prefill s now a => cases hs; exact hsame rfl
  | socket s x => cases hs; exact hsame rfl

/-- **Nothing unverified is used.**  A datagram that arrives at a stream in the charge of a DTLS connection is neither
relayed nor shown to any other processor (recorder, analyser, copies, DTMF) before the connection has seen it. -/
theorem C69_datagrams_wait (st st' : St) (s : Sid) (now : Int) (buf : List UInt8) (src : Addr)
    (chg peer ir dr b : Bool) (h : Reachable st) (hr : s.rtcp = false) (n : Nat) (hd : st.dtls s.side = some n)
    (hs : step st (.rx s now buf src chg peer ir dr) = .ok (st', b)) :
    st'.log = st.log ∧ st'.seen = st.seen := by
  have h := h.inv
  have hs := (ok1_ok hs).1
  rcases rx_cases h.toInvM hs with ⟨_, rfl⟩ | ⟨_, hi, hp, hs⟩
  · exact ⟨rfl, rfl⟩
  · obtain ⟨⟨n1, a1, b1⟩, _, _, ⟨n4, a4, b4⟩, _⟩ := pass_spec hi hp hs
    have hnot : ¬ okneed (arrived st s buf src) := by
      simp [okneed, arrived, hr, hd]
    have e1 : n1 = [] := List.eq_nil_iff_forall_not_mem.mpr fun x hx => by
      obtain ⟨_, _, h3, h4, _⟩ := b1 x hx
      rw [h3] at h4; exact hnot h4
    have e4 : n4 = [] := List.eq_nil_iff_forall_not_mem.mpr fun x hx => by
      obtain ⟨h3, h4⟩ := b4 x hx
      rw [h3] at h4; exact hnot h4
    rw [a1, a4, e1, e4]; simp

/-- The thread of the module relays or shows only what the connection of the item has verified or protected, and only
after the handshake. -/
theorem C69_thread_output (st st' : St) (now : Int) (hk : Hs) (cr : Option (List UInt8)) (sends : List (List UInt8))
    (chg dr b : Bool) (h : Reachable st) (hs : step st (.dtlsWork now hk cr sends chg dr) = .ok (st', b)) :
    ∃ nl ns, st'.log = st.log ++ nl ∧ st'.seen = st.seen ++ ns ∧
      ((∀ x ∈ nl, ∃ k, x.who = .hs k) ∧ ns = [] ∨
       ∃ it q buf, st.dtlsQ = it :: q ∧ it.dir ≠ .dtls ∧ cr = some buf ∧ IsUp st it.conn ∧
         (∀ x ∈ nl, x.who = .relay ∧ x.pkt.buf = buf) ∧ ∀ p ∈ ns, p.buf = buf) := by
  have h := h.inv
  have hs := (ok1_ok hs).1
  rcases dtlsWork_cases hs with ⟨_, rfl⟩ | ⟨it, q, hq, hc⟩
  · exact ⟨[], [], by simp, by simp, Or.inl ⟨by simp, rfl⟩⟩
  have hmem : it ∈ st.dtlsQ := by rw [hq]; exact List.mem_cons_self ..
  have h0 := invM_q h.toInvM q
  rcases hc with rfl | ⟨c, hdir, hc, rfl⟩ | ⟨c, b, hdir, hc, hu, rfl, hp⟩ | ⟨c, b, hdir, hc, hu, rfl, hl, hp⟩
  · exact ⟨[], [], by simp, by simp, Or.inl ⟨by simp, rfl⟩⟩
  · refine ⟨_, [], rfl, by simp [setConn], Or.inl ⟨fun x hx => ?_, rfl⟩⟩
    obtain ⟨r, _, rfl⟩ := List.mem_map.mp hx
    exact ⟨_, rfl⟩
  · obtain ⟨⟨n1, a1, b1⟩, _, _, ⟨n4, a4, b4⟩, _⟩ := pass_spec h0 (pre_srtp h hmem hdir b q) hp
    refine ⟨n1, n4, a1, a4, Or.inr ⟨it, q, b, hq, by simp [hdir], rfl, ⟨c, hc, hu⟩, ?_, ?_⟩⟩
    · intro x hx; obtain ⟨h1, _, h3, _⟩ := b1 x hx; exact ⟨h1, by rw [h3]⟩
    · intro x hx; rw [(b4 x hx).1]
  · obtain ⟨⟨n1, a1, b1⟩, _, _, ⟨n4, a4, b4⟩, _⟩ := pass_spec h0 (pre_out h hmem hdir b q hc hu) hp
    refine ⟨n1, n4, a1, a4, Or.inr ⟨it, q, b, hq, by simp [hdir], rfl, ⟨c, hc, hu⟩, ?_, ?_⟩⟩
    · intro x hx; obtain ⟨h1, _, h3, _⟩ := b1 x hx; exact ⟨h1, by rw [h3]⟩
    · intro x hx; rw [(b4 x hx).1]

/-- Over whole executions: every packet relayed, or shown to another processor, that arrived while a connection was in
charge of the stream it came in by has been verified by that very connection. -/
theorem C69_verified_by_the_right_connection (st : St) (h : Reachable st) :
    (∀ x ∈ st.log, x.who = .relay → ∀ n, x.pkt.need = some n → x.pkt.openedBy = some n) ∧
    (∀ p ∈ st.seen, ∀ n, p.need = some n → p.openedBy = some n) := by
  have h := h.inv
  constructor
  · intro x hx hw n hn
    rcases h.logOk x hx hw with h1 | h1
    · rw [hn] at h1; cases h1
    · rw [h1, hn]
  · intro p hp n hn
    rcases h.seenOk p hp with h1 | h1
    · rw [hn] at h1; cases h1
    · rw [h1, hn]

theorem dtlsRecv_up {c : Conn} {h : Hs} (hu : (dtlsRecv c h).st = .up) :
    c.st = .up ∨ (c.st ≠ .dead ∧ h.bio = true ∧ h.okBefore = false ∧ h.stepOk = true ∧ h.okAfter = true ∧
      h.keysOk = true ∧ h.srtpOk = true ∧ ∃ f, h.peer = some f ∧ (c.fp = none ∨ c.fp = some f)) := by
  simp only [dtlsRecv] at hu
  split at hu
  next hd => rw [hd] at hu; cases hu
  next hd =>
    by_cases hup : c.st = .up
    · exact Or.inl hup
    · right
      have e1 : ∀ c' : Conn, (if c.st = .init then { c with st := CSt.connecting } else c) = c' →
          c'.st ≠ .up ∧ c'.fp = c.fp := by
        rintro _ rfl
        split
        · exact ⟨by simp, rfl⟩
        · exact ⟨hup, rfl⟩
      generalize (if c.st = .init then { c with st := CSt.connecting } else c) = c' at hu e1
      obtain ⟨e2, e3⟩ := e1 c' rfl
      (repeat' split at hu) <;> first
        | exact absurd hu e2
        | (cases hu; done)
        | grind

theorem setmode_up {c : Conn} {sp : Option Peer} {b : Bool} (hu : (setmode c sp b).1.st = .up) : c.st = .up := by
  simp only [setmode] at hu
  (repeat' split at hu) <;> first
    | exact hu
    | exact absurd hu (by simp)

/-- **Who is let in.**  A connection comes up only in a step of its handshake in which everything succeeded, and with a
peer whose certificate has the fingerprint given by signalling, if one was given by then.  Full claim: one is always
required.  Missing: without a recorded fingerprint any peer is accepted (`C69_any_peer_counterexample`), and a
fingerprint that is recorded later is not compared (`C69_late_fingerprint_counterexample`). -/
theorem C69_peer_fingerprint_partial (st st' : St) (e : Ev) (b : Bool) (h : Reachable st)
    (hs : step st e = .ok (st', b)) (n : Nat) (hu : IsUp st' n) (hn : ¬ IsUp st n) :
    ∃ now hk cr sends chg dr c f, e = .dtlsWork now hk cr sends chg dr ∧ st.conns[n]? = some c ∧ c.st ≠ .dead ∧
      hk.okAfter = true ∧ hk.keysOk = true ∧ hk.srtpOk = true ∧ hk.peer = some f ∧ (c.fp = none ∨ c.fp = some f) := by
  have h := h.inv
  have hsame : st'.conns = st.conns → False := fun e => hn (by obtain ⟨c, h1, h2⟩ := hu; exact ⟨c, by rw [← e]; exact h1, h2⟩)
  cases e with
  | rx s now buf src chg peer ir dr =>
    have hs := (ok1_ok hs).1
    rcases rx_cases h.toInvM hs with ⟨_, rfl⟩ | ⟨_, _, _, hs⟩
    · exact absurd rfl hsame
    · obtain ⟨r, _, rfl⟩ := pass_ok hs
      exact absurd (applyAll_frame _ _ _ _).2.2.2.2.1 hsame
  | inject s now p cow rz chg dr =>
    obtain ⟨r, _, rfl⟩ := pass_ok (ok1_ok hs).1
    exact absurd (applyAll_frame _ _ _ _).2.2.2.2.1 hsame
  | iceWork now fl rs =>
    cases hs
    refine absurd ?_ hsame
    simp only [iceWork]
    (repeat' split) <;> rfl
  | dtlsWork now hk cr sends chg dr =>
    have hs := (ok1_ok hs).1
    rcases dtlsWork_cases hs with ⟨_, rfl⟩ | ⟨it, q, hq, hc⟩
    · exact absurd rfl hsame
    rcases hc with rfl | ⟨c, hdir, hc, rfl⟩ | ⟨c, b, hdir, hc, hu, rfl, hp⟩ | ⟨c, b, hdir, hc, hu, rfl, hl, hp⟩
    · exact absurd rfl hsame
    · obtain ⟨c', h1, h2⟩ := hu
      simp only [setConn, List.getElem?_set] at h1
      split at h1
      next e =>
        subst e
        split at h1
        · cases h1
          rcases dtlsRecv_up h2 with h3 | ⟨h3, _, _, _, h4, h5, h6, f, h7, h8⟩
          · exact absurd ⟨c, hc, h3⟩ hn
          · exact ⟨_, _, _, _, _, _, c, f, rfl, hc, h3, h4, h5, h6, h7, h8⟩
        · cases h1
      · exact absurd ⟨c', h1, h2⟩ hn
    · obtain ⟨r, _, rfl⟩ := pass_ok hp
      exact absurd (applyAll_frame _ _ _ _).2.2.2.2.1 hsame
    · obtain ⟨r, _, rfl⟩ := pass_ok hp
      exact absurd (applyAll_frame _ _ _ _).2.2.2.2.1 hsame
  | iceStart j comp cand =>
    simp only [step] at hs
    have e1 := (agentOf_frame st j).2.1
    split at hs <;> cases hs <;> exact absurd e1 hsame
  | iceAuth j ok =>
    cases hs
    exact absurd (agentOf_frame st j).2.1 hsame
  | iceOff j =>
    rcases iceOff_spec h.toInvM j with ⟨_, h1⟩ | ⟨a, l1, l3, hi, h1, _⟩ <;> simp only [step] at hs <;> rw [h1] at hs <;>
      cases hs <;> exact absurd rfl hsame
  | dtlsOn j sp b' =>
    simp only [step, Except.ok.injEq] at hs
    cases hi : st.dtls j with
    | some m =>
      obtain ⟨c, hc, e⟩ := dtlsOn_some h.toInvM hi sp b'
      rw [e] at hs; cases hs
      obtain ⟨c', h1, h2⟩ := hu
      simp only [setConn, List.getElem?_set] at h1
      split at h1
      next e =>
        subst e
        split at h1
        · cases h1; exact absurd ⟨c, hc, setmode_up h2⟩ hn
        · cases h1
      · exact absurd ⟨c', h1, h2⟩ hn
    | none =>
      rw [dtlsOn_none h.toInvM hi] at hs
      split at hs
      · cases hs
        obtain ⟨c', h1, h2⟩ := hu
        simp only [List.getElem?_append] at h1
        split at h1
        · exact absurd ⟨c', h1, h2⟩ hn
        · rw [List.getElem?_singleton] at h1
          split at h1
          · cases h1; have := setmode_up h2; cases this
          · cases h1
      · cases hs; exact absurd rfl hsame
  | dtlsOff j =>
    rcases dtlsOff_spec h.toInvM j with ⟨_, h1⟩ | ⟨m, c, l1, l2, hi, hc, h1, _⟩ <;> simp only [step] at hs <;>
      rw [h1] at hs <;> cases hs
    · exact absurd rfl hsame
    · obtain ⟨c', h1, h2⟩ := hu
      simp only [List.getElem?_set] at h1
      split at h1
      · split at h1
        · cases h1; cases h2
        · cases h1
      · exact absurd ⟨c', h1, h2⟩ hn
  | reg s order n f =>
    simp only [step] at hs
    split at hs <;> cases hs <;> exact absurd rfl hsame
  | unreg s n =>
    simp only [step] at hs
    split at hs <;> cases hs <;> exact absurd rfl hsame
  | prefill s now a => cases hs; exact absurd rfl hsame
  | socket s x => cases hs; exact absurd rfl hsame

theorem dead_step {st st' : St} {e : Ev} {b : Bool} {n : Nat} (h : Inv st) (hs : step st e = .ok (st', b))
    (hd : Dead st n) : Dead st' n := by
  have hsame : st'.conns = st.conns → Dead st' n := fun e => by
    obtain ⟨c, h1, h2⟩ := hd
    exact ⟨c, by rw [e]; exact h1, h2⟩
  cases e with
  | rx s now buf src chg peer ir dr =>
    have hs := (ok1_ok hs).1
    rcases rx_cases h.toInvM hs with ⟨_, rfl⟩ | ⟨_, _, _, hs⟩
    · exact hsame rfl
    · obtain ⟨r, _, rfl⟩ := pass_ok hs
      exact hsame (applyAll_frame _ _ _ _).2.2.2.2.1
  | inject s now p cow rz chg dr =>
    obtain ⟨r, _, rfl⟩ := pass_ok (ok1_ok hs).1
    exact hsame (applyAll_frame _ _ _ _).2.2.2.2.1
  | iceWork now fl rs =>
    cases hs
    refine hsame ?_
    simp only [iceWork]
    (repeat' split) <;> rfl
  | dtlsWork now hk cr sends chg dr =>
    have hs := (ok1_ok hs).1
    rcases dtlsWork_cases hs with ⟨_, rfl⟩ | ⟨it, q, hq, hc⟩
    · exact hd
    rcases hc with rfl | ⟨c, hdir, hc, rfl⟩ | ⟨c, b, hdir, hc, hu, rfl, hp⟩ | ⟨c, b, hdir, hc, hu, rfl, hl, hp⟩
    · exact hsame rfl
    · exact dead_setConn (st := st) hc (fun hd => by rw [dtlsRecv_dead hd]; exact hd) hd
    · obtain ⟨r, _, rfl⟩ := pass_ok hp
      exact hsame (applyAll_frame _ _ _ _).2.2.2.2.1
    · obtain ⟨r, _, rfl⟩ := pass_ok hp
      exact hsame (applyAll_frame _ _ _ _).2.2.2.2.1
  | iceStart j comp cand =>
    simp only [step] at hs
    have e1 := (agentOf_frame st j).2.1
    split at hs <;> cases hs <;> exact hsame e1
  | iceAuth j ok =>
    cases hs
    exact hsame (agentOf_frame st j).2.1
  | iceOff j =>
    rcases iceOff_spec h.toInvM j with ⟨_, h1⟩ | ⟨a, l1, l3, hi, h1, _⟩ <;> simp only [step] at hs <;> rw [h1] at hs <;>
      cases hs <;> exact hsame rfl
  | dtlsOn j sp b' =>
    simp only [step, Except.ok.injEq] at hs
    cases hi : st.dtls j with
    | some m =>
      obtain ⟨c, hc, e⟩ := dtlsOn_some h.toInvM hi sp b'
      rw [e] at hs; cases hs
      exact dead_setConn hc setmode_dead hd
    | none =>
      rw [dtlsOn_none h.toInvM hi] at hs
      split at hs
      · cases hs
        obtain ⟨c', h1, h2⟩ := hd
        have hlt := (List.getElem?_eq_some_iff.mp h1).1
        exact ⟨c', by simp only; rw [List.getElem?_append_left hlt]; exact h1, h2⟩
      · cases hs; exact hd
  | dtlsOff j =>
    rcases dtlsOff_spec h.toInvM j with ⟨_, h1⟩ | ⟨m, c, l1, l2, hi, hc, h1, _⟩ <;> simp only [step] at hs <;>
      rw [h1] at hs <;> cases hs
    · exact hd
    · exact dead_setConn (st := st) (c' := { c with st := .dead }) hc (fun _ => rfl) hd
  | reg s order n f =>
    simp only [step] at hs
    split at hs <;> cases hs <;> exact hsame rfl
  | unreg s n =>
    simp only [step] at hs
    split at hs <;> cases hs <;> exact hsame rfl
  | prefill s now a => cases hs; exact hsame rfl
  | socket s x => cases hs; exact hsame rfl

/-- A connection that was given up stays so, whatever arrives or is commanded: its queued packets are not relayed. -/
theorem C69_given_up_for_good (es : List Ev) (st st' : St) (h : Reachable st) (hs : run st es = .ok st') (n : Nat)
    (hd : ∃ c, st.conns[n]? = some c ∧ c.st = .dead) : ∃ c, st'.conns[n]? = some c ∧ c.st = .dead := by
  have h := h.inv
  suffices H : ∀ s0, Inv s0 → run s0 es = .ok st' → Dead s0 n → Dead st' n from H st h hs hd
  clear hs hd
  induction es with
  | nil => intro s0 _ hs hd; cases hs; exact hd
  | cons e es ih =>
    intro s0 h0 hs hd
    simp only [run] at hs
    split at hs
    · cases hs
    next s b he => exact ih s (inv_step h0 he) hs (dead_step h0 he hd)

/-- **Switching off.**  `D` and `U` never abort, answer with success exactly if DTLS was on, and leave no processor of
the module in the chains of that direction; the other side is left alone. -/
theorem C69_off (st : St) (i : Bool) (h : Reachable st) :
    ∃ st', step st (.dtlsOff i) = .ok (st', (st.dtls i).isSome) ∧ st'.dtls i = none ∧ st'.dtls (!i) = st.dtls (!i) ∧
      (∀ p ∈ st'.mgr (rtp i), p.key ≠ .din) ∧ (∀ p ∈ st'.mgr (rtp !i), p.key ≠ .dout) ∧
      st'.log = st.log ∧ st'.seen = st.seen ∧ ∀ n, st.dtls i = some n → ¬ IsUp st' n := by
  have h := h.inv
  have hk : ∀ (l : List Proc) (k : Key), sel k l = [] → ∀ p ∈ l, p.key ≠ k := by
    intro l k hl p hp e
    have : p ∈ sel k l := mem_sel.mpr ⟨hp, e⟩
    rw [hl] at this; cases this
  rcases dtlsOff_spec h.toInvM i with ⟨h0, h1⟩ | ⟨n, c, l1, l2, hi, hc, h1, _, p2, _, _, q2, _⟩
  · refine ⟨st, by simp only [step]; rw [h1, h0]; rfl, h0, rfl, hk _ _ ?_, hk _ _ ?_, rfl, rfl, ?_⟩
    · rw [h.keys _ _ (by simp)]; simp [want, h0]
    · rw [h.keys _ _ (by simp)]; simp [want, h0]
    · intro n hn; rw [h0] at hn; cases hn
  · rw [show (st.dtls i).isSome = true by rw [hi]; rfl]
    refine ⟨_, h1, by simp [upd], ?_, ?_, ?_, rfl, rfl, ?_⟩
    · have : (!i) ≠ i := by cases i <;> simp
      simp [upd_ne _ _ this]
    · simp only [upd_ne _ _ (ne_rtp_not i), upd_self]; exact hk _ _ p2
    · simp only [upd_self]; exact hk _ _ q2
    · rintro m hm ⟨x, h3, h4⟩
      rw [hi] at hm; cases hm
      have hlt := (List.getElem?_eq_some_iff.mp hc).1
      rw [List.getElem?_set_self hlt] at h3
      cases h3; cases h4

end Verif.Plane
