import Verif.Plane.Chain

/-! # What the chains of a session look like -/

namespace Verif.Plane

open Verif.Pproc (Act)
open Verif.Latch (Addr)

/-- The processors that the agents and connections in charge call for, by stream and key. -/
def want (ice dtls : Bool → Option Nat) (s : Sid) : Key → List Proc
  | .ice => if s.rtcp then [] else (ice s.side).toList.map fun a => ⟨oRecv, .ice, .ice a⟩
  | .dmx => if s.rtcp then [] else (ice s.side).toList.map fun _ => ⟨oCtRecv, .dmx, .dmx (rtcp s.side) (rtcp !s.side)⟩
  | .mx => if s.rtcp then (ice (!s.side)).toList.map fun _ => ⟨oCtSend, .mx, .mx (rtcp s.side) (rtp !s.side)⟩ else []
  | .din => if s.rtcp then [] else (dtls s.side).toList.map fun n => ⟨oDecrypt, .din, .din n⟩
  | .dout => if s.rtcp then [] else (dtls (!s.side)).toList.map fun n => ⟨oEncrypt, .dout, .dout n⟩
  | .relay => [⟨oRelay, .relay, .relay⟩]
  | .other _ => []

structure InvM (st : St) : Prop where
  sorted : ∀ s, Sorted (st.mgr s)
  keys : ∀ s k, (∀ n, k ≠ .other n) → sel k (st.mgr s) = want st.ice st.dtls s k
  other : ∀ s p n, p ∈ st.mgr s → p.key = .other n →
    4 ≤ p.order ∧ p.order ≤ 9 ∧ (p.kind = .analyze ∨ ∃ f, p.kind = .other f)
  iceLt : ∀ i a, st.ice i = some a → a < st.agents.length
  dtlsLt : ∀ i n, st.dtls i = some n → n < st.conns.length
  iceInj : ∀ i j a, st.ice i = some a → st.ice j = some a → i = j
  dtlsInj : ∀ i j n, st.dtls i = some n → st.dtls j = some n → i = j
  dead : ∀ n c, st.conns[n]? = some c → (∀ i, st.dtls i ≠ some n) → c.st = .dead

theorem invM_init : InvM init := by
  constructor
  · intro s; simp [init, chain0, Sorted, oAnalyze, oRelay]
  · intro s k hk
    cases k <;> simp [init, chain0, want, sel, oRelay]
    next n => exact absurd rfl (hk n)
  · intro s p n hp hk
    simp [init, chain0, oAnalyze] at hp
    rcases hp with rfl | rfl
    · simp
    · cases hk
  all_goals simp [init]

/-- What does not touch the chains keeps them. -/
theorem invM_frame {st st' : St} (h : InvM st) (hm : st'.mgr = st.mgr) (hi : st'.ice = st.ice)
    (hd : st'.dtls = st.dtls) (ha : st.agents.length ≤ st'.agents.length)
    (hc : st.conns.length ≤ st'.conns.length)
    (hcs : ∀ (n : Nat) (c' : Conn), st'.conns[n]? = some c' → ∃ c, st.conns[n]? = some c ∧ (c.st = .dead → c'.st = .dead)) :
    InvM st' := by
  obtain ⟨a1, a2, a3, a4, a5, a6, a7, a8⟩ := h
  refine ⟨by rwa [hm], by rw [hm, hi, hd]; exact a2, by rwa [hm], ?_, ?_, by rwa [hi], by rwa [hd], ?_⟩
  · intro i a h; rw [hi] at h; have := a4 i a h; omega
  · intro i a h; rw [hd] at h; have := a5 i a h; omega
  · intro n c' h1 h2
    obtain ⟨c, h3, h4⟩ := hcs n c' h1
    exact h4 (a8 n c h3 (by rwa [hd] at h2))

theorem rev_rtp (i : Bool) : (rtp i).rev = rtp !i := rfl
theorem rev_rtcp (i : Bool) : (rtcp i).rev = rtcp !i := rfl

theorem upd_self {α β : Type} [DecidableEq α] (f : α → β) (a : α) (b : β) : upd f a b a = b := by simp [upd]
theorem upd_ne {α β : Type} [DecidableEq α] (f : α → β) {a x : α} (b : β) (h : x ≠ a) : upd f a b x = f x := by
  simp [upd, h]

/-- The four streams, seen from a side. -/
theorem sid_cases (i : Bool) (s : Sid) : s = rtp i ∨ s = rtp (!i) ∨ s = rtcp i ∨ s = rtcp (!i) := by
  obtain ⟨r, j⟩ := s
  cases r <;> cases i <;> cases j <;> simp [rtp, rtcp]

theorem ne_rtp_rtcp (i j : Bool) : rtp i ≠ rtcp j := by simp [rtp, rtcp]
theorem ne_rtcp_rtp (i j : Bool) : rtcp i ≠ rtp j := by simp [rtp, rtcp]
theorem ne_not_rtp (i : Bool) : rtp (!i) ≠ rtp i := by simp [rtp]
theorem ne_not_rtcp (i : Bool) : rtcp (!i) ≠ rtcp i := by simp [rtcp]
theorem ne_rtp_not (i : Bool) : rtp i ≠ rtp (!i) := by simp [rtp]
theorem ne_rtcp_not (i : Bool) : rtcp i ≠ rtcp (!i) := by simp [rtcp]

/-- A chain is changed at one stream: what has to be checked. -/
theorem invM_chain {st : St} (h : InvM st) (s0 : Sid) (l : List Proc) (hs : Sorted l)
    (hk : ∀ k, (∀ n, k ≠ .other n) → sel k l = sel k (st.mgr s0))
    (ho : ∀ p n, p ∈ l → p.key = .other n →
      4 ≤ p.order ∧ p.order ≤ 9 ∧ (p.kind = .analyze ∨ ∃ f, p.kind = .other f)) :
    InvM { st with mgr := upd st.mgr s0 l } := by
  obtain ⟨a1, a2, a3, a4, a5, a6, a7, a8⟩ := h
  refine ⟨?_, ?_, ?_, a4, a5, a6, a7, a8⟩
  · intro s
    by_cases e : s = s0
    · subst e; simpa [upd_self] using hs
    · simpa [upd_ne _ _ e] using a1 s
  · intro s k hkn
    by_cases e : s = s0
    · subst e; simp only [upd_self]; rw [hk k hkn]; exact a2 s k hkn
    · simp only [upd_ne _ _ e]; exact a2 s k hkn
  · intro s p n hp
    by_cases e : s = s0
    · subst e; simp only [upd_self] at hp; exact ho p n hp
    · simp only [upd_ne _ _ e] at hp; exact a3 s p n hp

/-- What another agent changes. -/
theorem want_ice_ne (ice dtls : Bool → Option Nat) (i : Bool) (x : Option Nat) (s : Sid) (k : Key)
    (h1 : s = rtp i → k ≠ .ice ∧ k ≠ .dmx) (h2 : s = rtcp (!i) → k ≠ .mx) :
    want (upd ice i x) dtls s k = want ice dtls s k := by
  obtain ⟨r, j⟩ := s
  cases k <;> cases r <;> cases i <;> cases j <;> simp [want, upd] at h1 h2 ⊢

theorem want_dtls_ne (ice dtls : Bool → Option Nat) (i : Bool) (x : Option Nat) (s : Sid) (k : Key)
    (h1 : s = rtp i → k ≠ .din) (h2 : s = rtp (!i) → k ≠ .dout) :
    want ice (upd dtls i x) s k = want ice dtls s k := by
  obtain ⟨r, j⟩ := s
  cases k <;> cases r <;> cases i <;> cases j <;> simp [want, upd] at h1 h2 ⊢

/-- The chains of a new agent. -/
theorem iceProcs_spec (i : Bool) (a : Nat) (mgr : Sid → List Proc) :
    iceProcs i a mgr (rtp i) = register ⟨oCtRecv, .dmx, .dmx (rtcp i) (rtcp !i)⟩
      (register ⟨oRecv, .ice, .ice a⟩ (mgr (rtp i))) ∧
    iceProcs i a mgr (rtcp !i) = register ⟨oCtSend, .mx, .mx (rtcp !i) (rtp i)⟩ (mgr (rtcp !i)) ∧
    iceProcs i a mgr (rtp !i) = mgr (rtp !i) ∧ iceProcs i a mgr (rtcp i) = mgr (rtcp i) := by
  simp [iceProcs, Sid.rev, upd, rtp, rtcp]

theorem invM_activate {st : St} (h : InvM st) {i : Bool} (hi : st.ice i = none) : InvM (activate st i).1 := by
  obtain ⟨a1, a2, a3, a4, a5, a6, a7, a8⟩ := h
  obtain ⟨e1, e2, e3, e4⟩ := iceProcs_spec i st.agents.length st.mgr
  have hd : ∀ k, (∀ n, k ≠ Key.other n) → sel k (st.mgr (rtp i)) = want st.ice st.dtls (rtp i) k :=
    a2 (rtp i)
  have hm : ∀ k, (∀ n, k ≠ Key.other n) → sel k (st.mgr (rtcp !i)) = want st.ice st.dtls (rtcp !i) k :=
    a2 (rtcp !i)
  refine ⟨?_, ?_, ?_, ?_, a5, ?_, a7, a8⟩
  · intro s
    show Sorted (iceProcs i st.agents.length st.mgr s)
    rcases sid_cases i s with rfl | rfl | rfl | rfl
    · rw [e1]; exact sorted_register (sorted_register (a1 _))
    · rw [e3]; exact a1 _
    · rw [e4]; exact a1 _
    · rw [e2]; exact sorted_register (a1 _)
  · intro s k hk
    show sel k (iceProcs i st.agents.length st.mgr s) = want (upd st.ice i (some st.agents.length)) st.dtls s k
    have hni : (!i) ≠ i := by cases i <;> simp
    rcases sid_cases i s with rfl | rfl | rfl | rfl
    · rw [e1]
      by_cases k1 : k = .dmx
      · subst k1
        rw [sel_register_eq (p := ⟨oCtRecv, .dmx, .dmx (rtcp i) (rtcp !i)⟩)]
        · simp [want, upd]
        · rw [sel_register_ne (by simp), hd _ (by simp)]; simp [want, hi]
      · rw [sel_register_ne (fun e => k1 e.symm)]
        by_cases k2 : k = .ice
        · subst k2
          rw [sel_register_eq (p := ⟨oRecv, .ice, .ice st.agents.length⟩)]
          · simp [want, upd]
          · rw [hd _ (by simp)]; simp [want, hi]
        · rw [sel_register_ne (fun e => k2 e.symm), hd k hk, want_ice_ne _ _ _ _ _ _ (fun _ => ⟨k2, k1⟩) (by simp)]
    · rw [e3, a2 _ _ hk, want_ice_ne _ _ _ _ _ _ (by simp) (by simp)]
    · rw [e4, a2 _ _ hk, want_ice_ne _ _ _ _ _ _ (by simp) (by simp)]
    · rw [e2]
      by_cases k1 : k = .mx
      · subst k1
        rw [sel_register_eq (p := ⟨oCtSend, .mx, .mx (rtcp !i) (rtp i)⟩)]
        · simp [want, upd]
        · rw [hm _ (by simp)]; simp [want, hi]
      · rw [sel_register_ne (fun e => k1 e.symm), hm k hk, want_ice_ne _ _ _ _ _ _ (by simp) (fun _ => k1)]
  · intro s p n hp hk
    change p ∈ iceProcs i st.agents.length st.mgr s at hp
    rcases sid_cases i s with rfl | rfl | rfl | rfl
    · rw [e1] at hp
      rcases mem_register.mp hp with rfl | hp
      · cases hk
      · rcases mem_register.mp hp with rfl | hp
        · cases hk
        · exact a3 _ p n hp hk
    · rw [e3] at hp; exact a3 _ p n hp hk
    · rw [e4] at hp; exact a3 _ p n hp hk
    · rw [e2] at hp
      rcases mem_register.mp hp with rfl | hp
      · cases hk
      · exact a3 _ p n hp hk
  · intro j b hj
    simp only [activate] at hj ⊢
    simp only [List.length_append, List.length_cons, List.length_nil]
    by_cases e : j = i
    · subst e; rw [upd_self] at hj; cases hj; omega
    · rw [upd_ne _ _ e] at hj; have := a4 j b hj; omega
  · intro j k b hj hk
    simp only [activate] at hj hk
    by_cases e : j = i <;> by_cases e' : k = i
    · rw [e, e']
    · subst e; rw [upd_self] at hj; rw [upd_ne _ _ e'] at hk; cases hj; have := a4 k _ hk; omega
    · subst e'; rw [upd_self] at hk; rw [upd_ne _ _ e] at hj; cases hk; have := a4 j _ hj; omega
    · rw [upd_ne _ _ e] at hj; rw [upd_ne _ _ e'] at hk; exact a6 j k b hj hk

/-- The lookup finds the agent in charge. -/
theorem lookup_ice {st : St} (h : InvM st) (i : Bool) :
    lookup .ice (st.mgr (rtp i)) = (st.ice i).map fun a => ⟨oRecv, .ice, .ice a⟩ := by
  rw [lookup_eq, h.keys _ _ (by simp)]
  cases hi : st.ice i <;> simp [want, hi]

theorem lookup_din {st : St} (h : InvM st) (i : Bool) :
    lookup .din (st.mgr (rtp i)) = (st.dtls i).map fun n => ⟨oDecrypt, .din, .din n⟩ := by
  rw [lookup_eq, h.keys _ _ (by simp)]
  cases hi : st.dtls i <;> simp [want, hi]

theorem agentOf_some {st : St} (h : InvM st) {i : Bool} {a : Nat} (hi : st.ice i = some a) :
    agentOf st i = (st, a) := by
  simp [agentOf, lookup_ice h, hi]

theorem agentOf_none {st : St} (h : InvM st) {i : Bool} (hi : st.ice i = none) : agentOf st i = activate st i := by
  simp [agentOf, lookup_ice h, hi]

theorem invM_agentOf {st : St} (h : InvM st) (i : Bool) : InvM (agentOf st i).1 := by
  cases hi : st.ice i with
  | none => rw [agentOf_none h hi]; exact invM_activate h hi
  | some a => rw [agentOf_some h hi]; exact h

/-- Switching ICE off succeeds when it is on, and takes the agent's processors away. -/
theorem iceOff_spec {st : St} (h : InvM st) (i : Bool) :
    (st.ice i = none ∧ iceOff st i = .ok (st, false)) ∨
    (∃ a l1 l3, st.ice i = some a ∧
      iceOff st i = .ok ({ st with mgr := upd (upd st.mgr (rtcp !i) l1) (rtp i) l3, ice := upd st.ice i none,
                                   strm := upd st.strm (rtp i) { st.strm (rtp i) with mode := .normal } }, true) ∧
      l1.Sublist (st.mgr (rtcp !i)) ∧ sel .mx l1 = [] ∧ (∀ k, k ≠ .mx → sel k l1 = sel k (st.mgr (rtcp !i))) ∧
      l3.Sublist (st.mgr (rtp i)) ∧ sel .ice l3 = [] ∧ sel .dmx l3 = [] ∧
      (∀ k, k ≠ .ice → k ≠ .dmx → sel k l3 = sel k (st.mgr (rtp i)))) := by
  cases hi : st.ice i with
  | none => left; refine ⟨rfl, ?_⟩; simp [iceOff, lookup_ice h, hi]
  | some a =>
    right
    have k1 : sel .mx (st.mgr (rtcp !i)) = [⟨oCtSend, .mx, .mx (rtcp !i) (rtp i)⟩] := by
      rw [h.keys _ _ (by simp)]; simp [want, hi]
    have k2 : sel .dmx (st.mgr (rtp i)) = [⟨oCtRecv, .dmx, .dmx (rtcp i) (rtcp !i)⟩] := by
      rw [h.keys _ _ (by simp)]; simp [want, hi]
    have k3 : sel .ice (st.mgr (rtp i)) = [⟨oRecv, .ice, .ice a⟩] := by
      rw [h.keys _ _ (by simp)]; simp [want, hi]
    obtain ⟨l1, u1, u2, u3, u4⟩ := unregister_spec k1
    obtain ⟨l2, v1, v2, v3, v4⟩ := unregister_spec k2
    obtain ⟨l3, w1, w2, w3, w4⟩ := unregister_spec (k := .ice) (l := l2)
      (by rw [v3 .ice (by simp)]; exact k3)
    refine ⟨a, l1, l3, rfl, ?_, u4, u2, u3, w4.trans v4, w2, ?_, ?_⟩
    · simp [iceOff, lookup_ice h, hi, rev_rtcp, u1, v1, w1]
    · rw [w3 _ (by simp), v2]
    · intro k h1 h2; rw [w3 k h1, v3 k h2]

theorem sorted_sublist {l l' : List Proc} (h : l'.Sublist l) (hs : Sorted l) : Sorted l' :=
  List.Pairwise.sublist h hs

theorem invM_iceOff {st st' : St} {r : Bool} (h : InvM st) {i : Bool} (hs : iceOff st i = .ok (st', r)) : InvM st' := by
  rcases iceOff_spec h i with ⟨_, h1⟩ | ⟨a, l1, l3, hi, h1, p1, p2, p3, q1, q2, q3, q4⟩
  · rw [h1] at hs; cases hs; exact h
  · rw [h1] at hs; cases hs
    obtain ⟨a1, a2, a3, a4, a5, a6, a7, a8⟩ := h
    refine ⟨?_, ?_, ?_, ?_, a5, ?_, a7, a8⟩
    · intro s
      rcases sid_cases i s with rfl | rfl | rfl | rfl
      · simpa [upd] using sorted_sublist q1 (a1 _)
      · simpa [upd, rtp, rtcp] using a1 (rtp !i)
      · simpa [upd, rtp, rtcp] using a1 (rtcp i)
      · simpa [upd, rtp, rtcp] using sorted_sublist p1 (a1 _)
    · intro s k hk
      rcases sid_cases i s with rfl | rfl | rfl | rfl
      · simp only [upd_self]
        by_cases k1 : k = .ice
        · subst k1; rw [q2]; simp [want, upd]
        · by_cases k2 : k = .dmx
          · subst k2; rw [q3]; simp [want, upd]
          · rw [q4 k k1 k2, a2 _ _ hk, want_ice_ne _ _ _ _ _ _ (fun _ => ⟨k1, k2⟩) (by simp)]
      · simp only [upd_ne _ _ (ne_not_rtp i), upd_ne _ _ (ne_rtp_rtcp (!i) (!i))]
        rw [a2 _ _ hk, want_ice_ne _ _ _ _ _ _ (by simp) (by simp)]
      · simp only [upd_ne _ _ (ne_rtcp_rtp i i), upd_ne _ _ (ne_rtcp_not i)]
        rw [a2 _ _ hk, want_ice_ne _ _ _ _ _ _ (by simp) (by simp)]
      · simp only [upd_ne _ _ (ne_rtcp_rtp (!i) i), upd_self]
        by_cases k1 : k = .mx
        · subst k1; rw [p2]; simp [want, upd]
        · rw [p3 k k1, a2 _ _ hk, want_ice_ne _ _ _ _ _ _ (by simp) (fun _ => k1)]
    · intro s p n hp hk
      rcases sid_cases i s with rfl | rfl | rfl | rfl
      · simp only [upd_self] at hp; exact a3 _ p n (q1.subset hp) hk
      · simp only [upd_ne _ _ (ne_not_rtp i), upd_ne _ _ (ne_rtp_rtcp (!i) (!i))] at hp; exact a3 _ p n hp hk
      · simp only [upd_ne _ _ (ne_rtcp_rtp i i), upd_ne _ _ (ne_rtcp_not i)] at hp; exact a3 _ p n hp hk
      · simp only [upd_ne _ _ (ne_rtcp_rtp (!i) i), upd_self] at hp; exact a3 _ p n (p1.subset hp) hk
    · intro j b hj
      simp only [upd] at hj
      split at hj
      · cases hj
      · exact a4 j b hj
    · intro j k b hj hk
      simp only [upd] at hj hk
      split at hj
      · cases hj
      · split at hk
        · cases hk
        · exact a6 j k b hj hk

/-! ### DTLS -/

theorem setmode_dead {c : Conn} {sp : Option Peer} {b : Bool} (h : c.st = .dead) : (setmode c sp b).1.st = .dead := by
  simp only [setmode]
  (repeat' split) <;> simp_all

theorem dtlsRecv_dead {c : Conn} {hs : Hs} (h : c.st = .dead) : dtlsRecv c hs = c := by
  simp [dtlsRecv, h]

theorem invM_setConn {st : St} (h : InvM st) {n : Nat} {c c' : Conn} (hc : st.conns[n]? = some c)
    (hd : c.st = .dead → c'.st = .dead) : InvM (setConn st n c') := by
  refine invM_frame h rfl rfl rfl (Nat.le_refl _) (by simp [setConn]) ?_
  intro m x hx
  simp only [setConn, List.getElem?_set] at hx
  split at hx
  · split at hx
    · cases hx; subst_vars; exact ⟨c, hc, hd⟩
    · cases hx
  · exact ⟨x, hx, id⟩

theorem invM_setAgent {st : St} (h : InvM st) {n : Nat} {g : Agent} : InvM (setAgent st n g) :=
  invM_frame h rfl rfl rfl (by simp [setAgent]) (Nat.le_refl _) fun _ x hx => ⟨x, hx, id⟩

theorem dtlsOn_some {st : St} (h : InvM st) {i : Bool} {n : Nat} (hi : st.dtls i = some n) (sp : Option Peer) (b : Bool) :
    ∃ c, st.conns[n]? = some c ∧ dtlsOn st i sp b = (setConn st n (setmode c sp b).1, (setmode c sp b).2) := by
  obtain ⟨c, hc⟩ := List.getElem?_eq_some_iff.mpr ⟨h.dtlsLt i n hi, rfl⟩ |> fun e => (⟨_, e⟩ : ∃ c, st.conns[n]? = some c)
  exact ⟨c, hc, by simp [dtlsOn, lookup_din h, hi, hc]⟩

theorem dtlsOn_none {st : St} (h : InvM st) {i : Bool} (hi : st.dtls i = none) (sp : Option Peer) (b : Bool) :
    dtlsOn st i sp b = if (setmode {} sp b).2 then
      ({ st with mgr := upd (upd st.mgr (rtp i) (register ⟨oDecrypt, .din, .din st.conns.length⟩ (st.mgr (rtp i))))
                   (rtp !i) (register ⟨oEncrypt, .dout, .dout st.conns.length⟩ (st.mgr (rtp !i))),
                 conns := st.conns ++ [(setmode {} sp b).1], dtls := upd st.dtls i (some st.conns.length) }, true)
      else (st, false) := by
  simp only [dtlsOn, lookup_din h, hi, Option.map_none, rev_rtp, upd_ne _ _ (ne_not_rtp i)]

theorem invM_dtlsOn {st : St} (h : InvM st) (i : Bool) (sp : Option Peer) (b : Bool) : InvM (dtlsOn st i sp b).1 := by
  cases hi : st.dtls i with
  | some n =>
    obtain ⟨c, hc, e⟩ := dtlsOn_some h hi sp b
    rw [e]
    exact invM_setConn h hc setmode_dead
  | none =>
    rw [dtlsOn_none h hi]
    split
    · obtain ⟨a1, a2, a3, a4, a5, a6, a7, a8⟩ := h
      have hd := a2 (rtp i)
      have ho := a2 (rtp !i)
      refine ⟨?_, ?_, ?_, a4, ?_, a6, ?_, ?_⟩
      · intro s
        simp only [upd]
        split
        · exact sorted_register (a1 _)
        · split
          · exact sorted_register (a1 _)
          · exact a1 _
      · intro s k hk
        rcases sid_cases i s with rfl | rfl | rfl | rfl
        · simp only [upd_ne _ _ (ne_rtp_not i), upd_self]
          by_cases k1 : k = .din
          · subst k1
            rw [sel_register_eq (p := ⟨oDecrypt, .din, .din st.conns.length⟩)]
            · simp [want, upd]
            · rw [hd _ (by simp)]; simp [want, hi]
          · rw [sel_register_ne (fun e => k1 e.symm), hd k hk, want_dtls_ne _ _ _ _ _ _ (fun _ => k1) (by simp)]
        · simp only [upd_self]
          by_cases k1 : k = .dout
          · subst k1
            rw [sel_register_eq (p := ⟨oEncrypt, .dout, .dout st.conns.length⟩)]
            · simp [want, upd]
            · rw [ho _ (by simp)]; simp [want, hi]
          · rw [sel_register_ne (fun e => k1 e.symm), ho k hk, want_dtls_ne _ _ _ _ _ _ (by simp) (fun _ => k1)]
        · simp only [upd_ne _ _ (ne_rtcp_rtp i i), upd_ne _ _ (ne_rtcp_rtp i (!i))]
          rw [a2 _ _ hk, want_dtls_ne _ _ _ _ _ _ (by simp) (by simp)]
        · simp only [upd_ne _ _ (ne_rtcp_rtp (!i) i), upd_ne _ _ (ne_rtcp_rtp (!i) (!i))]
          rw [a2 _ _ hk, want_dtls_ne _ _ _ _ _ _ (by simp) (by simp)]
      · intro s p n hp hk
        simp only [upd] at hp
        split at hp
        · rcases mem_register.mp hp with rfl | hp
          · cases hk
          · exact a3 _ p n hp hk
        · split at hp
          · rcases mem_register.mp hp with rfl | hp
            · cases hk
            · exact a3 _ p n hp hk
          · exact a3 _ p n hp hk
      · intro j n hj
        dsimp only at hj
        simp only [List.length_append, List.length_cons, List.length_nil]
        by_cases e : j = i
        · subst e; rw [upd_self] at hj; cases hj; omega
        · rw [upd_ne _ _ e] at hj; have := a5 j n hj; omega
      · intro j k n hj hk
        dsimp only at hj hk
        by_cases e : j = i <;> by_cases e' : k = i
        · rw [e, e']
        · subst e; rw [upd_self] at hj; rw [upd_ne _ _ e'] at hk; cases hj; have := a5 k _ hk; omega
        · subst e'; rw [upd_self] at hk; rw [upd_ne _ _ e] at hj; cases hk; have := a5 j _ hj; omega
        · rw [upd_ne _ _ e] at hj; rw [upd_ne _ _ e'] at hk; exact a7 j k n hj hk
      · intro n c hc hn
        dsimp only at hc hn
        have hne : n ≠ st.conns.length := by
          intro e
          exact hn i (by rw [upd_self, e])
        have hlt : n < st.conns.length := by
          have := (List.getElem?_eq_some_iff.mp hc).1
          simp only [List.length_append, List.length_cons, List.length_nil] at this
          omega
        rw [List.getElem?_append_left hlt] at hc
        refine a8 n c hc fun j hj => ?_
        by_cases e : j = i
        · subst e; rw [hi] at hj; cases hj
        · exact hn j (by rw [upd_ne _ _ e]; exact hj)
    · exact h

/-- Switching DTLS off succeeds when it is on, and takes the processors of the connection away. -/
theorem dtlsOff_spec {st : St} (h : InvM st) (i : Bool) :
    (st.dtls i = none ∧ dtlsOff st i = .ok (st, false)) ∨
    (∃ n c l1 l2, st.dtls i = some n ∧ st.conns[n]? = some c ∧
      dtlsOff st i = .ok ({ st with mgr := upd (upd st.mgr (rtp i) l1) (rtp !i) l2, dtls := upd st.dtls i none,
                                    conns := st.conns.set n { c with st := .dead } }, true) ∧
      l1.Sublist (st.mgr (rtp i)) ∧ sel .din l1 = [] ∧ (∀ k, k ≠ .din → sel k l1 = sel k (st.mgr (rtp i))) ∧
      l2.Sublist (st.mgr (rtp !i)) ∧ sel .dout l2 = [] ∧ (∀ k, k ≠ .dout → sel k l2 = sel k (st.mgr (rtp !i)))) := by
  cases hi : st.dtls i with
  | none => left; refine ⟨rfl, ?_⟩; simp [dtlsOff, lookup_din h, hi]
  | some n =>
    right
    have k1 : sel .din (st.mgr (rtp i)) = [⟨oDecrypt, .din, .din n⟩] := by
      rw [h.keys _ _ (by simp)]; simp [want, hi]
    have k2 : sel .dout (st.mgr (rtp !i)) = [⟨oEncrypt, .dout, .dout n⟩] := by
      rw [h.keys _ _ (by simp)]; simp [want, hi]
    obtain ⟨l1, u1, u2, u3, u4⟩ := unregister_spec k1
    obtain ⟨l2, v1, v2, v3, v4⟩ := unregister_spec k2
    obtain ⟨c, hc⟩ := List.getElem?_eq_some_iff.mpr ⟨h.dtlsLt i n hi, rfl⟩ |> fun e => (⟨_, e⟩ : ∃ c, st.conns[n]? = some c)
    refine ⟨n, c, l1, l2, rfl, hc, ?_, u4, u2, u3, v4, v2, v3⟩
    simp [dtlsOff, lookup_din h, hi, rev_rtp, u1, v1, hc]

theorem invM_dtlsOff {st st' : St} {r : Bool} (h : InvM st) {i : Bool} (hs : dtlsOff st i = .ok (st', r)) :
    InvM st' := by
  rcases dtlsOff_spec h i with ⟨_, h1⟩ | ⟨n, c, l1, l2, hi, hc, h1, p1, p2, p3, q1, q2, q3⟩
  · rw [h1] at hs; cases hs; exact h
  · rw [h1] at hs; cases hs
    obtain ⟨a1, a2, a3, a4, a5, a6, a7, a8⟩ := h
    refine ⟨?_, ?_, ?_, a4, ?_, a6, ?_, ?_⟩
    · intro s
      simp only [upd]
      split
      · exact sorted_sublist q1 (a1 _)
      · split
        · exact sorted_sublist p1 (a1 _)
        · exact a1 _
    · intro s k hk
      rcases sid_cases i s with rfl | rfl | rfl | rfl
      · simp only [upd_ne _ _ (ne_rtp_not i), upd_self]
        by_cases k1 : k = .din
        · subst k1; rw [p2]; simp [want, upd]
        · rw [p3 k k1, a2 _ _ hk, want_dtls_ne _ _ _ _ _ _ (fun _ => k1) (by simp)]
      · simp only [upd_self]
        by_cases k1 : k = .dout
        · subst k1; rw [q2]; simp [want, upd]
        · rw [q3 k k1, a2 _ _ hk, want_dtls_ne _ _ _ _ _ _ (by simp) (fun _ => k1)]
      · simp only [upd_ne _ _ (ne_rtcp_rtp i i), upd_ne _ _ (ne_rtcp_rtp i (!i))]
        rw [a2 _ _ hk, want_dtls_ne _ _ _ _ _ _ (by simp) (by simp)]
      · simp only [upd_ne _ _ (ne_rtcp_rtp (!i) i), upd_ne _ _ (ne_rtcp_rtp (!i) (!i))]
        rw [a2 _ _ hk, want_dtls_ne _ _ _ _ _ _ (by simp) (by simp)]
    · intro s p n hp hk
      simp only [upd] at hp
      split at hp
      · exact a3 _ p n (q1.subset hp) hk
      · split at hp
        · exact a3 _ p n (p1.subset hp) hk
        · exact a3 _ p n hp hk
    · intro j m hj
      simp only [List.length_set]
      simp only [upd] at hj
      split at hj
      · cases hj
      · exact a5 j m hj
    · intro j k m hj hk
      simp only [upd] at hj hk
      split at hj
      · cases hj
      · split at hk
        · cases hk
        · exact a7 j k m hj hk
    · intro m x hx hm
      dsimp only at hx hm
      rw [List.getElem?_set] at hx
      split at hx
      · split at hx
        · cases hx; rfl
        · cases hx
      next hne =>
        refine a8 m x hx fun j hj => ?_
        by_cases e : j = i
        · subst e; rw [hi] at hj; cases hj; exact hne rfl
        · exact hm j (by rw [upd_ne _ _ e]; exact hj)

/-! ### The passage of packets leaves the chains alone -/

theorem applyAll_frame (now : Int) (chg : Bool) (es : List Eff) (st : St) :
    (applyAll now chg st es).mgr = st.mgr ∧ (applyAll now chg st es).ice = st.ice ∧
    (applyAll now chg st es).dtls = st.dtls ∧ (applyAll now chg st es).agents = st.agents ∧
    (applyAll now chg st es).conns = st.conns ∧ (applyAll now chg st es).fd = st.fd := by
  induction es generalizing st with
  | nil => exact ⟨rfl, rfl, rfl, rfl, rfl, rfl⟩
  | cons e es ih =>
    have := ih (apply1 now chg st e)
    simp only [applyAll, List.foldl_cons] at this ⊢
    obtain ⟨h1, h2, h3, h4, h5, h6⟩ := this
    rw [h1, h2, h3, h4, h5, h6]
    cases e <;> simp [apply1]

theorem pass_ok {st st' : St} {now : Int} {chg ir dr : Bool} {m : Sid} {c : Ctx} {n : Nat}
    (h : pass st now chg ir dr m c n = .ok st') :
    ∃ r, handleat (st.view ir dr) depth m c n = .ok r ∧ st' = applyAll now chg st r.2 := by
  simp only [pass] at h
  split at h
  · cases h
  next a es he => cases h; exact ⟨_, he, rfl⟩

theorem invM_pass {st st' : St} {now : Int} {chg ir dr : Bool} {m : Sid} {c : Ctx} {n : Nat} (hi : InvM st)
    (h : pass st now chg ir dr m c n = .ok st') : InvM st' := by
  obtain ⟨r, _, rfl⟩ := pass_ok h
  obtain ⟨h1, h2, h3, h4, h5, _⟩ := applyAll_frame now chg r.2 st
  exact invM_frame hi h1 h2 h3 (by rw [h4]; exact Nat.le_refl _) (by rw [h5]; exact Nat.le_refl _)
    (by rw [h5]; exact fun _ x hx => ⟨x, hx, id⟩)

theorem invM_same {st st' : St} (h : InvM st) (hm : st'.mgr = st.mgr) (hi : st'.ice = st.ice)
    (hd : st'.dtls = st.dtls) (ha : st'.agents = st.agents) (hc : st'.conns = st.conns) : InvM st' :=
  invM_frame h hm hi hd (by rw [ha]; exact Nat.le_refl _) (by rw [hc]; exact Nat.le_refl _)
    (by rw [hc]; exact fun _ x hx => ⟨x, hx, id⟩)

theorem invM_iceWork {st : St} (h : InvM st) (now : Int) (fl : List Bool) (rs : List (Addr × List UInt8)) :
    InvM (iceWork st now fl rs) := by
  simp only [iceWork]
  split
  · exact h
  · split
    · exact invM_same h rfl rfl rfl rfl rfl
    · split
      · exact invM_same h rfl rfl rfl rfl rfl
      · split
        · refine invM_setAgent (invM_same h ?_ ?_ ?_ ?_ ?_) <;> rfl
        · exact invM_same h rfl rfl rfl rfl rfl

theorem invM_dtlsWork {st st' : St} (h : InvM st) {now : Int} {hs : Hs} {cr : Option (List UInt8)}
    {sends : List (List UInt8)} {chg dr : Bool} (he : dtlsWork st now hs cr sends chg dr = .ok st') : InvM st' := by
  simp only [dtlsWork] at he
  split at he
  · cases he; exact h
  next it q hq =>
    have h0 : InvM { st with dtlsQ := q } := invM_same h rfl rfl rfl rfl rfl
    split at he
    · cases he; exact h0
    next c hc =>
      split at he
      · cases he
        refine invM_same (invM_setConn h0 (n := it.conn) (c := c) (c' := dtlsRecv c hs) hc ?_) rfl rfl rfl rfl rfl
        intro hd; rw [dtlsRecv_dead hd]; exact hd
      · split at he
        · cases he; exact h0
        · split at he
          · cases he; exact h0
          · exact invM_pass h0 he
      · split at he
        · cases he; exact h0
        · split at he
          · cases he; exact h0
          · split at he
            · cases he
            · exact invM_pass h0 he

theorem ok1_ok {r : Except Fault St} {st' : St} {b : Bool} (h : ok1 r = .ok (st', b)) : r = .ok st' ∧ b = true := by
  cases r with
  | error e => cases h
  | ok s => simp only [ok1, Except.ok.injEq, Prod.mk.injEq] at h; exact ⟨by rw [h.1], h.2.symm⟩

theorem invM_step {st st' : St} {e : Ev} {b : Bool} (h : InvM st) (hs : step st e = .ok (st', b)) : InvM st' := by
  cases e with
  | rx s now buf src chg peer ir dr =>
    have hs := (ok1_ok hs).1
    simp only [receive] at hs
    split at hs
    · cases hs; refine invM_same h ?_ ?_ ?_ ?_ ?_ <;> rfl
    · refine invM_pass ?_ hs
      exact invM_same h rfl rfl rfl rfl rfl
  | inject s now p cow rz chg dr => exact invM_pass h (ok1_ok hs).1
  | iceWork now fl rs => cases hs; exact invM_iceWork h _ _ _
  | dtlsWork now x cr sends chg dr => exact invM_dtlsWork h (ok1_ok hs).1
  | iceStart i comp cand =>
    simp only [step] at hs
    have h' := invM_agentOf h i
    split at hs
    · cases hs; exact h'
    · cases hs; exact invM_setAgent h'
  | iceAuth i ok => cases hs; exact invM_agentOf h i
  | iceOff i => exact invM_iceOff h hs
  | dtlsOn i sp b' =>
    simp only [step, Except.ok.injEq] at hs
    have := invM_dtlsOn h i sp b'
    rw [hs] at this
    exact this
  | dtlsOff i => exact invM_dtlsOff h hs
  | reg s order n f =>
    simp only [step] at hs
    split at hs
    next ho =>
      cases hs
      refine invM_chain h s _ (sorted_register (h.sorted _)) ?_ ?_
      · intro k hk; rw [sel_register_ne (fun e => hk n e.symm)]
      · intro p m hp hk
        rcases mem_register.mp hp with rfl | hp
        · simpa [oAnalyze, oEncode] using ho
        · exact h.other _ p m hp hk
    · cases hs; exact h
  | unreg s n =>
    simp only [step] at hs
    split at hs
    · cases hs; exact h
    next l hl =>
      cases hs
      obtain ⟨_, h2, h3⟩ := unregister_ok hl
      refine invM_chain h s _ (sorted_sublist h3 (h.sorted _)) ?_ ?_
      · intro k hk; exact h2 k (hk n)
      · intro p m hp hk; exact h.other _ p m (h3.subset hp) hk
  | prefill s now a => cases hs; exact invM_same h rfl rfl rfl rfl rfl
  | socket s x => cases hs; exact invM_same h rfl rfl rfl rfl rfl

end Verif.Plane
