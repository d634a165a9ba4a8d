import Verif.Plane.Effs
import Verif.Plane.Spec

/-! # The queues of the module threads, and what one event can do -/

namespace Verif.Plane

open Verif.Pproc (Act)
open Verif.Latch (Addr)

/-- A latch outside the mode `FORCE_ON` keeps the address. -/
theorem latch_rem {s : Latch.Strm} {now : Int} {p : Latch.Pkt} (h : s.mode ≠ .forceOn) :
    (Latch.latch s now p).rem = s.rem ∧ (Latch.latch s now p).mode = s.mode := by
  simp only [Latch.latch, if_neg h]
  (repeat' split) <;> exact ⟨rfl, rfl⟩

/-- What carrying out effects adds to the state. -/
theorem applyAll_spec (now : Int) (chg : Bool) (es : List Eff) (st : St) :
    (∃ new, (applyAll now chg st es).log = st.log ++ new ∧
      ∀ x ∈ new, x.who = .relay ∧ x.dst = (st.strm x.to).rem ∧ Eff.send x.to x.pkt ∈ es) ∧
    (∃ new, (applyAll now chg st es).iceQ = st.iceQ ++ new ∧ ∀ it ∈ new, Eff.iceq it.agent it.s it.p ∈ es) ∧
    (∃ new, (applyAll now chg st es).dtlsQ = st.dtlsQ ++ new ∧ ∀ it ∈ new, Eff.dtlsq it.dir it.conn it.c ∈ es) ∧
    (∃ new, (applyAll now chg st es).seen = st.seen ++ new ∧
      ∀ p ∈ new, (∃ k, Eff.seen k p ∈ es) ∨ ∃ s, Eff.analyzed s p ∈ es) ∧
    (∀ s, ((applyAll now chg st es).strm s).rem = (st.strm s).rem ∧
      ((applyAll now chg st es).strm s).mode = (st.strm s).mode ∧
      ((st.strm s).mode = .forceOn → (applyAll now chg st es).strm s = st.strm s)) := by
  induction es generalizing st with
  | nil => exact ⟨⟨[], by simp [applyAll]⟩, ⟨[], by simp [applyAll]⟩, ⟨[], by simp [applyAll]⟩, ⟨[], by simp [applyAll]⟩,
      fun s => ⟨rfl, rfl, fun _ => rfl⟩⟩
  | cons e es ih =>
    obtain ⟨⟨n1, a1, b1⟩, ⟨n2, a2, b2⟩, ⟨n3, a3, b3⟩, ⟨n4, a4, b4⟩, b5⟩ := ih (apply1 now chg st e)
    simp only [applyAll, List.foldl_cons] at *
    have hs : ∀ s, ((apply1 now chg st e).strm s).rem = (st.strm s).rem ∧
        ((apply1 now chg st e).strm s).mode = (st.strm s).mode ∧
        ((st.strm s).mode = .forceOn → (apply1 now chg st e).strm s = st.strm s) := by
      intro s
      cases e with
      | analyzed s' p =>
        simp only [apply1]
        split
        next hc =>
          by_cases e : s = s'
          · subst e
            rw [upd_self]
            have := latch_rem (p := p.lat) (now := now) hc.2.2
            exact ⟨this.1, this.2, fun h => absurd h hc.2.2⟩
          · rw [upd_ne _ _ e]; exact ⟨rfl, rfl, fun _ => rfl⟩
        · exact ⟨rfl, rfl, fun _ => rfl⟩
      | _ => exact ⟨rfl, rfl, fun _ => rfl⟩
    refine ⟨?_, ?_, ?_, ?_, ?_⟩
    · cases e with
      | send to p =>
        refine ⟨⟨to, (st.strm to).rem, p, .relay⟩ :: n1, by rw [a1]; simp [apply1], ?_⟩
        intro x hx
        rcases List.mem_cons.mp hx with rfl | hx
        · exact ⟨rfl, rfl, by simp⟩
        · obtain ⟨h1, h2, h3⟩ := b1 x hx
          exact ⟨h1, by rw [h2, (hs x.to).1], List.mem_cons_of_mem _ h3⟩
      | _ =>
        refine ⟨n1, by rw [a1]; simp [apply1], fun x hx => ?_⟩
        obtain ⟨h1, h2, h3⟩ := b1 x hx
        exact ⟨h1, by rw [h2, (hs x.to).1], List.mem_cons_of_mem _ h3⟩
    · cases e with
      | iceq a s p =>
        refine ⟨⟨a, s, p⟩ :: n2, by rw [a2]; simp [apply1], ?_⟩
        intro x hx
        rcases List.mem_cons.mp hx with rfl | hx
        · simp
        · exact List.mem_cons_of_mem _ (b2 x hx)
      | _ => exact ⟨n2, by rw [a2]; simp [apply1], fun x hx => List.mem_cons_of_mem _ (b2 x hx)⟩
    · cases e with
      | dtlsq d n c =>
        refine ⟨⟨d, n, c⟩ :: n3, by rw [a3]; simp [apply1], ?_⟩
        intro x hx
        rcases List.mem_cons.mp hx with rfl | hx
        · simp
        · exact List.mem_cons_of_mem _ (b3 x hx)
      | _ => exact ⟨n3, by rw [a3]; simp [apply1], fun x hx => List.mem_cons_of_mem _ (b3 x hx)⟩
    · have hm : ∀ p ∈ n4, (∃ k, Eff.seen k p ∈ e :: es) ∨ ∃ s, Eff.analyzed s p ∈ e :: es := by
        intro p hp
        rcases b4 p hp with ⟨k, h⟩ | ⟨s, h⟩
        · exact Or.inl ⟨k, List.mem_cons_of_mem _ h⟩
        · exact Or.inr ⟨s, List.mem_cons_of_mem _ h⟩
      cases e with
      | seen k p =>
        refine ⟨p :: n4, by rw [a4]; simp [apply1], ?_⟩
        intro x hx
        rcases List.mem_cons.mp hx with rfl | hx
        · exact Or.inl ⟨k, by simp⟩
        · exact hm x hx
      | analyzed s p =>
        refine ⟨p :: n4, by rw [a4]; simp [apply1], ?_⟩
        intro x hx
        rcases List.mem_cons.mp hx with rfl | hx
        · exact Or.inr ⟨s, by simp⟩
        · exact hm x hx
      | _ => exact ⟨n4, by rw [a4]; simp [apply1], hm⟩
    · intro s
      obtain ⟨h1, h2, h3⟩ := hs s
      obtain ⟨h4, h5, h6⟩ := b5 s
      exact ⟨h4.trans h1, h5.trans h2, fun h => (h6 (by rw [h2]; exact h)).trans (h3 h)⟩

/-- The connection has been given up. -/
def Dead (st : St) (n : Nat) : Prop := ∃ c, st.conns[n]? = some c ∧ c.st = .dead

structure Inv (st : St) : Prop extends InvM st where
  qout : ∀ it ∈ st.dtlsQ, it.dir = .out → okneed it.c.pkt ∧
    ∃ i, it.c.outS = some (rtp i) ∧ (st.dtls i = some it.conn ∨ Dead st it.conn)
  qsrtp : ∀ it ∈ st.dtlsQ, it.dir = .srtp → it.c.pkt.need = some it.conn ∧
    ∃ i, it.c.inS = rtp i ∧ (it.c.outS = none ∨ it.c.outS = some (rtp !i))
  qice : ∀ it ∈ st.iceQ, it.p.isStun = true ∧ it.s.rtcp = false
  seenOk : ∀ p ∈ st.seen, okneed p
  logOk : ∀ x ∈ st.log, x.who = .relay → okneed x.pkt

theorem inv_init : Inv init :=
  ⟨invM_init, by simp [init], by simp [init], by simp [init], by simp [init], by simp [init]⟩

/-- An event that leaves the connections in charge alone, and adds good things to queues and logs. -/
theorem inv_ext {st st' : St} (h : Inv st) (hm : InvM st')
    (hd : ∀ i n, st.dtls i = some n → st'.dtls i = some n ∨ Dead st' n)
    (hdead : ∀ n, Dead st n → Dead st' n)
    (hq : ∀ it ∈ st'.dtlsQ, it ∈ st.dtlsQ ∨
      ((it.dir = .out → okneed it.c.pkt ∧ ∃ i, it.c.outS = some (rtp i) ∧ (st'.dtls i = some it.conn)) ∧
       (it.dir = .srtp → it.c.pkt.need = some it.conn ∧
          ∃ i, it.c.inS = rtp i ∧ (it.c.outS = none ∨ it.c.outS = some (rtp !i)))))
    (hi : ∀ it ∈ st'.iceQ, it ∈ st.iceQ ∨ (it.p.isStun = true ∧ it.s.rtcp = false))
    (hs : ∀ p ∈ st'.seen, p ∈ st.seen ∨ okneed p)
    (hl : ∀ x ∈ st'.log, x ∈ st.log ∨ (x.who = .relay → okneed x.pkt)) : Inv st' := by
  refine ⟨hm, ?_, ?_, ?_, ?_, ?_⟩
  · intro it hit ho
    rcases hq it hit with h1 | h1
    · obtain ⟨h2, i, h3, h4⟩ := h.qout it h1 ho
      refine ⟨h2, i, h3, ?_⟩
      rcases h4 with h4 | h4
      · exact hd i _ h4
      · exact Or.inr (hdead _ h4)
    · obtain ⟨h2, i, h3, h4⟩ := h1.1 ho
      exact ⟨h2, i, h3, Or.inl h4⟩
  · intro it hit ho
    rcases hq it hit with h1 | h1
    · exact h.qsrtp it h1 ho
    · exact h1.2 ho
  · intro it hit
    rcases hi it hit with h1 | h1
    · exact h.qice it h1
    · exact h1
  · intro p hp
    rcases hs p hp with h1 | h1
    · exact h.seenOk p h1
    · exact h1
  · intro x hx
    rcases hl x hx with h1 | h1
    · exact h.logOk x h1
    · exact h1

/-- What a passage adds. -/
theorem pass_spec {st st' : St} {now : Int} {chg ir dr : Bool} {m : Sid} {c : Ctx} {n : Nat} (hi : InvM st)
    (hp : Pre st m c n) (h : pass st now chg ir dr m c n = .ok st') :
    (∃ new, st'.log = st.log ++ new ∧ ∀ x ∈ new, x.who = .relay ∧ x.dst = (st.strm x.to).rem ∧ x.pkt = c.pkt ∧
      Post st c n (.send x.to x.pkt)) ∧
    (∃ new, st'.iceQ = st.iceQ ++ new ∧ ∀ it ∈ new, Post st c n (.iceq it.agent it.s it.p)) ∧
    (∃ new, st'.dtlsQ = st.dtlsQ ++ new ∧ ∀ it ∈ new, it.c.pkt = c.pkt ∧ Post st c n (.dtlsq it.dir it.conn it.c)) ∧
    (∃ new, st'.seen = st.seen ++ new ∧ ∀ p ∈ new, p = c.pkt ∧ okneed p) ∧
    (∀ s, (st'.strm s).rem = (st.strm s).rem ∧ (st'.strm s).mode = (st.strm s).mode ∧
      ((st.strm s).mode = .forceOn → st'.strm s = st.strm s)) ∧
    st'.mgr = st.mgr ∧ st'.ice = st.ice ∧ st'.dtls = st.dtls ∧ st'.agents = st.agents ∧ st'.conns = st.conns ∧
    st'.fd = st.fd := by
  obtain ⟨r, hr, rfl⟩ := pass_ok h
  have he := handleat_effs hi ir dr depth m c n r hp hr
  have hk := handleat_pkt depth m c n r hr
  obtain ⟨⟨n1, a1, b1⟩, ⟨n2, a2, b2⟩, ⟨n3, a3, b3⟩, ⟨n4, a4, b4⟩, b5⟩ := applyAll_spec now chg r.2 st
  refine ⟨⟨n1, a1, ?_⟩, ⟨n2, a2, ?_⟩, ⟨n3, a3, ?_⟩, ⟨n4, a4, ?_⟩, b5, applyAll_frame now chg r.2 st⟩
  · intro x hx
    obtain ⟨h1, h2, h3⟩ := b1 x hx
    exact ⟨h1, h2, hk _ h3, he _ h3⟩
  · intro it hit; exact he _ (b2 it hit)
  · intro it hit; exact ⟨hk _ (b3 it hit), he _ (b3 it hit)⟩
  · intro p hp
    rcases b4 p hp with ⟨k, h⟩ | ⟨s, h⟩
    · exact ⟨hk _ h, he _ h⟩
    · exact ⟨hk _ h, he _ h⟩

theorem inv_pass {st st' : St} {now : Int} {chg ir dr : Bool} {m : Sid} {c : Ctx} {n : Nat} (hi : Inv st)
    (hp : Pre st m c n) (h : pass st now chg ir dr m c n = .ok st') : Inv st' := by
  obtain ⟨⟨n1, a1, b1⟩, ⟨n2, a2, b2⟩, ⟨n3, a3, b3⟩, ⟨n4, a4, b4⟩, _, c1, c2, c3, c4, c5, _⟩ :=
    pass_spec hi.toInvM hp h
  refine inv_ext hi (invM_pass hi.toInvM h) ?_ ?_ ?_ ?_ ?_ ?_
  · intro i k hk; rw [c3]; exact Or.inl hk
  · rintro k ⟨x, h1, h2⟩; exact ⟨x, by rw [c5]; exact h1, h2⟩
  · intro it hit
    rw [a3] at hit
    rcases List.mem_append.mp hit with hit | hit
    · exact Or.inl hit
    · right
      obtain ⟨_, h2⟩ := b3 it hit
      refine ⟨?_, ?_⟩ <;> intro hd <;> rw [hd] at h2
      · rw [c3]; exact h2
      · obtain ⟨h3, i, h4, _, h5⟩ := h2
        exact ⟨h3, i, h4, h5⟩
  · intro it hit
    rw [a2] at hit
    rcases List.mem_append.mp hit with hit | hit
    · exact Or.inl hit
    · obtain ⟨_, _, _, h4, i, h5, _⟩ := b2 it hit
      exact Or.inr ⟨h4, by rw [h5]⟩
  · intro p hp
    rw [a4] at hp
    rcases List.mem_append.mp hp with hp | hp
    · exact Or.inl hp
    · exact Or.inr (b4 p hp).2
  · intro x hx
    rw [a1] at hx
    rcases List.mem_append.mp hx with hx | hx
    · exact Or.inl hx
    · exact Or.inr fun _ => (b1 x hx).2.2.2.1

/-! ### When passages start -/

theorem pre_rx {st : St} (s : Sid) (buf : List UInt8) (src : Addr) (peer : Bool) (f : Sid → Latch.Strm) :
    Pre { st with strm := f } s ⟨s, if peer then some s.rev else none, arrived st s buf src, false⟩ 0 := by
  refine ⟨Or.inl ⟨by omega, ?_⟩, ?_, ?_⟩
  · cases peer
    · exact Or.inl rfl
    · exact Or.inr rfl
  · obtain ⟨r, i⟩ := s
    cases r
    · cases hd : st.dtls i with
      | none => exact Or.inl (Or.inl (by simp [arrived, hd]))
      | some n => exact Or.inr ⟨rfl, i, n, rfl, hd, by simp [arrived, hd]⟩
    · exact Or.inl (Or.inl rfl)
  · intro _
    refine ⟨rfl, rfl, ?_⟩
    intro hr
    simp [arrived, hr]

theorem pre_inject {st : St} (s : Sid) (p : Pkt) (cow rz : Bool) :
    Pre st s ⟨s, some s.rev, { p with sealedBy := none, need := none }, cow⟩
      (if rz then oResize + 1 else oPlay + 1) := by
  refine ⟨Or.inl ⟨by cases rz <;> decide, Or.inr rfl⟩, Or.inl (Or.inl rfl), ?_⟩
  intro h
  exact absurd h (by cases rz <;> decide)

theorem pre_srtp {st : St} (h : Inv st) {it : DItem} (hit : it ∈ st.dtlsQ) (hd : it.dir = .srtp) (b : List UInt8)
    (q : List DItem) :
    Pre { st with dtlsQ := q } it.c.inS
      { it.c with pkt := { it.c.pkt with buf := b, openedBy := some it.conn, sealedBy := none } } (oDecrypt + 1) := by
  obtain ⟨h1, i, h2, h3⟩ := h.qsrtp it hit hd
  refine ⟨Or.inl ⟨by decide, ?_⟩, Or.inl (Or.inr (by rw [h1])), ?_⟩
  · rw [h2]; exact h3
  · intro hc; exact absurd hc (by decide)

theorem pre_out {st : St} (h : Inv st) {it : DItem} (hit : it ∈ st.dtlsQ) (hd : it.dir = .out) (b : List UInt8)
    (q : List DItem) {c : Conn} (hc : st.conns[it.conn]? = some c) (hu : c.st = .up) :
    Pre { st with dtlsQ := q } it.c.inS
      { it.c with pkt := { it.c.pkt with buf := b, sealedBy := some it.conn }, cow := false } (oEncrypt + 1) := by
  obtain ⟨h1, i, h2, h3⟩ := h.qout it hit hd
  refine ⟨Or.inr ⟨rfl, i, it.conn, h2, ?_, rfl⟩, Or.inl h1, ?_⟩
  · rcases h3 with h3 | ⟨x, h4, h5⟩
    · exact h3
    · rw [hc] at h4; cases h4; rw [hu] at h5; cases h5
  · intro hc; exact absurd hc (by decide)

/-! ### Events -/

/-- Nothing that the queues and logs are about changes. -/
theorem inv_quiet {st st' : St} (h : Inv st) (hm : InvM st') (hd : st'.dtls = st.dtls) (hc : st'.conns = st.conns)
    (hq : st'.dtlsQ ⊆ st.dtlsQ) (hi : st'.iceQ ⊆ st.iceQ) (hs : st'.seen = st.seen)
    (hl : ∀ x ∈ st'.log, x ∈ st.log ∨ (x.who = .relay → okneed x.pkt)) : Inv st' := by
  refine inv_ext h hm ?_ ?_ ?_ ?_ ?_ hl
  · intro i n hn; rw [hd]; exact Or.inl hn
  · rintro n ⟨c, h1, h2⟩; exact ⟨c, by rw [hc]; exact h1, h2⟩
  · intro it hit; exact Or.inl (hq hit)
  · intro it hit; exact Or.inl (hi hit)
  · intro p hp; rw [hs] at hp; exact Or.inl hp

theorem agentOf_frame (st : St) (i : Bool) :
    (agentOf st i).1.dtls = st.dtls ∧ (agentOf st i).1.conns = st.conns ∧ (agentOf st i).1.dtlsQ = st.dtlsQ ∧
    (agentOf st i).1.iceQ = st.iceQ ∧ (agentOf st i).1.seen = st.seen ∧ (agentOf st i).1.log = st.log ∧
    (agentOf st i).1.fd = st.fd := by
  simp only [agentOf]
  split <;> exact ⟨rfl, rfl, rfl, rfl, rfl, rfl, rfl⟩

theorem dead_setConn {st : St} {n : Nat} {c c' : Conn} (hc : st.conns[n]? = some c) (hd : c.st = .dead → c'.st = .dead)
    {m : Nat} (h : Dead st m) : Dead (setConn st n c') m := by
  obtain ⟨x, h1, h2⟩ := h
  by_cases e : n = m
  · subst e
    rw [hc] at h1; cases h1
    refine ⟨c', ?_, hd h2⟩
    have hlt := (List.getElem?_eq_some_iff.mp hc).1
    simp [setConn, hlt]
  · exact ⟨x, by simp [setConn, e, h1], h2⟩

/-- The cases of the work of the DTLS thread. -/
theorem dtlsWork_cases {st st' : St} {now : Int} {hs : Hs} {cr : Option (List UInt8)} {sends : List (List UInt8)}
    {chg dr : Bool} (he : dtlsWork st now hs cr sends chg dr = .ok st') :
    (st.dtlsQ = [] ∧ st' = st) ∨
    ∃ it q, st.dtlsQ = it :: q ∧
      ((st' = { st with dtlsQ := q }) ∨
       (∃ c, it.dir = .dtls ∧ st.conns[it.conn]? = some c ∧
          st' = { setConn { st with dtlsQ := q } it.conn (dtlsRecv c hs) with
            log := st.log ++ sends.map fun b =>
              ⟨it.c.inS, (st.strm it.c.inS).rem, { buf := b, src := it.c.pkt.src }, By.hs it.conn⟩ }) ∨
       (∃ c b, it.dir = .srtp ∧ st.conns[it.conn]? = some c ∧ c.st = .up ∧ cr = some b ∧
          pass { st with dtlsQ := q } now chg true dr it.c.inS
            { it.c with pkt := { it.c.pkt with buf := b, openedBy := some it.conn, sealedBy := none } } (oDecrypt + 1)
            = .ok st') ∨
       (∃ c b, it.dir = .out ∧ st.conns[it.conn]? = some c ∧ c.st = .up ∧ cr = some b ∧ b.length ≤ maxLen ∧
          pass { st with dtlsQ := q } now chg true dr it.c.inS
            { it.c with pkt := { it.c.pkt with buf := b, sealedBy := some it.conn }, cow := false } (oEncrypt + 1)
            = .ok st')) := by
  simp only [dtlsWork] at he
  split at he
  next hq => cases he; exact Or.inl ⟨hq, rfl⟩
  next it q hq =>
    refine Or.inr ⟨it, q, hq, ?_⟩
    split at he
    · cases he; exact Or.inl rfl
    next c hc =>
      split at he
      next hdir => cases he; exact Or.inr (Or.inl ⟨c, hdir, hc, rfl⟩)
      next hdir =>
        split at he
        · cases he; exact Or.inl rfl
        next hu =>
          split at he
          · cases he; exact Or.inl rfl
          next b => exact Or.inr (Or.inr (Or.inl ⟨c, b, hdir, hc, by simpa using hu, rfl, he⟩))
      next hdir =>
        split at he
        · cases he; exact Or.inl rfl
        next hu =>
          split at he
          · cases he; exact Or.inl rfl
          next b =>
            split at he
            · cases he
            next hlen => exact Or.inr (Or.inr (Or.inr ⟨c, b, hdir, hc, by simpa using hu, rfl, by omega, he⟩))

/-- The cases of the reception of a datagram. -/
theorem rx_cases {st st' : St} {s : Sid} {now : Int} {buf : List UInt8} {src : Addr} {chg peer ir dr : Bool} (h : InvM st)
    (hs : receive st s now buf src chg peer ir dr = .ok st') :
    ((latchIn st s now (arrived st s buf src)).2 = false ∧
      st' = { st with strm := (latchIn st s now (arrived st s buf src)).1 }) ∨
    ((latchIn st s now (arrived st s buf src)).2 = true ∧
      InvM { st with strm := (latchIn st s now (arrived st s buf src)).1 } ∧
      Pre { st with strm := (latchIn st s now (arrived st s buf src)).1 } s
        ⟨s, if peer then some s.rev else none, arrived st s buf src, false⟩ 0 ∧
      pass { st with strm := (latchIn st s now (arrived st s buf src)).1 } now chg ir dr s
        ⟨s, if peer then some s.rev else none, arrived st s buf src, false⟩ 0 = .ok st') := by
  simp only [receive] at hs
  split at hs
  next h0 => cases hs; exact Or.inl ⟨h0, rfl⟩
  next h0 =>
    refine Or.inr ⟨by simpa using h0, invM_same h ?_ ?_ ?_ ?_ ?_, pre_rx s buf src peer _, hs⟩ <;> rfl

/-- What the ICE agent sends while it handles an item. -/
def stunOut (it : IItem) (rs : List (Addr × List UInt8)) : List Sent :=
  rs.map fun r => ⟨it.s, some r.1, { buf := r.2, src := r.1 }, By.stun it.agent⟩

theorem stunOut_who {it : IItem} {rs : List (Addr × List UInt8)} {x : Sent} (h : x ∈ stunOut it rs) :
    x.who = .stun it.agent := by
  obtain ⟨r, _, rfl⟩ := List.mem_map.mp h
  rfl

/-- The cases of the work of the ICE thread. -/
theorem iceWork_cases (st : St) (now : Int) (fl : List Bool) (rs : List (Addr × List UInt8)) :
    (st.iceQ = [] ∧ iceWork st now fl rs = st) ∨
    ∃ it q, st.iceQ = it :: q ∧
      (iceWork st now fl rs = { st with iceQ := q } ∨
       ∃ g, st.agents[it.agent]? = some g ∧ g.bound = true ∧
         ((g.completed = false ∧ isCompleted fl = true ∧ iceWork st now fl rs =
             { st with iceQ := q, log := st.log ++ stunOut it rs,
                       agents := st.agents.set it.agent { g with completed := true },
                       strm := upd st.strm it.s
                         (Latch.latch { st.strm it.s with mode := .forceOn } now it.p.lat) }) ∨
          (¬ (g.completed = false ∧ isCompleted fl = true) ∧ iceWork st now fl rs =
             { st with iceQ := q, log := st.log ++ stunOut it rs }))) := by
  cases hq : st.iceQ with
  | nil => left; simp [iceWork, hq]
  | cons it q =>
    right
    refine ⟨it, q, rfl, ?_⟩
    cases hg : st.agents[it.agent]? with
    | none => left; simp [iceWork, hq, hg]
    | some g =>
      cases hb : g.bound with
      | false => left; simp [iceWork, hq, hg, hb]
      | true =>
        right
        refine ⟨g, rfl, hb, ?_⟩
        by_cases hc : g.completed = false ∧ isCompleted fl = true
        · refine Or.inl ⟨hc.1, hc.2, ?_⟩
          simp [iceWork, hq, hg, hb, hc, setAgent, stunOut]
        · refine Or.inr ⟨hc, ?_⟩
          simp only [iceWork, hq, hg, hb, hc, stunOut, if_false, Bool.true_eq_false]

theorem invM_q {st : St} (h : InvM st) (q : List DItem) : InvM { st with dtlsQ := q } := by
  refine invM_same h ?_ ?_ ?_ ?_ ?_ <;> rfl

theorem inv_step {st st' : St} {e : Ev} {b : Bool} (h : Inv st) (hs : step st e = .ok (st', b)) : Inv st' := by
  have hM := invM_step h.toInvM hs
  cases e with
  | rx s now buf src chg peer ir dr =>
    have hs := (ok1_ok hs).1
    simp only [receive] at hs
    have h0 : Inv { st with strm := (latchIn st s now (arrived st s buf src)).1 } := by
      refine inv_quiet h (invM_same h.toInvM ?_ ?_ ?_ ?_ ?_) rfl rfl (fun _ x => x) (fun _ x => x) rfl
        (fun x hx => Or.inl hx) <;> rfl
    split at hs
    · cases hs; exact h0
    · exact inv_pass h0 (pre_rx s buf src peer _) hs
  | inject s now p cow rz chg dr => exact inv_pass h (pre_inject s p cow rz) (ok1_ok hs).1
  | iceWork now fl rs =>
    cases hs
    simp only [iceWork] at hM ⊢
    split at hM
    · exact h
    next it q hq =>
      have hsub : q ⊆ st.iceQ := by rw [hq]; exact List.subset_cons_self ..
      have hlog : ∀ x ∈ st.log ++ rs.map (fun r => (⟨it.s, some r.1, { buf := r.2, src := r.1 }, By.stun it.agent⟩ : Sent)),
          x ∈ st.log ∨ (x.who = .relay → okneed x.pkt) := by
        intro x hx
        rcases List.mem_append.mp hx with hx | hx
        · exact Or.inl hx
        · right
          obtain ⟨r, _, rfl⟩ := List.mem_map.mp hx
          exact fun _ => Or.inl rfl
      split at hM
      · exact inv_quiet h hM rfl rfl (fun _ x => x) hsub rfl (fun x hx => Or.inl hx)
      · split at hM
        next hb => simp only [if_pos hb]; exact inv_quiet h hM rfl rfl (fun _ x => x) hsub rfl (fun x hx => Or.inl hx)
        next hb =>
          simp only [if_neg hb]
          split at hM
          next hc => simp only [if_pos hc]; exact inv_quiet h hM rfl rfl (fun _ x => x) hsub rfl hlog
          next hc => simp only [if_neg hc]; exact inv_quiet h hM rfl rfl (fun _ x => x) hsub rfl hlog
  | dtlsWork now x cr sends chg dr =>
    have hs := (ok1_ok hs).1
    rcases dtlsWork_cases hs with ⟨_, rfl⟩ | ⟨it, q, hq, hc⟩
    · exact h
    have hsub : q ⊆ st.dtlsQ := by rw [hq]; exact List.subset_cons_self ..
    have hmem : it ∈ st.dtlsQ := by rw [hq]; exact List.mem_cons_self ..
    have h0 : Inv { st with dtlsQ := q } := by
      refine inv_quiet h (invM_same h.toInvM ?_ ?_ ?_ ?_ ?_) rfl rfl hsub (fun _ x => x) rfl
        (fun x hx => Or.inl hx) <;> rfl
    rcases hc with rfl | ⟨c, hd, hc, rfl⟩ | ⟨c, b, hd, hc, hu, rfl, hp⟩ | ⟨c, b, hd, hc, hu, rfl, hl, hp⟩
    · exact h0
    · refine inv_ext h hM (fun i n hn => Or.inl hn) ?_ ?_ (fun it h => Or.inl h) (fun it h => Or.inl h) ?_
      · intro n hn
        exact dead_setConn (st := st) hc (fun hd => by rw [dtlsRecv_dead hd]; exact hd) hn
      · intro it hit; exact Or.inl (hsub hit)
      · intro y hy
        rcases List.mem_append.mp hy with hy | hy
        · exact Or.inl hy
        · right
          obtain ⟨r, _, rfl⟩ := List.mem_map.mp hy
          exact fun _ => Or.inl rfl
    · exact inv_pass h0 (pre_srtp h hmem hd b q) hp
    · exact inv_pass h0 (pre_out h hmem hd b q hc hu) hp
  | iceStart i comp cand =>
    simp only [step] at hs
    obtain ⟨e1, e2, e3, e4, e5, e6, _⟩ := agentOf_frame st i
    split at hs
    · cases hs
      exact inv_quiet h hM e1 e2 (by rw [e3]; exact fun _ x => x) (by rw [e4]; exact fun _ x => x) e5
        (by rw [e6]; exact fun x hx => Or.inl hx)
    · cases hs
      exact inv_quiet h hM e1 e2 (by simp only [setAgent]; rw [e3]; exact fun _ x => x)
        (by simp only [setAgent]; rw [e4]; exact fun _ x => x) e5
        (by simp only [setAgent]; rw [e6]; exact fun x hx => Or.inl hx)
  | iceAuth i ok =>
    cases hs
    obtain ⟨e1, e2, e3, e4, e5, e6, _⟩ := agentOf_frame st i
    exact inv_quiet h hM e1 e2 (by rw [e3]; exact fun _ x => x) (by rw [e4]; exact fun _ x => x) e5
        (by rw [e6]; exact fun x hx => Or.inl hx)
  | iceOff i =>
    rcases iceOff_spec h.toInvM i with ⟨_, h1⟩ | ⟨a, l1, l3, hi, h1, _⟩ <;> simp only [step] at hs <;> rw [h1] at hs <;>
      cases hs
    · exact h
    · exact inv_quiet h hM rfl rfl (fun _ x => x) (fun _ x => x) rfl (fun x hx => Or.inl hx)
  | dtlsOn i sp b' =>
    simp only [step, Except.ok.injEq] at hs
    cases hi : st.dtls i with
    | some n =>
      obtain ⟨c, hc, e⟩ := dtlsOn_some h.toInvM hi sp b'
      rw [e] at hs; cases hs
      refine inv_ext h hM (fun i n hn => Or.inl hn) ?_ (fun it h => Or.inl h) (fun it h => Or.inl h)
        (fun it h => Or.inl h) (fun it h => Or.inl h)
      intro m hm
      exact dead_setConn hc setmode_dead hm
    | none =>
      rw [dtlsOn_none h.toInvM hi] at hs
      split at hs
      · cases hs
        refine inv_ext h hM ?_ ?_ (fun it h => Or.inl h) (fun it h => Or.inl h)
          (fun it h => Or.inl h) (fun it h => Or.inl h)
        · intro j n hn
          left
          have : j ≠ i := by rintro rfl; rw [hi] at hn; cases hn
          simpa only [upd_ne _ _ this] using hn
        · rintro m ⟨c, h1, h2⟩
          have hlt := (List.getElem?_eq_some_iff.mp h1).1
          exact ⟨c, by simp only; rw [List.getElem?_append_left hlt]; exact h1, h2⟩
      · cases hs; exact h
  | dtlsOff i =>
    rcases dtlsOff_spec h.toInvM i with ⟨_, h1⟩ | ⟨n, c, l1, l2, hi, hc, h1, _⟩ <;> simp only [step] at hs <;>
      rw [h1] at hs <;> cases hs
    · exact h
    · have hdd := fun m => dead_setConn (st := st) (c' := { c with st := .dead }) (m := m) hc (fun _ => rfl)
      refine inv_ext h hM ?_ (fun m hm => hdd m hm) (fun it h => Or.inl h) (fun it h => Or.inl h)
        (fun it h => Or.inl h) (fun it h => Or.inl h)
      intro j m hm
      by_cases e : j = i
      · subst e
        rw [hi] at hm; cases hm
        right
        have hlt := (List.getElem?_eq_some_iff.mp hc).1
        exact ⟨{ c with st := .dead }, by simp [hlt], rfl⟩
      · left; simpa only [upd_ne _ _ e] using hm
  | reg s order n f =>
    simp only [step] at hs
    split at hs <;> cases hs
    · exact inv_quiet h hM rfl rfl (fun _ x => x) (fun _ x => x) rfl (fun x hx => Or.inl hx)
    · exact h
  | unreg s n =>
    simp only [step] at hs
    split at hs <;> cases hs
    · exact h
    · exact inv_quiet h hM rfl rfl (fun _ x => x) (fun _ x => x) rfl (fun x hx => Or.inl hx)
  | prefill s now a =>
    cases hs; exact inv_quiet h hM rfl rfl (fun _ x => x) (fun _ x => x) rfl (fun x hx => Or.inl hx)
  | socket s x =>
    cases hs; exact inv_quiet h hM rfl rfl (fun _ x => x) (fun _ x => x) rfl (fun x hx => Or.inl hx)

theorem inv_run {st st' : St} (es : List Ev) (h : Inv st) (hs : run st es = .ok st') : Inv st' := by
  induction es generalizing st with
  | nil => cases hs; exact h
  | cons e es ih =>
    simp only [run] at hs
    split at hs
    · cases hs
    next s b he => exact ih (inv_step h he) hs

theorem Reachable.inv {st : St} (h : Reachable st) : Inv st := by
  obtain ⟨es, hs⟩ := h
  exact inv_run es inv_init hs

end Verif.Plane
