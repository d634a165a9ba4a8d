import Verif.Plane.Inv

/-! # What a passage through the chains can do -/

namespace Verif.Plane

open Verif.Pproc (Act)
open Verif.Latch (Addr)

/-- The processors of a chain, one by one. -/
theorem proc_cases {st : St} (h : InvM st) {s : Sid} {q : Proc} (hq : q ∈ st.mgr s) :
    (∃ i a, s = rtp i ∧ st.ice i = some a ∧ q = ⟨oRecv, .ice, .ice a⟩) ∨
    (∃ i a, s = rtp i ∧ st.ice i = some a ∧ q = ⟨oCtRecv, .dmx, .dmx (rtcp i) (rtcp !i)⟩) ∨
    (∃ i a, s = rtcp i ∧ st.ice (!i) = some a ∧ q = ⟨oCtSend, .mx, .mx (rtcp i) (rtp !i)⟩) ∨
    (∃ i n, s = rtp i ∧ st.dtls i = some n ∧ q = ⟨oDecrypt, .din, .din n⟩) ∨
    (∃ i n, s = rtp i ∧ st.dtls (!i) = some n ∧ q = ⟨oEncrypt, .dout, .dout n⟩) ∨
    q = ⟨oRelay, .relay, .relay⟩ ∨
    (4 ≤ q.order ∧ q.order ≤ 9 ∧ (q.kind = .analyze ∨ ∃ f, q.kind = .other f)) := by
  by_cases ho : ∃ n, q.key = .other n
  · obtain ⟨n, hn⟩ := ho
    exact Or.inr (Or.inr (Or.inr (Or.inr (Or.inr (Or.inr (h.other s q n hq hn))))))
  · have hw : q ∈ want st.ice st.dtls s q.key := by
      rw [← h.keys s q.key (fun n hn => ho ⟨n, hn⟩)]
      exact mem_sel.mpr ⟨hq, rfl⟩
    obtain ⟨r, j⟩ := s
    cases hk : q.key <;> rw [hk] at hw <;> cases r <;> simp [want] at hw
    · obtain ⟨a, h1, rfl⟩ := hw
      exact Or.inl ⟨j, a, rfl, h1, rfl⟩
    · obtain ⟨⟨a, h1⟩, rfl⟩ := hw
      exact Or.inr (Or.inl ⟨j, a, rfl, h1, rfl⟩)
    · obtain ⟨⟨a, h1⟩, rfl⟩ := hw
      exact Or.inr (Or.inr (Or.inl ⟨j, a, rfl, h1, rfl⟩))
    · obtain ⟨a, h1, rfl⟩ := hw
      exact Or.inr (Or.inr (Or.inr (Or.inl ⟨j, a, rfl, h1, rfl⟩)))
    · obtain ⟨a, h1, rfl⟩ := hw
      exact Or.inr (Or.inr (Or.inr (Or.inr (Or.inl ⟨j, a, rfl, h1, rfl⟩))))
    · exact Or.inr (Or.inr (Or.inr (Or.inr (Or.inr (Or.inl hw)))))
    · exact Or.inr (Or.inr (Or.inr (Or.inr (Or.inr (Or.inl hw)))))

theorem mem_ice {st : St} (h : InvM st) {i : Bool} {a : Nat} (hi : st.ice i = some a) :
    (⟨oRecv, .ice, .ice a⟩ : Proc) ∈ st.mgr (rtp i) := by
  have : (⟨oRecv, .ice, .ice a⟩ : Proc) ∈ sel .ice (st.mgr (rtp i)) := by
    rw [h.keys _ _ (by simp)]; simp [want, hi]
  exact (mem_sel.mp this).1

theorem mem_din {st : St} (h : InvM st) {i : Bool} {n : Nat} (hi : st.dtls i = some n) :
    (⟨oDecrypt, .din, .din n⟩ : Proc) ∈ st.mgr (rtp i) := by
  have : (⟨oDecrypt, .din, .din n⟩ : Proc) ∈ sel .din (st.mgr (rtp i)) := by
    rw [h.keys _ _ (by simp)]; simp [want, hi]
  exact (mem_sel.mp this).1

theorem mem_dout {st : St} (h : InvM st) {i : Bool} {n : Nat} (hi : st.dtls (!i) = some n) :
    (⟨oEncrypt, .dout, .dout n⟩ : Proc) ∈ st.mgr (rtp i) := by
  have : (⟨oEncrypt, .dout, .dout n⟩ : Proc) ∈ sel .dout (st.mgr (rtp i)) := by
    rw [h.keys _ _ (by simp)]; simp [want, hi]
  exact (mem_sel.mp this).1

/-- In a sorted chain what has a lower order comes first. -/
theorem before {pre post : List Proc} {p q : Proc} (hs : Sorted (pre ++ p :: post)) (hq : q ∈ pre ++ p :: post)
    (h : q.order < p.order) : q ∈ pre := by
  rcases List.mem_append.mp hq with hq | hq
  · exact hq
  · rcases List.mem_cons.mp hq with rfl | hq
    · omega
    · have := (List.pairwise_cons.mp (List.pairwise_append.mp hs).2.1).1 q hq
      omega

/-- The loop runs a processor only if all those before it that were to run let the packet go on. -/
theorem loop_effs2 {nested : Sid → Ctx → Nat → Except Fault (Act × List Eff)} {v : View} {c : Ctx} {s : Nat}
    {Q : Eff → Prop} {l : List Proc} {a : Act} {t : Enq}
    (h : ∀ pre p post, l = pre ++ p :: post →
      (∀ q ∈ pre, s ≤ q.order → likes v c q.kind = true →
        ∃ r, enq nested v c q.key q.kind = .ok r ∧ r.act.take = false ∧ r.act.drop = false) →
      s ≤ p.order → likes v c p.kind = true →
      ∀ r, enq nested v c p.key p.kind = .ok r → ∀ e ∈ r.effs, Q e)
    (ht : loop nested v c s l a = .ok t) : ∀ e ∈ t.effs, Q e := by
  suffices H : ∀ pre0 l', l = pre0 ++ l' →
      (∀ q ∈ pre0, s ≤ q.order → likes v c q.kind = true →
        ∃ r, enq nested v c q.key q.kind = .ok r ∧ r.act.take = false ∧ r.act.drop = false) →
      ∀ a t, loop nested v c s l' a = .ok t → ∀ e ∈ t.effs, Q e from
    H [] l rfl (by simp) a t ht
  intro pre0 l'
  induction l' generalizing pre0 with
  | nil =>
    intro _ _ a t ht
    simp only [loop, Except.ok.injEq] at ht
    subst ht
    simp
  | cons p ps ih =>
    intro hl hp a t ht
    have hl2 : l = (pre0 ++ [p]) ++ ps := by rw [hl]; simp
    simp only [loop] at ht
    split at ht
    next hs =>
      refine ih (pre0 ++ [p]) hl2 ?_ _ _ ht
      intro q hq h1
      rcases List.mem_append.mp hq with hq | hq
      · exact hp q hq h1
      · rw [List.mem_singleton] at hq; subst hq; omega
    next hs =>
      split at ht
      next hlk =>
        refine ih (pre0 ++ [p]) hl2 ?_ _ _ ht
        intro q hq h1 h2
        rcases List.mem_append.mp hq with hq | hq
        · exact hp q hq h1 h2
        · rw [List.mem_singleton] at hq; subst hq; rw [hlk] at h2; cases h2
      next hlk =>
        have hl' : likes v c p.kind = true := by simpa using hlk
        split at ht
        · cases ht
        next r hr =>
          have hr' := h pre0 p ps hl hp (by omega) hl' r hr
          split at ht
          · cases ht; exact hr'
          next hgo =>
            split at ht
            · cases ht
            · split at ht
              · cases ht
              next t2 ht2 =>
                cases ht
                intro e he
                rcases List.mem_append.mp he with he | he
                · exact hr' e he
                · refine ih (pre0 ++ [p]) hl2 ?_ _ _ ht2 e he
                  intro q hq h1 h2
                  rcases List.mem_append.mp hq with hq | hq
                  · exact hp q hq h1 h2
                  · rw [List.mem_singleton] at hq
                    subst hq
                    simp only [Act.or, Bool.or_eq_true, not_or, Bool.not_eq_true] at hgo
                    exact ⟨r, hr, hgo.1.2, hgo.2.2⟩

/-- A packet that arrived at a stream in the charge of a DTLS connection has been verified by it. -/
def okneed (p : Pkt) : Prop := p.need = none ∨ p.openedBy = p.need

/-- When a passage may start. -/
structure Pre (st : St) (m : Sid) (c : Ctx) (startat : Nat) : Prop where
  conf : (startat ≤ 11 ∧ (c.outS = none ∨ c.outS = some m.rev)) ∨
    (startat = 12 ∧ ∃ i n, c.outS = some (rtp i) ∧ st.dtls i = some n ∧ c.pkt.sealedBy = some n)
  auth : okneed c.pkt ∨ (startat = 0 ∧ ∃ i n, m = rtp i ∧ st.dtls i = some n ∧ c.pkt.need = some n)
  start : startat ≤ 2 → startat = 0 ∧ c.inS = m ∧ (m.rtcp = false → c.pkt.need = st.dtls m.side)

/-- What holds of the effects of a passage. -/
def Post (st : St) (c : Ctx) (startat : Nat) : Eff → Prop
  | .send to p => okneed p ∧ ∀ i n, to = rtp i → st.dtls i = some n → p.sealedBy = some n
  | .iceq a s p => startat = 0 ∧ s = c.inS ∧ p = c.pkt ∧ p.isStun = true ∧ ∃ i, s = rtp i ∧ st.ice i = some a
  | .dtlsq .out n x => okneed x.pkt ∧ ∃ i, x.outS = some (rtp i) ∧ st.dtls i = some n
  | .dtlsq .srtp n x => x.pkt.need = some n ∧ ∃ i, x.inS = rtp i ∧ st.dtls i = some n ∧
      (x.outS = none ∨ x.outS = some (rtp !i))
  | .dtlsq .dtls n x => ∃ i, x.inS = rtp i ∧ st.dtls i = some n
  | .took _ p => okneed p
  | .drop _ _ => True
  | .seen _ p => okneed p
  | .analyzed _ p => okneed p

theorem Post.mono {st : St} {c c' : Ctx} {s s' : Nat} {e : Eff} (hs : 0 < s') (h : Post st c' s' e) :
    Post st c s e := by
  cases e with
  | iceq a s p => have := h.1; omega
  | dtlsq d n x => cases d <;> exact h
  | _ => exact h

theorem rev_rev (s : Sid) : s.rev.rev = s := by simp [Sid.rev]

theorem wrap_ok {x : Except Fault (Act × List Eff)} {r : Enq} (h : wrap x = .ok r) :
    ∃ y, x = .ok y ∧ r = ⟨y.1, false, y.2⟩ := by
  cases x with
  | error e => cases h
  | ok y => cases h; exact ⟨y, rfl, rfl⟩

theorem din_final {nested : Sid → Ctx → Nat → Except Fault (Act × List Eff)} {v : View} {c : Ctx} {k : Key} {n : Nat}
    {r : Enq} (h : enq nested v c k (.din n) = .ok r) : (r.act.take || r.act.drop) = true := by
  simp only [enq] at h
  split at h <;> cases h <;> rfl

theorem dout_final {nested : Sid → Ctx → Nat → Except Fault (Act × List Eff)} {v : View} {c : Ctx} {k : Key} {n : Nat}
    {r : Enq} (h : enq nested v c k (.dout n) = .ok r) : (r.act.take || r.act.drop) = true := by
  simp only [enq] at h
  split at h <;> cases h <;> rfl

theorem handleat_effs {st : St} (h : InvM st) (ir dr : Bool) : ∀ (fuel : Nat) (m : Sid) (c : Ctx) (startat : Nat)
    (r : Act × List Eff), Pre st m c startat → handleat (st.view ir dr) fuel m c startat = .ok r →
    ∀ e ∈ r.2, Post st c startat e := by
  intro fuel
  induction fuel with
  | zero => intro m c startat r _ hr; cases hr
  | succ fuel ih =>
    intro m c startat r hp hr
    obtain ⟨t, ht, hr2⟩ := finish_ok hr
    suffices H : ∀ e ∈ t.effs, Post st c startat e by
      intro e he
      rcases hr2 with hr2 | hr2 <;> rw [hr2] at he
      · exact H e he
      · rcases List.mem_append.mp he with he | he
        · exact H e he
        · rw [List.mem_singleton] at he; subst he; trivial
    refine loop_effs2 ?_ ht
    intro pre p post hl hpre hsp hlk y hy
    have hmem : p ∈ st.mgr m := by
      show p ∈ (st.view ir dr).mgr m
      rw [hl]; simp
    have hsort : Sorted (pre ++ p :: post) := by rw [← hl]; exact h.sorted m
    -- what runs behind the decryption has been verified
    have hauth : 2 < p.order → okneed c.pkt := by
      intro ho
      rcases hp.auth with ha | ⟨h0, i, n, rfl, hd, _⟩
      · exact ha
      · have hb : (⟨oDecrypt, .din, .din n⟩ : Proc) ∈ pre :=
          before hsort (by rw [← hl]; exact mem_din h hd) ho
        obtain ⟨x, hx, x1, x2⟩ := hpre _ hb (by omega) rfl
        have := din_final hx
        rw [x1, x2] at this; cases this
    -- what runs behind the encryption is for a stream without it, or encrypted
    have hconf : 11 < p.order → ∀ i n, c.outS = some (rtp i) → st.dtls i = some n → c.pkt.sealedBy = some n := by
      intro ho i n ho1 hd
      rcases hp.conf with ⟨h1, h2 | h2⟩ | ⟨h1, i', n', h2, h3, h4⟩
      · rw [ho1] at h2; cases h2
      · rw [ho1] at h2
        have hm : m = rtp (!i) := by
          rw [← rev_rev m]; injection h2 with h2; rw [← h2]; rfl
        subst hm
        have hb : (⟨oEncrypt, .dout, .dout n⟩ : Proc) ∈ pre :=
          before hsort (by rw [← hl]; exact mem_dout h (by simpa using hd)) ho
        obtain ⟨x, hx, x1, x2⟩ := hpre _ hb h1 (by simp [likes, ho1])
        have := dout_final hx
        rw [x1, x2] at this; cases this
      · rw [ho1] at h2
        have : i = i' := by simpa [rtp] using h2
        subst this
        rw [hd] at h3; rw [h3]; exact h4
    rcases proc_cases h hmem with ⟨i, a, rfl, hi, rfl⟩ | ⟨i, a, rfl, hi, rfl⟩ | ⟨i, a, rfl, hi, rfl⟩ |
      ⟨i, n, rfl, hi, rfl⟩ | ⟨i, n, rfl, hi, rfl⟩ | rfl | ⟨ho1, ho2, hk⟩
    · -- ICE
      obtain ⟨h0, hin, _⟩ := hp.start (by simp only [oRecv] at hsp; omega)
      simp only [enq] at hy
      split at hy
      next hstun =>
        split at hy
        · cases hy
          intro e he
          rw [List.mem_singleton] at he
          subst he
          exact ⟨h0, rfl, rfl, hstun, i, hin, hi⟩
        · cases hy; simp
      · cases hy; simp
    · -- RTCP out of the multiplex
      simp only [enq] at hy
      obtain ⟨z, hz, rfl⟩ := wrap_ok hy
      intro e he
      refine Post.mono (s' := oCtRecv) (by decide) (ih _ _ _ _ ?_ hz e he)
      refine ⟨Or.inl ⟨by decide, Or.inr rfl⟩, Or.inl (hauth (by show 2 < 3; omega)), ?_⟩
      intro hc; exact absurd hc (by decide)
    · -- RTCP into the multiplex
      simp only [enq] at hy
      obtain ⟨z, hz, rfl⟩ := wrap_ok hy
      intro e he
      refine Post.mono (s' := oCtSend) (by decide) (ih _ _ _ _ ?_ hz e he)
      refine ⟨Or.inl ⟨by decide, Or.inr (by rw [rev_rev])⟩, Or.inl (hauth (by show 2 < 10; omega)), ?_⟩
      intro hc; exact absurd hc (by decide)
    · -- decryption
      obtain ⟨h0, hin, hneed⟩ := hp.start hsp
      simp only [enq] at hy
      split at hy
      · cases hy
        intro e he
        rw [List.mem_singleton] at he
        subst he
        split
        · exact ⟨i, hin, hi⟩
        · refine ⟨by rw [hneed rfl]; exact hi, i, hin, hi, ?_⟩
          rcases hp.conf with ⟨_, hc⟩ | ⟨h1, _⟩
          · exact hc
          · omega
      · cases hy; simp
    · -- encryption
      simp only [enq] at hy
      split at hy
      · cases hy
        intro e he
        rw [List.mem_singleton] at he
        subst he
        refine ⟨hauth (by show 2 < 11; omega), !i, ?_, hi⟩
        have hlk' : c.outS.isSome = true := hlk
        rcases hp.conf with ⟨_, hc | hc⟩ | ⟨h1, _⟩
        · rw [hc] at hlk'; cases hlk'
        · exact hc
        · simp only [oEncrypt] at hsp; omega
      · cases hy; simp
    · -- relay
      simp only [enq] at hy
      split at hy
      · cases hy; simp
      next o ho =>
        split at hy
        · cases hy
          intro e he
          rw [List.mem_singleton] at he
          subst he
          refine ⟨hauth (by decide), ?_⟩
          rintro i n rfl hd
          exact hconf (by decide) i n ho hd
        · cases hy; simp
    · -- the others
      have hok := hauth (by omega)
      rcases hk with hk | ⟨f, hk⟩ <;> rw [hk] at hy <;> simp only [enq] at hy
      · cases hy
        intro e he
        rw [List.mem_singleton] at he
        subst he
        exact hok
      · split at hy <;> cases hy <;> intro e he <;> simp only [List.mem_cons, List.not_mem_nil, or_false] at he
        · subst he; exact hok
        · subst he; exact hok
        · rcases he with rfl | rfl <;> exact hok
        · subst he; exact hok

/-- The packet of an effect. -/
def Eff.pkt : Eff → Pkt
  | .send _ p => p
  | .iceq _ _ p => p
  | .dtlsq _ _ c => c.pkt
  | .took _ p => p
  | .drop _ p => p
  | .seen _ p => p
  | .analyzed _ p => p

/-- The chains do not change the packet. -/
theorem handleat_pkt {v : View} : ∀ (fuel : Nat) (m : Sid) (c : Ctx) (startat : Nat)
    (r : Act × List Eff), handleat v fuel m c startat = .ok r → ∀ e ∈ r.2, e.pkt = c.pkt := by
  intro fuel
  induction fuel with
  | zero => intro m c startat r hr; cases hr
  | succ fuel ih =>
    intro m c startat r hr
    obtain ⟨t, ht, hr2⟩ := finish_ok hr
    suffices H : ∀ e ∈ t.effs, e.pkt = c.pkt by
      intro e he
      rcases hr2 with hr2 | hr2 <;> rw [hr2] at he
      · exact H e he
      · rcases List.mem_append.mp he with he | he
        · exact H e he
        · rw [List.mem_singleton] at he; subst he; rfl
    refine loop_effs ?_ ht
    intro p _ _ _ y hy
    cases hk : p.kind <;> rw [hk] at hy <;> simp only [enq] at hy
    case dmx i o =>
      obtain ⟨z, hz, rfl⟩ := wrap_ok hy
      have := ih _ _ _ _ hz
      exact this
    case mx i o =>
      obtain ⟨z, hz, rfl⟩ := wrap_ok hy
      have := ih _ _ _ _ hz
      exact this
    all_goals
      (repeat' split at hy) <;> cases hy <;> simp [Eff.pkt]

end Verif.Plane
