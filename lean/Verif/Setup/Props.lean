import Verif.Setup.Lemmas

/-!
# C80: what U and L answer and what they set
-/

namespace Verif.Setup

/-! ## The port -/

/-- Side `i` is listening where the next reply will say, if it is listening at all. -/
def Tied (s : S) (i : Bool) : Prop :=
  (s.side i).rtp.sock ≠ none → Bound s i (s.side i).rtp.laddr (s.side i).rtp.port ∧ 0 < (s.side i).rtp.port

theorem tied_quiet {s s' : S} {i : Bool} (h : Quiet (s.side i) (s'.side i)) (ht : Tied s i) : Tied s' i := by
  intro hn
  have := ht (by rw [← h.sock]; exact hn)
  unfold Bound at *
  rw [h.sock, h.csock, h.port, h.laddr]
  exact this

theorem told_tied {v r} {s s' : S} {i : Bool} (hs : s'.side i = told v r (s.side i)) (ht : Tied s i) : Tied s' i := by
  have e1 : (s'.side i).rtp.sock = (s.side i).rtp.sock := by rw [hs]; simp only [told, hear]; split <;> rfl
  have e2 : (s'.side i).rtcp.sock = (s.side i).rtcp.sock := by rw [hs]; simp only [told, hear]; split <;> rfl
  have e3 : (s'.side i).rtp.port = (s.side i).rtp.port := by rw [hs]; simp only [told, hear]; split <;> rfl
  have e4 : (s'.side i).rtp.laddr = (s.side i).rtp.laddr := by rw [hs]; simp only [told, hear]; split <;> rfl
  unfold Tied Bound
  rw [e1, e2, e3, e4]
  exact ht

theorem ready_bound {s i r v s1} (h : Ready s i r v s1) (hf : Fair v) (ht : Tied s i) :
    Bound s1 i (s1.side i).rtp.laddr (s1.side i).rtp.port ∧ 0 < (s1.side i).rtp.port := by
  cases h with
  | kept hw =>
    refine ht ?_
    simp only [wants, Bool.or_eq_false_iff] at hw
    intro hn
    rw [hn] at hw
    simp at hw
  | fresh hw p hp => simpa [Bound, put, setPort, hf.1] using hf.2 p hp

theorem settle_bound {v i r s a p} (h : Bound s i a p) : Bound (settle v i r s) i a p := by
  unfold Bound at *
  rw [settle_own]
  exact h

theorem tied_step (s : S) (e : Ev) (he : Smooth e) (ht : ∀ j, Tied s j) : ∀ j, Tied (step s e).1 j := by
  intro j
  match e, he with
  | .rtp i n p c, _ => exact tied_quiet ((packet_quiet s (.rtp i n p c) (by simp)).1 j) (ht j)
  | .rtcp i n p, _ => exact tied_quiet ((packet_quiet s (.rtcp i n p) (by simp)).1 j) (ht j)
  | .cmd i r v, he =>
    show Tied (exec s i r v).1 j
    have hr := exec_res s i r v
    generalize exec s i r v = x at hr ⊢
    cases hr with
    | refused _ => exact ht j
    | failed hw hl =>
      by_cases hj : j = i
      · subst hj
        by_cases hn : r.o.newPort = true
        · obtain ⟨h1, h2⟩ := he.2 hl hn
          have : pick r.o (s.side j).rtp.laddr = (s.side j).rtp.laddr := by simp [pick, h1, h2]
          intro hs
          have h := ht j (by simpa [put, setLaddr] using hs)
          simpa [Bound, put, setLaddr, this] using h
        · intro hs
          have hs' : (s.side j).rtp.sock ≠ none := by simpa [put, setLaddr] using hs
          have h := ht j hs'
          cases hk : (s.side j).rtp.sock with
          | none => exact absurd hk hs'
          | some k =>
            have hz : (s.side j).rtp.port ≠ 0 := by omega
            simp [wants, hk, hz, hn] at hw
      · have : ((put s i (setLaddr (s.side i) (pick r.o (s.side i).rtp.laddr)))).side j = s.side j := by simp [put, hj]
        unfold Tied Bound
        rw [this]
        exact ht j
    | done s1 h =>
      by_cases hj : j = i
      · subst hj
        intro _
        have h2 := ready_bound h he.1 (ht j)
        refine ⟨?_, ?_⟩
        · have := settle_bound (v := v) (r := r) h2.1
          rw [settle_own]
          exact this
        · rw [settle_own]; exact h2.2
      · have hj' : j = !i := by cases i <;> cases j <;> simp_all
        subst hj'
        exact told_tied (s := s1) (settle_other v i r s1) (by
          unfold Tied Bound
          rw [(ready_other h).1]
          exact ht _)

theorem tied_create {r v s rep} (h : create r v = (some s, rep)) (hf : Fair v) : ∀ j, Tied s j := by
  obtain ⟨p, hp, _, rfl⟩ := create_some h
  intro j
  cases j with
  | false =>
    intro _
    have := hf.2 p hp
    simpa [settle, Bound, setPort, hf.1] using this
  | true =>
    intro hn
    refine absurd ?_ hn
    show (told v r (side0 (lia r.o true))).rtp.sock = none
    simp only [told, hear]
    split <;> rfl

/-- **C80** (partial: without a failed change of the local address before, and with sockets that could be registered):
whatever has happened to the session, the port and the local address in the reply to a granted U or L are those the
RTP socket of the side is bound to, and the RTCP socket is bound to the next port. -/
theorem C80_reply_partial {r0 : Req} {v0 : Env} {s0 : S} {rep0 : Reply} (hc : create r0 v0 = (some s0, rep0))
    (h0 : Fair v0) (es : List Ev) (hes : ∀ e ∈ es, Smooth e) :
    (∀ p a, rep0 = .ok p a → Bound s0 false a p) ∧
    ∀ i r v s' p a, Fair v → exec (run s0 es) i r v = (s', .ok p a) → Bound s' i a p := by
  refine ⟨?_, ?_⟩
  · rintro p a rfl
    obtain ⟨q, hq, he, rfl⟩ := create_some hc
    cases he
    simp [settle, Bound, setPort, h0.1, side0, strm0]
  · intro i r v s' p a hf he
    have ht := run_keep (fun s => ∀ j, Tied s j) Smooth tied_step es s0 hes (tied_create hc h0)
    have hr := exec_res (run s0 es) i r v
    rw [he] at hr
    generalize hx : (s', Reply.ok p a) = x at hr
    cases hr with
    | refused _ => cases hx
    | failed _ _ => cases hx
    | done s1 h =>
      cases hx
      exact settle_bound (ready_bound h hf (ht i)).1

/-- Side `i` listens at `p` of `a` and would answer that. -/
def At (i : Bool) (a p : Nat) (s : S) : Prop :=
  Bound s i a p ∧ (s.side i).rtp.laddr = a ∧ (s.side i).rtp.port = p ∧ 0 < p

theorem at_exec {s i a p} (h : At i a p s) (j : Bool) (r : Req) (v : Env) (hm : ¬ Moves i (.cmd j r v)) :
    At i a p (exec s j r v).1 ∧ (j = i → ∀ q b, (exec s j r v).2 = .ok q b → q = p ∧ b = a) := by
  have hr := exec_res s j r v
  generalize exec s j r v = x at hr ⊢
  have hk : j = i → wants (s.side i) r.o = false := by
    intro hj
    have hn : r.o.newPort = false := by
      cases hb : r.o.newPort with
      | false => rfl
      | true => exact absurd ⟨hj, hb⟩ hm
    have := h.2.2.1
    have h0 := h.2.2.2
    simp only [wants, h.1.1, hn]
    simp; omega
  cases hr with
  | refused _ => exact ⟨h, fun _ q b hq => by cases hq⟩
  | failed hw hl =>
    by_cases hj : j = i
    · subst hj; rw [hk rfl] at hw; cases hw
    · have : (put s j (setLaddr (s.side j) (pick r.o (s.side j).rtp.laddr))).side i = s.side i := by
        simp [put, Ne.symm hj]
      refine ⟨?_, fun e => absurd e hj⟩
      unfold At Bound at *
      simp only [this]
      exact h
  | done s1 h1 =>
    by_cases hj : j = i
    · subst hj
      cases h1 with
      | kept _ =>
        refine ⟨?_, fun _ q b hq => by cases hq; exact ⟨h.2.2.1, h.2.1⟩⟩
        unfold At Bound at *
        simp only [settle_own]
        exact h
      | fresh hw _ _ => rw [hk rfl] at hw; cases hw
    · have hj' : i = !j := by cases i <;> cases j <;> simp_all
      refine ⟨?_, fun e => absurd e hj⟩
      subst hj'
      have hs : (settle v j r s1).side (!j) = told v r (s.side (!j)) := by rw [settle_other, (ready_other h1).1]
      unfold At Bound at *
      simp only [hs]
      have e1 : (told v r (s.side !j)).rtp.sock = (s.side !j).rtp.sock := by simp only [told, hear]; split <;> rfl
      have e2 : (told v r (s.side !j)).rtcp.sock = (s.side !j).rtcp.sock := by simp only [told, hear]; split <;> rfl
      have e3 : (told v r (s.side !j)).rtp.port = (s.side !j).rtp.port := by simp only [told, hear]; split <;> rfl
      have e4 : (told v r (s.side !j)).rtp.laddr = (s.side !j).rtp.laddr := by simp only [told, hear]; split <;> rfl
      rw [e1, e2, e3, e4]
      exact h

theorem at_step (i : Bool) (a p : Nat) (s : S) (e : Ev) (hm : ¬ Moves i e) (h : At i a p s) : At i a p (step s e).1 := by
  match e with
  | .rtp j n q c =>
    have hq := (packet_quiet s (.rtp j n q c) (by simp)).1 i
    unfold At Bound at *
    rw [hq.sock, hq.csock, hq.port, hq.laddr]; exact h
  | .rtcp j n q =>
    have hq := (packet_quiet s (.rtcp j n q) (by simp)).1 i
    unfold At Bound at *
    rw [hq.sock, hq.csock, hq.port, hq.laddr]; exact h
  | .cmd j r v => exact (at_exec h j r v hm).1

/-- **C80**: a port once given is kept: until a command of the same party asks for another one, that party's commands
are answered with the same port and address, which stay bound, whatever else happens to the session. -/
theorem C80_stable {r0 : Req} {v0 : Env} {s0 : S} {rep0 : Reply} (hc : create r0 v0 = (some s0, rep0)) (h0 : Fair v0)
    (es : List Ev) (hes : ∀ e ∈ es, Smooth e) {i : Bool} {r1 : Req} {v1 : Env} {s1 : S} {p a : Nat} (h1 : Fair v1)
    (he : exec (run s0 es) i r1 v1 = (s1, .ok p a)) (fs : List Ev) (hfs : ∀ e ∈ fs, ¬ Moves i e) :
    Bound (run s1 fs) i a p ∧
    ∀ r v q b, r.o.newPort = false → (exec (run s1 fs) i r v).2 = .ok q b → q = p ∧ b = a := by
  have ht := run_keep (fun s => ∀ j, Tied s j) Smooth tied_step es s0 hes (tied_create hc h0)
  have hat : At i a p s1 := by
    have hr := exec_res (run s0 es) i r1 v1
    rw [he] at hr
    generalize hx : (s1, Reply.ok p a) = x at hr
    cases hr with
    | refused _ => cases hx
    | failed _ _ => cases hx
    | done t h =>
      cases hx
      have hb := ready_bound h h1 (ht i)
      refine ⟨settle_bound hb.1, ?_, ?_, hb.2⟩ <;> rw [settle_own]
  have hrun := run_keep (At i a p) (fun e => ¬ Moves i e) (at_step i a p) fs s1 hfs hat
  refine ⟨hrun.1, fun r v q b hn hq => (at_exec hrun i r v ?_).2 rfl q b hq⟩
  rintro ⟨_, hb⟩
  rw [hn] at hb; cases hb

/-- **C80**: a command that asks for another port gets that of the listener made for it, on the local address it names:
by address, label or interface, else by both directions, else the one used before. -/
theorem C80_moved {s : S} {i : Bool} {r : Req} {v : Env} {s' : S} {p a : Nat} (hn : r.o.newPort = true)
    (h : exec s i r v = (s', .ok p a)) :
    v.listen = some p ∧
    (∀ b, r.o.loc = some b → a = b) ∧
    (r.o.loc = none → r.o.lidx1 = 0 → a = r.o.lia0) ∧
    (r.o.loc = none → r.o.lidx1 ≠ 0 → a = (s.side i).rtp.laddr) := by
  have hr := exec_res s i r v
  rw [h] at hr
  generalize hx : (s', Reply.ok p a) = x at hr
  cases hr with
  | refused _ => cases hx
  | failed _ _ => cases hx
  | done t ht =>
    cases ht with
    | kept hw => simp [wants, hn] at hw
    | fresh _ q hq =>
      simp only [answer, Prod.mk.injEq, Reply.ok.injEq] at hx
      obtain ⟨_, hp, ha⟩ := hx
      have hp' : p = q := by rw [hp]; simp [put, setPort]
      have ha' : a = pick r.o (s.side i).rtp.laddr := by rw [ha]; simp [put, setPort, setLaddr]
      subst hp'
      refine ⟨hq, ?_, ?_, ?_⟩
      · intro b hb; rw [ha']; simp [pick, hb]
      · intro hb hd; rw [ha']; simp [pick, hb, hd, hn]
      · intro hb hd; rw [ha']; simp [pick, hb, hd]

/-- Side 1 has not been used. -/
def Fresh1 (a : Nat) (s : S) : Prop := (s.side true).rtp.sock = none ∧ (s.side true).rtp.laddr = a

theorem fresh1_step (a : Nat) (s : S) (e : Ev) (he : ∀ r v, e ≠ .cmd true r v) (h : Fresh1 a s) :
    Fresh1 a (step s e).1 := by
  match e, he with
  | .rtp j n q c, _ =>
    have hq := (packet_quiet s (.rtp j n q c) (by simp)).1 true
    exact ⟨by rw [hq.sock]; exact h.1, by rw [hq.laddr]; exact h.2⟩
  | .rtcp j n q, _ =>
    have hq := (packet_quiet s (.rtcp j n q) (by simp)).1 true
    exact ⟨by rw [hq.sock]; exact h.1, by rw [hq.laddr]; exact h.2⟩
  | .cmd true r v, he => exact absurd rfl (he r v)
  | .cmd false r v, _ =>
    show Fresh1 a (exec s false r v).1
    have hr := exec_res s false r v
    generalize exec s false r v = x at hr ⊢
    cases hr with
    | refused _ => exact h
    | failed _ _ => exact h
    | done t ht =>
      have e : (settle v false r t).side true = told v r (s.side true) := by
        have := settle_other v false r t
        rw [(ready_other ht).1] at this
        exact this
      unfold Fresh1
      rw [e]
      simp only [told, hear]
      split <;> exact h

/-- **C80**: the interfaces: a new session uses the local address named in its U for both sides; else the first direction
given is that of the second party and the second that of the first.  The second party's first command may name
another local address. -/
theorem C80_interfaces {r0 : Req} {v0 : Env} {s0 : S} {p0 a0 : Nat} (hc : create r0 v0 = (some s0, .ok p0 a0))
    (es : List Ev) (hes : ∀ e ∈ es, ∀ r v, e ≠ .cmd true r v) {r : Req} {v : Env} {s' : S} {p a : Nat}
    (hn : r.o.newPort = false) (h : exec (run s0 es) true r v = (s', .ok p a)) :
    (v0.listen = some p0 ∧ v.listen = some p) ∧
    (∀ b, r0.o.loc = some b → a0 = b ∧ (r.o.loc = none → a = b)) ∧
    (r0.o.loc = none → a0 = r0.o.lia0 ∧ (r.o.loc = none → a = r0.o.lia1)) ∧
    (∀ b, r.o.loc = some b → a = b) := by
  obtain ⟨q, hq, he, rfl⟩ := create_some hc
  cases he
  have hf : Fresh1 (lia r0.o true) (settle v0 false r0
      ⟨fun j => if j = false then setPort (side0 (lia r0.o false)) p0 v0.reg else side0 (lia r0.o true), none⟩) := by
    unfold Fresh1
    have e : (settle v0 false r0 ⟨fun j => if j = false then setPort (side0 (lia r0.o false)) p0 v0.reg
        else side0 (lia r0.o true), none⟩).side true = told v0 r0 (side0 (lia r0.o true)) := settle_other _ _ _ _
    rw [e]
    simp only [told, hear]
    split <;> exact ⟨rfl, rfl⟩
  have hf' := run_keep (Fresh1 (lia r0.o true)) (fun e => ∀ r v, e ≠ .cmd true r v)
    (fun s e he hs => fresh1_step _ s e he hs) es _ hes hf
  have hr := exec_res (run (settle v0 false r0
      ⟨fun j => if j = false then setPort (side0 (lia r0.o false)) p0 v0.reg else side0 (lia r0.o true), none⟩) es) true r v
  rw [h] at hr
  generalize run _ es = s at hf' hr
  generalize hx : (s', Reply.ok p a) = x at hr
  cases hr with
  | refused _ => cases hx
  | failed _ _ => cases hx
  | done t ht =>
    cases ht with
    | kept hw => simp [wants, hf'.1] at hw
    | fresh _ q hq' =>
      simp only [answer, Prod.mk.injEq, Reply.ok.injEq] at hx
      obtain ⟨_, hp, ha⟩ := hx
      have hp' : p = q := by rw [hp]; simp [put, setPort]
      have ha' : a = pick r.o (s.side true).rtp.laddr := by rw [ha]; simp [put, setPort, setLaddr]
      rw [hf'.2] at ha'
      subst hp'
      refine ⟨⟨hq, hq'⟩, ?_, ?_, ?_⟩
      · intro b hb
        exact ⟨by simp [lia, hb], fun hl => by rw [ha']; simp [pick, hl, hn, lia, hb]⟩
      · intro hb
        exact ⟨by simp [lia, hb], fun hl => by rw [ha']; simp [pick, hl, hn, lia, hb]⟩
      · intro b hb; rw [ha']; simp [pick, hb]

/-- **C80**: a command of one party, granted or not, leaves port, address and sockets of the other as they are. -/
theorem C80_apart (s : S) (i : Bool) (r : Req) (v : Env) :
    ((exec s i r v).1.side (!i)).rtp.sock = (s.side (!i)).rtp.sock ∧
    ((exec s i r v).1.side (!i)).rtcp.sock = (s.side (!i)).rtcp.sock ∧
    ((exec s i r v).1.side (!i)).rtp.port = (s.side (!i)).rtp.port ∧
    ((exec s i r v).1.side (!i)).rtp.laddr = (s.side (!i)).rtp.laddr := by
  have hr := exec_res s i r v
  generalize exec s i r v = x at hr ⊢
  cases hr with
  | refused _ => simp
  | failed _ _ => simp [put]
  | done t h =>
    simp only [settle_other, (ready_other h).1, told, hear]
    refine ⟨?_, ?_, ?_, ?_⟩ <;> split <;> rfl

/-- **C80** (partial: the local address is changed): a command that is refused leaves the session as it was, but for the
local address of its own side; if it does not name another one, entirely. -/
theorem C80_refused_partial {s : S} {i : Bool} {r : Req} {v : Env} {s' : S} (h : exec s i r v = (s', .err)) :
    (s' = s ∨ s' = put s i (setLaddr (s.side i) (pick r.o (s.side i).rtp.laddr))) ∧
    (r.o.loc = none → (r.o.newPort = false ∨ r.o.lidx1 ≠ 0) → s' = s) := by
  have hr := exec_res s i r v
  rw [h] at hr
  generalize hx : (s', Reply.err) = x at hr
  cases hr with
  | refused _ => cases hx; simp
  | failed _ _ =>
    cases hx
    refine ⟨.inr rfl, fun hl hd => ?_⟩
    have : pick r.o (s.side i).rtp.laddr = (s.side i).rtp.laddr := by
      rcases hd with hd | hd <;> simp [pick, hl, hd]
    rw [this]
    cases s with | mk sd t =>
    simp only [put, setLaddr, S.mk.injEq, and_true]
    funext j
    split
    · rename_i hj; subst hj; rfl
    · rfl
  | done t ht => simp [answer] at hx

/-! ## What the parties say -/

theorem told_asym (v r d) : (told v r d).rtp.l.asym = r.o.asym ∧ (told v r d).rtcp.l.asym = r.o.asym := ⟨rfl, rfl⟩

theorem resize_ok (v p o) : resize v p o = none ∨ 0 < p ∧ resize v p o = some p := by
  unfold resize
  split
  · split
    · exact .inr ⟨by assumption, rfl⟩
    · split
      · exact .inr ⟨by assumption, rfl⟩
      · exact .inl rfl
  · exact .inl rfl

theorem inForce_quiet {s s' : S} {i : Bool} (h : ∀ j, Quiet (s.side j) (s'.side j)) (q : Option Req)
    (hi : InForce s i q) : InForce s' i q := by
  cases q <;> simpa only [InForce, (h _).asym, (h _).casym, (h _).codecs, (h _).ptime, (h _).resizer] using hi

theorem inForce_settle {s s1 : S} {i : Bool} {j : Bool} {r : Req} {v : Env} {q : Option Req}
    (h : Ready s j r v s1) (hi : InForce s i q) : InForce (settle v j r s1) i (if j = i then some r else q) := by
  by_cases hj : j = i
  · subst hj
    simp only [if_true, InForce, settle_other, settle_own]
    exact ⟨rfl, rfl, rfl, trivial, resize_ok _ _ _⟩
  · have hj' : j = !i := by cases i <;> cases j <;> simp_all
    subst hj'
    have ho := ready_other h
    have hw := ready_own h
    simp only [Bool.not_not] at ho
    have e1 := settle_own v (!i) r s1
    have e2 := settle_other v (!i) r s1
    simp only [Bool.not_not] at e2
    rw [if_neg hj]
    cases q <;>
      simpa only [InForce, e1, e2, hw.1, hw.2.1, hw.2.2.2.2.1, hw.2.2.2.2.2, told, ho.1] using hi

theorem inForce_step (i : Bool) (s : S) (h : List (Ev × Option Reply)) (e : Ev)
    (hi : InForce s i (granted i h).head?) :
    InForce (step s e).1 i (granted i (h ++ [(e, (step s e).2)])).head? := by
  match e with
  | .rtp j n p c =>
    rw [granted_append]
    simpa [granted] using inForce_quiet (packet_quiet s (.rtp j n p c) (by simp)).1 _ hi
  | .rtcp j n p =>
    rw [granted_append]
    simpa [granted] using inForce_quiet (packet_quiet s (.rtcp j n p) (by simp)).1 _ hi
  | .cmd j r v =>
    rw [granted_append]
    simp only [step]
    have hr := exec_res s j r v
    generalize exec s j r v = x at hr ⊢
    cases hr with
    | refused _ => simpa [granted] using hi
    | failed hw hl =>
      simp only [granted, List.nil_append]
      have : ∀ k, ((put s j (setLaddr (s.side j) (pick r.o (s.side j).rtp.laddr))).side k) =
          if k = j then setLaddr (s.side j) (pick r.o (s.side j).rtp.laddr) else s.side k := fun k => rfl
      revert hi
      cases (granted i h).head? <;>
        (simp only [InForce, this]; cases i <;> cases j <;> simp [setLaddr])
    | done t ht =>
      have := inForce_settle (i := i) ht hi
      simp only [answer, granted, List.nil_append]
      by_cases hj : j = i
      · simpa [hj] using this
      · simpa [hj] using this

/-- **C80**: whatever has happened to a session, what the latest granted command of each party asked for is in force and
nothing else: whether its media must come from the address it gave, its codecs, the size of its packets. -/
theorem C80_in_force {r0 : Req} {v0 : Env} {s0 : S} {rep0 : Reply} (hc : create r0 v0 = (some s0, rep0))
    (es : List Ev) (i : Bool) :
    InForce (run s0 es) i (granted i ((.cmd false r0 v0, some rep0) :: hist s0 es)).head? := by
  have h := run_inv (fun s h => InForce s i (granted i h).head?) (inForce_step i) es s0 [(.cmd false r0 v0, some rep0)]
  refine h ?_
  obtain ⟨p, hp, rfl, rfl⟩ := create_some hc
  cases i with
  | false => exact ⟨rfl, rfl, rfl, rfl, resize_ok v0 r0.o.ptime none⟩
  | true => exact ⟨rfl, rfl, rfl, rfl, rfl⟩

/-- **C80**: with memory for it, a command that asks for a packet size is followed by resizing to that size. -/
theorem C80_resized {s : S} {i : Bool} {r : Req} {v : Env} {s' : S} {p a : Nat} (hm : v.memR = true)
    (hp : 0 < r.o.ptime) (h : exec s i r v = (s', .ok p a)) : (s'.side (!i)).resizer = some r.o.ptime := by
  have hr := exec_res s i r v
  rw [h] at hr
  generalize hx : (s', Reply.ok p a) = x at hr
  cases hr with
  | refused _ => cases hx
  | failed _ _ => cases hx
  | done t ht =>
    cases hx
    rw [settle_other]
    simp only [told, resize, hm]
    rw [if_pos (by omega)]
    split <;> rfl

/-! ## Where to -/

theorem hear_hold (t : Strm) (now : Int) (a hd asym) :
    (hear t now a hd asym).hold = ((if a.isSome then false else t.hold) || hd) := by
  cases a <;> rfl

theorem heard_settle {s s1 : S} {i j : Bool} {r : Req} {v : Env} {q : Option (Option ((Nat × Nat) × (Nat × Nat)))}
    (h : Ready s j r v s1) (hi : Heard s i q) :
    Heard (settle v j r s1) i (if j = i then (spoke r).or q else q) := by
  by_cases hj : j = i
  · subst hj
    simp only [if_true]
    have e : (settle v j r s1).side (!j) = told v r (s.side (!j)) := by rw [settle_other, (ready_other h).1]
    cases hh : r.peer.onhold with
    | true => simp [spoke, hh, Heard, e, told, hear_hold]
    | false =>
      cases hia : r.peer.ia with
      | some x => simp [spoke, hia, hh, Heard, e, told, hear_hold]
      | none =>
        simp only [spoke, hia, hh, Bool.false_eq_true, if_false, Option.map_none, Option.none_or]
        cases q with
        | none => simpa [Heard, e, told, hear_hold, hia, hh] using hi
        | some y => cases y <;> simpa [Heard, e, told, hear_hold, hia, hh] using hi
  · have hj' : j = !i := by cases i <;> cases j <;> simp_all
    subst hj'
    have hw := ready_own h
    have e1 := settle_own v (!i) r s1
    rw [if_neg hj]
    cases q with
    | none => simpa only [Heard, e1, hw.2.2.1, hw.2.2.2.1] using hi
    | some y => cases y <;> simpa only [Heard, e1, hw.2.2.1, hw.2.2.2.1] using hi

theorem heard_step (i : Bool) (s : S) (h : List (Ev × Option Reply)) (e : Ev)
    (hi : Heard s i ((granted i h).findSome? spoke)) :
    Heard (step s e).1 i ((granted i (h ++ [(e, (step s e).2)])).findSome? spoke) := by
  have hq : ∀ e', (∀ a b c, e' ≠ Ev.cmd a b c) → Heard (step s e').1 i ((granted i h).findSome? spoke) := by
    intro e' he'
    have q := (packet_quiet s e' he').1
    revert hi
    cases (granted i h).findSome? spoke with
    | none => simp only [Heard, (q _).hold, (q _).chold]; exact id
    | some y => cases y <;> (simp only [Heard, (q _).hold, (q _).chold]; exact id)
  match e with
  | .rtp j n p c => rw [granted_append]; simpa [granted] using hq (.rtp j n p c) (by simp)
  | .rtcp j n p => rw [granted_append]; simpa [granted] using hq (.rtcp j n p) (by simp)
  | .cmd j r v =>
    rw [granted_append]
    simp only [step]
    have hr := exec_res s j r v
    generalize exec s j r v = x at hr ⊢
    cases hr with
    | refused _ => simpa [granted] using hi
    | failed hw hl =>
      simp only [granted, List.nil_append]
      have : ∀ k, ((put s j (setLaddr (s.side j) (pick r.o (s.side j).rtp.laddr))).side k) =
          if k = j then setLaddr (s.side j) (pick r.o (s.side j).rtp.laddr) else s.side k := fun k => rfl
      revert hi
      cases (granted i h).findSome? spoke with
      | none => simp only [Heard, this]; cases i <;> cases j <;> simp [setLaddr]
      | some y => cases y <;> (simp only [Heard, this]; cases i <;> cases j <;> simp [setLaddr])
    | done t ht =>
      have := heard_settle (i := i) ht hi
      simp only [answer, granted, List.nil_append]
      by_cases hj : j = i
      · simp only [hj, if_true] at this ⊢
        simp only [List.cons_append, List.nil_append, List.findSome?_cons]
        cases hs : spoke r with
        | none => simpa [hs] using this
        | some y => simpa [hs] using this
      · simpa [hj] using this

/-- **C80**: a party is on hold, for RTP and RTCP, exactly if the last address it gave in a granted command was the
unspecified one; commands without an address leave that as it is. -/
theorem C80_hold {r0 : Req} {v0 : Env} {s0 : S} {rep0 : Reply} (hc : create r0 v0 = (some s0, rep0))
    (es : List Ev) (i : Bool) :
    Heard (run s0 es) i ((granted i ((.cmd false r0 v0, some rep0) :: hist s0 es)).findSome? spoke) := by
  have h := run_inv (fun s h => Heard s i ((granted i h).findSome? spoke)) (heard_step i) es s0
    [(.cmd false r0 v0, some rep0)]
  refine h ?_
  obtain ⟨p, hp, rfl, rfl⟩ := create_some hc
  cases i with
  | true => simp [granted, Heard, settle, setPort, side0, strm0]
  | false =>
    have e : (settle v0 false r0 ⟨fun j => if j = false then setPort (side0 (lia r0.o false)) p v0.reg
        else side0 (lia r0.o true), none⟩).side (!false) = told v0 r0 (side0 (lia r0.o true)) := by
      rw [settle_other]; rfl
    simp only [granted, List.nil_append, if_true, List.findSome?_cons, List.findSome?_nil]
    cases hh : r0.peer.onhold with
    | true => simp [spoke, hh, Heard, settle, told, hear_hold]
    | false =>
      cases hia : r0.peer.ia with
      | some x => simp [spoke, hia, hh, Heard, settle, told, hear_hold]
      | none => simp [spoke, hia, hh, Heard, settle, told, hear_hold, side0, strm0]

/-- Side `!i` has not heard a packet, and its destination is that. -/
def Deaf (s : S) (i : Bool) (q : Option ((Nat × Nat) × (Nat × Nat))) : Prop :=
  (s.side (!i)).rtp.l.untrusted = false ∧ (s.side (!i)).rtcp.l.untrusted = false ∧ SentTo s i q

theorem hear_rem (t : Strm) (now : Int) (a : Option Latch.Addr) (hd asym) (h : t.l.untrusted = false) :
    (hear t now a hd asym).l.rem = a.or t.l.rem ∧ (hear t now a hd asym).l.untrusted = false := by
  cases a with
  | none => exact ⟨by simp [hear], h⟩
  | some a =>
    simp only [hear, Latch.prefill, Option.some_or]
    by_cases hr : t.l.rem ≠ none
    · simp only [if_pos hr, h, Bool.false_eq_true, if_false]
      by_cases hq : t.l.rem = some a
      · simp [hq, h]
      · simp [hq, h]
    · simp only [if_neg hr, h, Bool.false_eq_true, if_false]
      by_cases hq : t.l.rem = some a
      · simp [hq, h]
      · simp [hq, h]

theorem deaf_told {v r} {s s' : S} {i : Bool} {q} (hs : s'.side (!i) = told v r (s.side (!i))) (h : Deaf s i q) :
    Deaf s' i (r.peer.ia.or q) := by
  obtain ⟨h1, h2, h3⟩ := h
  have e1 := hear_rem (s.side (!i)).rtp r.now (r.peer.ia.map fun x => addr x.1) r.peer.onhold r.o.asym h1
  have e2 := hear_rem (s.side (!i)).rtcp r.now (r.peer.ia.map fun x => addr x.2) r.peer.onhold r.o.asym h2
  refine ⟨by rw [hs]; exact e1.2, by rw [hs]; exact e2.2, ?_⟩
  cases hia : r.peer.ia with
  | some x =>
    obtain ⟨a, c⟩ := x
    rw [hia] at e1 e2
    simp only [Option.some_or, SentTo, hs]
    exact ⟨by simpa [told, hia] using e1.1, by simpa [told, hia] using e2.1⟩
  | none =>
    rw [hia] at e1 e2
    simp only [Option.none_or]
    cases q with
    | none =>
      simp only [SentTo, hs] at h3 ⊢
      exact ⟨by simpa [told, hia, h3.1] using e1.1, by simpa [told, hia, h3.2] using e2.1⟩
    | some x =>
      simp only [SentTo, hs] at h3 ⊢
      exact ⟨by simpa [told, hia, h3.1] using e1.1, by simpa [told, hia, h3.2] using e2.1⟩

theorem deaf_same {s s' : S} {i : Bool} {q} (h1 : (s'.side (!i)).rtp.l = (s.side (!i)).rtp.l)
    (h2 : (s'.side (!i)).rtcp.l = (s.side (!i)).rtcp.l) (h : Deaf s i q) : Deaf s' i q := by
  cases q <;> simpa only [Deaf, SentTo, h1, h2] using h

theorem deaf_step (i : Bool) (s : S) (h : List (Ev × Option Reply)) (e : Ev) (he : ¬ Packet (!i) e)
    (hi : Deaf s i ((granted i h).findSome? (·.peer.ia))) :
    Deaf (step s e).1 i ((granted i (h ++ [(e, (step s e).2)])).findSome? (·.peer.ia)) := by
  match e, he with
  | .rtp j n p c, he =>
    rw [granted_append]
    have := packet_elsewhere s (.rtp j n p c) (!i) (by simp) he
    simpa [granted] using deaf_same (by rw [this]) (by rw [this]) hi
  | .rtcp j n p, he =>
    rw [granted_append]
    have := packet_elsewhere s (.rtcp j n p) (!i) (by simp) he
    simpa [granted] using deaf_same (by rw [this]) (by rw [this]) hi
  | .cmd j r v, _ =>
    rw [granted_append]
    simp only [step]
    have hr := exec_res s j r v
    generalize exec s j r v = x at hr ⊢
    cases hr with
    | refused _ => simpa [granted] using hi
    | failed hw hl =>
      simp only [granted, List.nil_append]
      refine deaf_same ?_ ?_ hi <;> cases i <;> cases j <;> simp [put, setLaddr]
    | done t ht =>
      simp only [answer, granted, List.nil_append]
      by_cases hj : j = i
      · subst hj
        have hs : (settle v j r t).side (!j) = told v r (s.side (!j)) := by rw [settle_other, (ready_other ht).1]
        have := deaf_told hs hi
        simp only [if_true, List.cons_append, List.nil_append, List.findSome?_cons]
        cases hs : r.peer.ia with
        | none => simpa [hs] using this
        | some y => simpa [hs] using this
      · have hj' : j = !i := by cases i <;> cases j <;> simp_all
        subst hj'
        have hw := ready_own ht
        have e1 := settle_own v (!i) r t
        simp only [hj, if_false, List.nil_append]
        exact deaf_same (by rw [e1]; exact hw.1) (by rw [e1]; exact hw.2.1) hi

/-- **C80**: until a packet of the party arrives (then C30 decides), media and RTCP for a party go to the addresses it
gave in its latest granted command with an address; before there is one, nowhere. -/
theorem C80_destination {r0 : Req} {v0 : Env} {s0 : S} {rep0 : Reply} (hc : create r0 v0 = (some s0, rep0))
    (i : Bool) (es : List Ev) (hes : ∀ e ∈ es, ¬ Packet (!i) e) :
    SentTo (run s0 es) i ((granted i ((.cmd false r0 v0, some rep0) :: hist s0 es)).findSome? (·.peer.ia)) := by
  have key : ∀ es s h, (∀ e ∈ es, ¬ Packet (!i) e) → Deaf s i ((granted i h).findSome? (·.peer.ia)) →
      Deaf (run s es) i ((granted i (h ++ hist s es)).findSome? (·.peer.ia)) := by
    intro es
    induction es with
    | nil => intro s h _ hs; simpa [run, hist] using hs
    | cons e es ih =>
      intro s h he hs
      have := ih (step s e).1 (h ++ [(e, (step s e).2)]) (fun x hx => he x (by simp [hx]))
        (deaf_step i s h e (he e (by simp)) hs)
      simpa [run, hist] using this
  refine (key es s0 [(.cmd false r0 v0, some rep0)] hes ?_).2.2
  obtain ⟨p, hp, rfl, rfl⟩ := create_some hc
  cases i with
  | true => simp [granted, Deaf, SentTo, settle, setPort, side0, strm0]
  | false =>
    have := deaf_told (v := v0) (r := r0) (i := false) (q := none)
      (s := ⟨fun j => if j = false then setPort (side0 (lia r0.o false)) p v0.reg else side0 (lia r0.o true), none⟩)
      (s' := settle v0 false r0
        ⟨fun j => if j = false then setPort (side0 (lia r0.o false)) p v0.reg else side0 (lia r0.o true), none⟩)
      (settle_other _ _ _ _) ⟨rfl, rfl, rfl, rfl⟩
    simp only [granted, List.nil_append, if_true, List.findSome?_cons, List.findSome?_nil]
    cases hs : r0.peer.ia with
    | none => simpa [hs] using this
    | some y => simpa [hs] using this

/-! ## The handler for time-outs -/

theorem tmo_step (s : S) (h : List (Ev × Option Reply)) (e : Ev)
    (hi : s.tmo = ((updates h).head?.bind fun x => handler x.2 x.1 none)) :
    (step s e).1.tmo = ((updates (h ++ [(e, (step s e).2)])).head?.bind fun x => handler x.2 x.1 none) := by
  match e with
  | .rtp j n p c => rw [updates_append]; simpa [updates, step, put] using hi
  | .rtcp j n p => rw [updates_append]; simpa [updates, step, put] using hi
  | .cmd j r v =>
    rw [updates_append]
    simp only [step]
    have hr := exec_res s j r v
    generalize exec s j r v = x at hr ⊢
    cases hr with
    | refused _ => simpa [updates] using hi
    | failed _ _ => simpa [updates, put] using hi
    | done t ht =>
      simp only [answer, updates, List.nil_append]
      have h2 := (ready_other ht).2
      cases hu : r.update with
      | false => simpa [settle, handler, hu, h2] using hi
      | true => simp [settle, handler, hu]

/-- **C80**: the handler for time-outs is that of the latest granted U: none if it names none, else the target its name
stands for, with its tag; none if there is no such target or no memory.  L leaves the handler alone. -/
theorem C80_handler {r0 : Req} {v0 : Env} {s0 : S} {rep0 : Reply} (hc : create r0 v0 = (some s0, rep0))
    (hu : r0.update = true) (es : List Ev) :
    ∃ r v, (updates ((.cmd false r0 v0, some rep0) :: hist s0 es)).head? = some (r, v) ∧
      (∀ n tag t, r.notify = some (n, tag) → v.lookup n = some t → v.memT = true → (run s0 es).tmo = some (t, tag)) ∧
      (∀ n tag, r.notify = some (n, tag) → v.lookup n = none → (run s0 es).tmo = none) ∧
      (r.notify = none → (run s0 es).tmo = none) := by
  have h := run_inv (fun s h => s.tmo = ((updates h).head?.bind fun x => handler x.2 x.1 none)) tmo_step es s0
    [(.cmd false r0 v0, some rep0)]
  have hu' : ∀ x ∈ updates ([(Ev.cmd false r0 v0, some rep0)] ++ hist s0 es), x.1.update = true := by
    generalize [(Ev.cmd false r0 v0, some rep0)] ++ hist s0 es = l
    induction l with
    | nil => simp [updates]
    | cons e l ih =>
      obtain ⟨e, q⟩ := e
      match e, q with
      | .cmd j r v, some (.ok p a) =>
        intro x hx
        simp only [updates, List.mem_append] at hx
        rcases hx with hx | hx
        · exact ih x hx
        · split at hx
          · rename_i hb; simp at hx; rw [hx]; exact hb
          · simp at hx
      | .cmd j r v, some .err => simpa [updates] using ih
      | .cmd j r v, none => simpa [updates] using ih
      | .rtp _ _ _ _, q => simpa [updates] using ih
      | .rtcp _ _ _, q => simpa [updates] using ih
  obtain ⟨p, hp, rfl, rfl⟩ := create_some hc
  have h := h (by simp [updates, hu, settle, handler])
  have hne : updates ([(Ev.cmd false r0 v0, some (Reply.ok p (lia r0.o false)))] ++ hist (settle v0 false r0
      ⟨fun j => if j = false then setPort (side0 (lia r0.o false)) p v0.reg else side0 (lia r0.o true), none⟩) es) ≠ [] := by
    rw [updates_append]
    simp [updates, hu]
  simp only [List.cons_append, List.nil_append] at h hu' hne
  generalize updates _ = l at h hu' hne ⊢
  cases l with
  | nil => exact absurd rfl hne
  | cons x l =>
    obtain ⟨r, v⟩ := x
    have hr : r.update = true := hu' (r, v) (by simp)
    simp only [List.head?_cons, Option.bind_some, handler, hr, if_true] at h
    refine ⟨r, v, rfl, ?_, ?_, ?_⟩
    · intro n tag t hn hl hm; rw [h, hn]; simp [hl, hm]
    · intro n tag hn hl; rw [h, hn]; simp [hl]
    · intro hn; rw [h, hn]

/-! ## The text -/

/-- The part before the first space, and what follows it. -/
def cut : Bytes → Bytes × Option Bytes
  | [] => ([], none)
  | c :: s => if c = 32 then ([], some s) else (c :: (cut s).1, (cut s).2)

theorem cut_none {a : Bytes} (h : (32 : UInt8) ∉ a) : cut a = (a, none) := by
  induction a with
  | nil => rfl
  | cons c s ih =>
    simp only [List.mem_cons, not_or] at h
    simp [cut, Ne.symm h.1, ih h.2]

theorem cut_some {a b : Bytes} (h : (32 : UInt8) ∉ a) : cut (a ++ 32 :: b) = (a, some b) := by
  induction a with
  | nil => simp [cut]
  | cons c s ih =>
    simp only [List.mem_cons, not_or] at h
    simp [cut, Ne.symm h.1, ih h.2]

theorem dec_nospace (n : Nat) : (32 : UInt8) ∉ Dec.dec n := by
  intro h
  have := Dec.dec_digit n 32 h
  revert this
  decide

/-- **C80**: the reply can be read in one way only: up to the first space the port in decimal, then, unless the socket
is bound to every address, up to the next space the address, the advertised one if there is one, then 6 exactly if the
address is not IPv4. -/
theorem C80_text (b : Bind) (p : Nat) (h1 : (32 : UInt8) ∉ b.text) (h2 : ∀ x, b.adv = some x → (32 : UInt8) ∉ x) :
    Str.digitsVal (cut (text b p)).1 = p ∧
    ((cut (text b p)).2 = none ↔ b.null = true) ∧
    (b.null = false → ∃ x, (cut (text b p)).2 = some x ∧ (b.adv = some (cut x).1 ∨ b.adv = none ∧ (cut x).1 = b.text) ∧
      (cut x).2 = if b.v6 then some [54] else none) := by
  cases hn : b.null with
  | true =>
    have : text b p = Dec.dec p := by simp [text, hn]
    rw [this, cut_none (dec_nospace p)]
    exact ⟨Dec.dec_val p, by simp, by simp⟩
  | false =>
    have : text b p = Dec.dec p ++ 32 :: (b.adv.getD b.text ++ if b.v6 then [32, 54] else []) := by simp [text, hn]
    rw [this, cut_some (dec_nospace p)]
    refine ⟨Dec.dec_val p, by simp, fun _ => ⟨_, rfl, ?_⟩⟩
    have hs : (32 : UInt8) ∉ b.adv.getD b.text := by
      cases ha : b.adv with
      | none => simpa using h1
      | some x => simpa using h2 x ha
    have hc : cut (b.adv.getD b.text ++ if b.v6 then [32, 54] else []) =
        (b.adv.getD b.text, if b.v6 then some [54] else none) := by
      cases b.v6 with
      | true => exact cut_some hs
      | false => simpa using cut_none hs
    rw [hc]
    refine ⟨?_, rfl⟩
    cases ha : b.adv with
    | none => exact .inr ⟨rfl, rfl⟩
    | some x => exact .inl rfl

end Verif.Setup
