import Verif.Hep.Decode

/-!
# C81: RTCP reports for the collector
-/

namespace Verif.Hep

open Rtcp (Compound Texts)

/-- `send` takes all that it is given or fails: a datagram socket. -/
def Whole (e : Env) : Prop := ∀ n, e.send = some n → 65535 ≤ n

/-- The record tells what arrived: where from, where to, when, in which call, and the reports as JSON (C39). -/
structure Tells (p : Pkt) (r : Rec) : Prop where
  family : r.family = p.family
  udp : r.proto = 17
  src : r.src = p.src
  dst : r.dst = p.dst
  sport : r.sport = p.sport
  dport : r.dport = p.dport
  sec : r.sec = p.sec
  usec : r.usec = p.usec
  kind : r.kind = 5
  call : r.corr = p.callId
  payload : ∀ ps, Compound p.data ps → ∃ ts, Texts ps ts ∧ r.payload = ts.flatten

/-- The datagrams sent, in order. -/
def sends (es : List Eff) : List (Sk × List UInt8) := es.filterMap fun
  | .sent s b => some (s, b)
  | .closed _ => none

/-- Nothing fails while the packet is handled. -/
structure Smooth (e : Env) : Prop where
  mem : ∀ k, e.mem k ≠ none
  sb : ∀ b ∈ e.sb, b = true
  send : e.send ≠ none

theorem start_ready (c : Conf) : Ready (start c) := ⟨(fun b h => by cases h), rfl, Nat.succ_pos 511⟩

theorem json_texts : ∀ (ps : List (List UInt8)), ∃ ts, Texts ps ts ∧ json ps = ts.flatten
  | [] => ⟨[], .nil, rfl⟩
  | p :: ps => by
    obtain ⟨ts, h1, h2⟩ := json_texts ps
    have e : json (p :: ps) = Rtcp.text p ++ json ps := by simp [json]
    rw [e, h2]
    by_cases hr : Rtcp.IsReport p
    · refine ⟨Rtcp.text p :: ts, .report hr (fun hm => ?_) h1, by simp⟩
      unfold Rtcp.text
      rw [if_pos hr]
      exact Rtcp.report_reads p hm
    · refine ⟨ts, .other hr h1, ?_⟩
      unfold Rtcp.text
      rw [if_neg hr, List.nil_append]

/-- The first packets of a run, and the next one. -/
theorem run_inv {m m' : M} {l : List (Pkt × Env)} {outs : List (List Eff)} (hm : Ready m)
    (hl : ∀ x ∈ l, Good x.1 ∧ Small x.1) (h : run m l = .ok (m', outs)) :
    ∀ (i : Nat) (p : Pkt) (e : Env) (es : List Eff), l[i]? = some (p, e) → outs[i]? = some es →
      ∃ m1 m2, Ready m1 ∧ m1.ctx.captId = m.ctx.captId ∧ handle m1 p e = .ok (m2, es) ∧ Res m1 p e m2 es ∧
        ∃ o, run m (l.take i) = .ok (m1, o) := by
  induction l generalizing m outs with
  | nil => intro i p e es hi; simp at hi
  | cons x l ih =>
    obtain ⟨q, f⟩ := x
    obtain ⟨hg, hs⟩ := hl (q, f) (by simp)
    obtain ⟨m1, es1, h1, hr1, hid, hres⟩ := handle_spec m q f hm hg hs
    rw [run, h1] at h
    simp only at h
    cases hr : run m1 l with
    | error g => rw [hr] at h; cases h
    | ok y =>
      obtain ⟨m2, o⟩ := y
      rw [hr] at h
      simp only [Except.ok.injEq, Prod.mk.injEq] at h
      obtain ⟨rfl, rfl⟩ := h
      intro i p e es hi ho
      cases i with
      | zero =>
        simp only [List.getElem?_cons_zero, Option.some.injEq, Prod.mk.injEq] at hi ho
        obtain ⟨rfl, rfl⟩ := hi
        subst ho
        exact ⟨m, m1, hm, rfl, h1, hres, [], rfl⟩
      | succ i =>
        simp only [List.getElem?_cons_succ] at hi ho
        obtain ⟨a, b, ha, hb, hc, hd, o', hrun⟩ := ih hr1 (fun x hx => hl x (by simp [hx])) hr i p e es hi ho
        refine ⟨a, b, ha, by rw [hb, hid], hc, hd, es1 :: o', ?_⟩
        rw [List.take_succ_cons, run, h1]
        simp only [hrun]

theorem sends_closed (c : Ctx) (e : Env) : sends (retry c e).2 = [] := by
  unfold retry reinit
  split
  · simp only
    repeat' split
    all_goals rfl
  · rfl

theorem sends_append (a b : List Eff) : sends (a ++ b) = sends a ++ sends b := by simp [sends]

/-- The datagrams of one packet. -/
theorem sends_res {m m' : M} {p : Pkt} {e : Env} {es : List Eff} (h : Res m p e m' es) :
    sends es = [] ∨ ∃ ps n, Compound p.data ps ∧ e.send = some n ∧
      sends es = [((retry m.ctx e).1.sock, (datagram m.ctx.captId p (json ps)).take n)] := by
  cases h with
  | quiet => left; rfl
  | report ps hc h =>
    rw [sends_append, sends_closed]
    cases hs : e.send with
    | none => left; rfl
    | some n => right; exact ⟨ps, n, hc, rfl, rfl⟩

/-- No sequence of RTCP packets makes the module read or write outside of its buffers or stop, whatever the memory and the network do.  Missing:
packets whose report does not fit into 65535 bytes (`C81_overflow_counterexample`). -/
theorem C81_safe_partial (c : Conf) (l : List (Pkt × Env)) (hl : ∀ x ∈ l, Good x.1 ∧ Small x.1) : ∃ m outs, run (start c) l = .ok (m, outs) ∧
    outs.length = l.length := by
  have key : ∀ (l : List (Pkt × Env)) (m : M), Ready m → (∀ x ∈ l, Good x.1 ∧ Small x.1) → ∃ m' outs, run m l = .ok (m', outs) ∧
      outs.length = l.length := by
    intro l
    induction l with
    | nil => intro m _ _; exact ⟨m, [], rfl, rfl⟩
    | cons x l ih =>
      intro m hm h
      obtain ⟨m1, es, h1, hr1, _⟩ := handle_spec m x.1 x.2 hm (h x (by simp)).1 (h x (by simp)).2
      obtain ⟨m2, o, h2, h3⟩ := ih m1 hr1 (fun y hy => h y (by simp [hy]))
      refine ⟨m2, es :: o, ?_, by simp [h3]⟩
      rw [run, h1]
      simp only [h2]
  exact key l _ (start_ready c) hl

/-- What the collector reads for a packet, at any place of any sequence of packets: where the packet came from, when, its call and its reports,
with nothing from other packets; and not more than one datagram.  Missing: the capture agent (`C81_agent_counterexample`), packets whose report is
too big (`C81_cut_counterexample`), a connection (`C81_torn_counterexample`). -/
theorem C81_reports_partial (c : Conf) (l : List (Pkt × Env)) (hl : ∀ x ∈ l, Good x.1 ∧ Small x.1 ∧ Whole x.2) (m : M) (outs : List (List Eff))
    (h : run (start c) l = .ok (m, outs)) (i : Nat) (p : Pkt) (e : Env) (es : List Eff) (hi : l[i]? = some (p, e)) (ho : outs[i]? = some es) :
    (sends es).length ≤ 1 ∧ ∀ x ∈ sends es, ∃ r, decode x.2 = some r ∧ Tells p r := by
  obtain ⟨hg, hs, hw⟩ := hl (p, e) (List.mem_of_getElem? hi)
  obtain ⟨m1, m2, hr, hid, _, hres, _⟩ := run_inv (start_ready c) (fun x hx => ⟨(hl x hx).1, (hl x hx).2.1⟩) h i p e es hi ho
  rcases sends_res hres with h0 | ⟨ps, n, hc, hn, h1⟩
  · rw [h0]
    exact ⟨by simp, by simp⟩
  · rw [h1]
    refine ⟨by simp, ?_⟩
    intro x hx
    rw [List.mem_singleton] at hx
    subst hx
    have hj := json_len ps hc.2.2.1
    rw [hc.2.1] at hj
    unfold Small at hs
    simp only at hs hg hw ⊢
    have hb := body_len m1.ctx.captId p hg (json ps)
    have hlen : (datagram m1.ctx.captId p (json ps)).length = 6 + (body m1.ctx.captId p (json ps)).length := by
      simp [datagram, magic, be16_length]; omega
    rw [List.take_of_length_le (by have := hw n hn; omega)]
    refine ⟨_, decode_datagram _ p _ hg (by omega), rfl, rfl, rfl, rfl, rfl, rfl, rfl, rfl, rfl, rfl, ?_⟩
    intro qs hq
    have : ps = qs := Rtcp.parts_unique ps qs (by rw [hc.2.1, hq.2.1]) hc.2.2.1 hq.2.2.1
    subst this
    exact json_texts ps

/-- When nothing fails, each compound packet gives exactly one datagram; and packets that are not RTCP never give one. -/
theorem C81_once (c : Conf) (l : List (Pkt × Env)) (hl : ∀ x ∈ l, Good x.1 ∧ Small x.1) (m : M) (outs : List (List Eff))
    (h : run (start c) l = .ok (m, outs)) (i : Nat) (p : Pkt) (e : Env) (es : List Eff) (hi : l[i]? = some (p, e)) (ho : outs[i]? = some es) :
    (Smooth e → (∃ ps, Compound p.data ps) → (sends es).length = 1) ∧ ((¬ ∃ ps, Compound p.data ps) → es = []) := by
  obtain ⟨m1, m2, hr, hid, _, hres, _⟩ := run_inv (start_ready c) hl h i p e es hi ho
  cases hres with
  | quiet _ _ why =>
    refine ⟨fun hsm hps => ?_, fun _ => rfl⟩
    rcases why with ⟨k, hk⟩ | ⟨b, hb, hf⟩ | hn
    · exact absurd hk (hsm.mem k)
    · rw [hsm.sb b hb] at hf; cases hf
    · exact absurd hps hn
  | report ps hc _ =>
    refine ⟨fun hsm _ => ?_, fun hn => absurd ⟨ps, hc⟩ hn⟩
    rw [sends_append, sends_closed]
    cases hs : e.send with
    | none => exact absurd hs hsm.send
    | some n => rfl

/-- The capture agent that the collector reads is never the one that was configured, for any from 1 to 65535: it stands in the upper half
of the field. -/
theorem C81_agent_counterexample (c : Conf) (p : Pkt) (e : Env) (hg : Good p) (hs : Small p) (hw : Whole e) (m : M) (es : List Eff)
    (h : handle (start c) p e = .ok (m, es)) (x : Sk × List UInt8) (hx : x ∈ sends es) (hid : 0 < c.id ∧ c.id < 65536) :
    ∃ r, decode x.2 = some r ∧ (r.agent : Int) = c.id * 65536 ∧ (r.agent : Int) ≠ c.id := by
  obtain ⟨m', es', h', _, _, hres⟩ := handle_spec (start c) p e (start_ready c) hg hs
  rw [h] at h'
  cases h'
  rcases sends_res hres with h0 | ⟨ps, n, hc, hn, h1⟩
  · rw [h0] at hx; cases hx
  · rw [h1, List.mem_singleton] at hx
    subst hx
    have hj := json_len ps hc.2.2.1
    rw [hc.2.1] at hj
    unfold Small at hs
    have hb := body_len (start c).ctx.captId p hg (json ps)
    have hlen : (datagram (start c).ctx.captId p (json ps)).length = 6 + (body (start c).ctx.captId p (json ps)).length := by
      simp [datagram, magic, be16_length]; omega
    simp only
    rw [List.take_of_length_le (by have := hw n hn; omega)]
    refine ⟨_, decode_datagram _ p _ hg (by omega), ?_⟩
    have e : (start c).ctx.captId = c.id := rfl
    simp only [said, e]
    omega

/-! ### The socket -/

def touched : Eff → Sk
  | .sent s _ => s
  | .closed s => s

theorem retry_own (c : Ctx) (e : Env) (hr : e.resolve = true) (hc : c.sock ≠ .stale) :
    (retry c e).1.sock ≠ .stale ∧ ∀ x ∈ (retry c e).2, touched x ≠ .stale := by
  unfold retry reinit
  rw [hr]
  split
  · simp only [Bool.true_eq_false, if_false]
    constructor
    · repeat' split
      all_goals (intro h; cases h)
    · intro x hx
      have : x = .closed c.sock := by
        revert hx
        repeat' split
        all_goals intro hx; simpa using hx
      rw [this]; exact hc
  · exact ⟨hc, by simp⟩

/-- As long as the name of the collector can be resolved, nothing is sent to, and nothing closes, a descriptor that is not the module's own.  Missing:
a failing resolver (`C81_stranger_counterexample`). -/
theorem C81_own_partial (c : Conf) (l : List (Pkt × Env)) (hl : ∀ x ∈ l, Good x.1 ∧ Small x.1) (hr : ∀ x ∈ l, x.2.resolve = true) (m : M)
    (outs : List (List Eff)) (h : run (start c) l = .ok (m, outs)) : ∀ es ∈ outs, ∀ x ∈ es, touched x ≠ .stale := by
  have key : ∀ (l : List (Pkt × Env)) (m m' : M) (outs : List (List Eff)), Ready m → m.ctx.sock ≠ .stale → (∀ x ∈ l, Good x.1 ∧ Small x.1) →
      (∀ x ∈ l, x.2.resolve = true) → run m l = .ok (m', outs) → ∀ es ∈ outs, ∀ x ∈ es, touched x ≠ .stale := by
    intro l
    induction l with
    | nil => intro m m' outs _ _ _ _ h; cases h; simp
    | cons y l ih =>
      intro m m' outs hm hsk hl hr h
      obtain ⟨p, e⟩ := y
      obtain ⟨hg, hs⟩ := hl (p, e) (by simp)
      have hre := hr (p, e) (by simp)
      obtain ⟨m1, es1, h1, hr1, hid, hres⟩ := handle_spec m p e hm hg hs
      rw [run, h1] at h
      simp only at h
      cases hrun : run m1 l with
      | error g => rw [hrun] at h; cases h
      | ok y =>
        obtain ⟨m2, o⟩ := y
        rw [hrun] at h
        cases h
        obtain ⟨hk1, hk2⟩ := retry_own m.ctx e hre hsk
        have hboth : m1.ctx.sock ≠ .stale ∧ ∀ x ∈ es1, touched x ≠ .stale := by
          cases hres with
          | quiet ha _ _ => rw [ha]; exact ⟨hsk, by simp⟩
          | report ps hc ha =>
            have : m1.ctx.sock = (retry m.ctx e).1.sock := (Prod.mk.inj ha).1
            rw [this]
            refine ⟨hk1, ?_⟩
            intro x hx
            rcases List.mem_append.1 hx with hx | hx
            · exact hk2 x hx
            · cases hsd : e.send with
              | none => rw [hsd] at hx; cases hx
              | some n =>
                rw [hsd, out, List.mem_singleton] at hx
                subst hx
                exact hk1
        intro es hes
        rcases List.mem_cons.1 hes with rfl | hes
        · exact hboth.2
        · exact ih m1 _ o hr1 hboth.1 (fun x hx => hl x (by simp [hx])) (fun x hx => hr x (by simp [hx])) hrun es hes
  exact key l _ m outs (start_ready c) (by intro h; cases h) hl hr h

/-- The number of failed attempts to send. -/
def fails (l : List (Pkt × Env)) : Nat := (l.filter fun x => x.2.send = none).length

theorem errors_le (l : List (Pkt × Env)) : ∀ (m m' : M) (outs : List (List Eff)), Ready m → (∀ x ∈ l, Good x.1 ∧ Small x.1) →
    run m l = .ok (m', outs) → m'.ctx.errors ≤ m.ctx.errors + fails l := by
  induction l with
  | nil => intro m m' outs _ _ h; cases h; exact Nat.le_add_right ..
  | cons y l ih =>
    intro m m' outs hm hl h
    obtain ⟨p, e⟩ := y
    obtain ⟨hg, hs⟩ := hl (p, e) (by simp)
    obtain ⟨m1, es1, h1, hr1, hid, hres⟩ := handle_spec m p e hm hg hs
    rw [run, h1] at h
    simp only at h
    cases hrun : run m1 l with
    | error g => rw [hrun] at h; cases h
    | ok y =>
      obtain ⟨m2, o⟩ := y
      rw [hrun] at h
      cases h
      have h2 := ih m1 _ o hr1 (fun x hx => hl x (by simp [hx])) hrun
      have h3 : m1.ctx.errors ≤ m.ctx.errors + if e.send = none then 1 else 0 := by
        cases hres with
        | quiet _ hb _ => rw [hb]; exact Nat.le_add_right ..
        | report ps hc ha =>
          have : m1.ctx.errors = (retry m.ctx e).1.errors + if e.send = none then 1 else 0 := (Prod.mk.inj ha).2
          rw [this]
          have : (retry m.ctx e).1.errors ≤ m.ctx.errors := by
            unfold retry
            split
            · exact Nat.zero_le _
            · exact Nat.le_refl _
          omega
      have h4 : fails ((p, e) :: l) = (if e.send = none then 1 else 0) + fails l := by
        unfold fails
        by_cases hs : e.send = none
        · simp [hs]; omega
        · simp [hs]
      omega

/-- The socket is given up only after more than 50 failures to send. -/
theorem C81_patience (c : Conf) (l : List (Pkt × Env)) (hl : ∀ x ∈ l, Good x.1 ∧ Small x.1) (m : M) (outs : List (List Eff))
    (h : run (start c) l = .ok (m, outs)) (i : Nat) (es : List Eff) (ho : outs[i]? = some es) (s : Sk) (hc : .closed s ∈ es) :
    50 < fails (l.take i) := by
  obtain ⟨m0, o0, h0, hlen⟩ := C81_safe_partial c l hl
  rw [h] at h0
  cases h0
  have hil : i < l.length := by
    rw [← hlen]
    exact (List.getElem?_eq_some_iff.1 ho).1
  obtain ⟨p, e⟩ : Pkt × Env := l[i]
  have hi : l[i]? = some (l[i].1, l[i].2) := by rw [List.getElem?_eq_getElem hil]
  obtain ⟨m1, m2, hr, hid, _, hres, o1, hrun⟩ := run_inv (start_ready c) hl h i _ _ es hi ho
  have he := errors_le (l.take i) _ m1 o1 (start_ready c) (fun x hx => hl x (List.mem_of_mem_take hx)) hrun
  have h50 : 50 < m1.ctx.errors := by
    cases hres with
    | quiet => cases hc
    | report ps hcp _ =>
      rcases List.mem_append.1 hc with hc | hc
      · unfold retry at hc
        split at hc
        · assumption
        · cases hc
      · exfalso
        revert hc
        cases l[i].2.send with
        | none => intro hc; cases hc
        | some n => intro hc; rw [out, List.mem_singleton] at hc; cases hc
  have hz : (start c).ctx.errors = 0 := rfl
  omega

/-! ### Reports that do not fit -/

/-- A chunk of 65530 to 65535 bytes: the size of it wraps around, and the header of the chunk is stored behind the end of the block. -/
theorem append_overflow (c : Ctx) (ty : Nat) (d : List UInt8) (j : Nat → UInt8) (h1 : 65530 ≤ d.length) (h2 : d.length ≤ 65535) :
    append c ty d (some j) = .error .ub := by
  unfold append
  have e1 : d.length % 65536 = d.length := Nat.mod_eq_of_lt (by omega)
  have e2 : (6 + d.length) % 65536 < 6 := by omega
  simp only [e1]
  generalize (6 + d.length) % 65536 = k at e2 ⊢
  have hl : (resize (c.hdr.getD []) (c.hdrLen + k) j).length = c.hdrLen + k := by
    unfold resize
    simp only [List.length_append, List.length_take, List.length_map, List.length_range]
    omega
  have hb : blit (resize (c.hdr.getD []) (c.hdrLen + k) j) c.hdrLen (be16 0 ++ be16 ty ++ be16 k) = .error .ub := by
    unfold blit
    rw [if_neg (by rw [hl]; simp only [List.length_append, be16_length]; omega)]
  simp only [blits, hb]

theorem appends_append (c : Ctx) (l k : List (Nat × List UInt8 × Mem)) (c' : Ctx) (h : appends c l = .ok (c', true)) :
    appends c (l ++ k) = appends c' k := by
  induction l generalizing c with
  | nil => cases h; rfl
  | cons x l ih =>
    obtain ⟨ty, d, m⟩ := x
    rw [List.cons_append, appends]
    rw [appends] at h
    cases ha : append c ty d m with
    | error e => rw [ha] at h; cases h
    | ok y =>
      obtain ⟨c1, b⟩ := y
      rw [ha] at h
      cases b with
      | false => cases h
      | true => exact ih c1 h

/-- The report of any packet whose text has 65530 to 65535 bytes is written outside of the memory for it. -/
theorem overflow (c : Conf) (p : Pkt) (e : Env) (hg : Good p) (hcid : p.callId.length ≤ 60000) (hb : p.data.length ≤ 65535) (hsm : Smooth e)
    (ps : List (List UInt8)) (hc : Compound p.data ps) (h1 : 65530 ≤ (json ps).length) (h2 : (json ps).length ≤ 65535) :
    handle (start c) p e = .error .ub := by
  have hm := start_ready c
  have hfam : ¬ (p.family ≠ 2 ∧ p.family ≠ 10) := by rcases hg.fam with ⟨h, _⟩ | ⟨h, _⟩ <;> omega
  unfold handle
  rw [if_neg hfam]
  rcases fill_spec (start c).ctx (info p) (e.mem 0) hm.inv with ⟨_, _, hn⟩ | ⟨r, h⟩
  · exact absurd hn (hsm.mem 0)
  rw [h]
  simp only
  have hl : (magic ++ [0, 0] ++ wire (fixed (info p) (start c).ctx.captId)).length = 73 := by
    rw [List.length_append, fixed_length]; rfl
  have hfill : ({ (start c).ctx with hdr := some (magic ++ [0, 0] ++ wire (fixed (info p) (start c).ctx.captId) ++ r), hdrLen := 73 } : Ctx) =
    filled (start c).ctx (magic ++ [0, 0] ++ wire (fixed (info p) (start c).ctx.captId)) r := by unfold filled; rw [hl]
  rw [hfill]
  rcases append_spec (filled (start c).ctx (magic ++ [0, 0] ++ wire (fixed (info p) (start c).ctx.captId)) r) 17 p.callId _ r (e.mem 1) rfl rfl
    (by rw [hl]; omega) with ⟨_, hn⟩ | h3
  · exact absurd hn (hsm.mem 1)
  rw [h3]
  simp only
  unfold convey
  obtain ⟨o', v, hr, ha, h4, h5⟩ := rtcp_spec { (start c).sb with text := [], allocs := e.sb } p.data ⟨rfl, hm.sb⟩ hb
  rw [hr]
  have hv := h5 hsm.sb ⟨ps, hc⟩
  simp only
  rw [if_neg (by omega)]
  obtain ⟨qs, hq, ht⟩ := h4 hv
  have : qs = ps := Rtcp.parts_unique qs ps (by rw [hq.2.1, hc.2.1]) hq.2.2.1 hc.2.2.1
  subst this
  rw [ht]
  unfold sendHep
  have hjun : ∃ j, e.mem 4 = some j := by
    cases h : e.mem 4 with
    | none => exact absurd h (hsm.mem 4)
    | some j => exact ⟨j, rfl⟩
  obtain ⟨j, hj⟩ := hjun
  generalize hk : ({ filled (start c).ctx (magic ++ [0, 0] ++ wire (fixed (info p) (start c).ctx.captId)) r with
      hdr := some (magic ++ [0, 0] ++ wire (fixed (info p) (start c).ctx.captId) ++ field 17 p.callId),
      hdrLen := (magic ++ [0, 0] ++ wire (fixed (info p) (start c).ctx.captId) ++ field 17 p.callId).length } : Ctx) = k
  have hkh : k.hdr = some (magic ++ [0, 0] ++ wire (fixed (info p) (start c).ctx.captId) ++ field 17 p.callId ++ []) := by
    rw [← hk, List.append_nil]
  have hkl : k.hdrLen = (magic ++ [0, 0] ++ wire (fixed (info p) (start c).ctx.captId) ++ field 17 p.callId).length := by rw [← hk]
  have hkp : k.password = none := by rw [← hk]; rfl
  have hparts : ∃ l, parts k (info p) (json qs) e = l ++ [(15, json qs, e.mem 4)] ∧ (∀ x ∈ l, x.2.2 ≠ none) ∧
      (wire (l.map fun x => (x.1, x.2.1))).length ≤ 44 := by
    unfold parts
    rw [hkp, List.append_nil]
    rcases hg.fam with ⟨h, ha, hb⟩ | ⟨h, ha, hb⟩
    · refine ⟨_, rfl, ?_, ?_⟩
      · simp [info, h, hsm.mem]
      · simp [info, h, wire, field_length, ha, hb]
    · refine ⟨_, rfl, ?_, ?_⟩
      · simp [info, h, hsm.mem]
      · simp [info, h, wire, field_length, ha, hb]
  obtain ⟨l, hp, hpm, hpl⟩ := hparts
  rw [hp]
  have hlen : (magic ++ [0, 0] ++ wire (fixed (info p) (start c).ctx.captId) ++ field 17 p.callId).length = 79 + p.callId.length := by
    rw [List.length_append, hl, field_length]; omega
  rcases appends_spec l k _ [] hkh hkl (by rw [hlen]; omega) with ⟨_, _, _, x, hx, hxn⟩ | ⟨r', h6⟩
  · exact absurd hxn (hpm x hx)
  · rw [appends_append _ _ _ _ h6, hj]
    unfold appends
    rw [append_overflow _ _ _ _ h1 h2]

/-- Of a long text only the length modulo 65536 counts. -/
theorem append_trunc (c : Ctx) (ty : Nat) (d : List UInt8) (mem : Mem) : append c ty d mem = append c ty (d.take (d.length % 65536)) mem := by
  have hl : (d.take (d.length % 65536)).length = d.length % 65536 := by
    rw [List.length_take]; exact Nat.min_eq_left (Nat.mod_le _ _)
  unfold append
  simp only [hl, Nat.mod_mod, List.take_take, Nat.min_self]

theorem appends_last (c : Ctx) (l : List (Nat × List UInt8 × Mem)) (ty : Nat) (d d' : List UInt8) (mem : Mem)
    (h : ∀ c, append c ty d mem = append c ty d' mem) : appends c (l ++ [(ty, d, mem)]) = appends c (l ++ [(ty, d', mem)]) := by
  induction l generalizing c with
  | nil => simp only [List.nil_append, appends, h]
  | cons x l ih =>
    obtain ⟨t, y, m⟩ := x
    simp only [List.cons_append, appends, ih]

theorem sendHep_trunc (c : Ctx) (i : Info) (d : List UInt8) (e : Env) (hp : c.password = none) :
    sendHep c i d e = sendHep c i (d.take (d.length % 65536)) e := by
  have : appends c (parts c i d e) = appends c (parts c i (d.take (d.length % 65536)) e) := by
    unfold parts
    rw [hp, List.append_nil, List.append_nil]
    exact appends_last c _ 15 d _ (e.mem 4) (fun c => append_trunc c 15 d _)
  unfold sendHep
  rw [this]

/-- Of the report of any packet whose text has more than 65535 bytes, only the beginning is sent, as if it were all. -/
theorem cut (c : Conf) (p : Pkt) (e : Env) (hg : Good p) (hb : p.data.length ≤ 65535) (hsm : Smooth e) (hw : Whole e)
    (ps : List (List UInt8)) (hc : Compound p.data ps) (hf : 129 + p.callId.length + (json ps).length % 65536 ≤ 65535) :
    ∃ m es b r, handle (start c) p e = .ok (m, es) ∧ sends es = [(.conn, b)] ∧ decode b = some r ∧
      r.payload = (json ps).take ((json ps).length % 65536) := by
  have hm := start_ready c
  have hfam : ¬ (p.family ≠ 2 ∧ p.family ≠ 10) := by rcases hg.fam with ⟨h, _⟩ | ⟨h, _⟩ <;> omega
  unfold handle
  rw [if_neg hfam]
  rcases fill_spec (start c).ctx (info p) (e.mem 0) hm.inv with ⟨_, _, hn⟩ | ⟨r, h⟩
  · exact absurd hn (hsm.mem 0)
  rw [h]
  simp only
  have hl : (magic ++ [0, 0] ++ wire (fixed (info p) (start c).ctx.captId)).length = 73 := by
    rw [List.length_append, fixed_length]; rfl
  have hfill : ({ (start c).ctx with hdr := some (magic ++ [0, 0] ++ wire (fixed (info p) (start c).ctx.captId) ++ r), hdrLen := 73 } : Ctx) =
    filled (start c).ctx (magic ++ [0, 0] ++ wire (fixed (info p) (start c).ctx.captId)) r := by unfold filled; rw [hl]
  rw [hfill]
  rcases append_spec (filled (start c).ctx (magic ++ [0, 0] ++ wire (fixed (info p) (start c).ctx.captId)) r) 17 p.callId _ r (e.mem 1) rfl rfl
    (by rw [hl]; omega) with ⟨_, hn⟩ | h3
  · exact absurd hn (hsm.mem 1)
  rw [h3]
  simp only
  have hf2 : ({ filled (start c).ctx (magic ++ [0, 0] ++ wire (fixed (info p) (start c).ctx.captId)) r with
      hdr := some (magic ++ [0, 0] ++ wire (fixed (info p) (start c).ctx.captId) ++ field 17 p.callId),
      hdrLen := (magic ++ [0, 0] ++ wire (fixed (info p) (start c).ctx.captId) ++ field 17 p.callId).length } : Ctx) =
    filled (start c).ctx (magic ++ [0, 0] ++ wire (fixed (info p) (start c).ctx.captId) ++ field 17 p.callId) [] := by
    unfold filled; simp only [List.append_nil]
  rw [hf2]
  unfold convey
  obtain ⟨o', v, hr, ha, h4, h5⟩ := rtcp_spec { (start c).sb with text := [], allocs := e.sb } p.data ⟨rfl, hm.sb⟩ hb
  rw [hr]
  have hv := h5 hsm.sb ⟨ps, hc⟩
  simp only
  rw [if_neg (by omega)]
  obtain ⟨qs, hq, ht⟩ := h4 hv
  have : qs = ps := Rtcp.parts_unique qs ps (by rw [hq.2.1, hc.2.1]) hq.2.2.1 hc.2.2.1
  subst this
  rw [ht, sendHep_trunc _ _ _ _ rfl]
  have hkl : ((json qs).take ((json qs).length % 65536)).length = (json qs).length % 65536 := by
    rw [List.length_take]; exact Nat.min_eq_left (Nat.mod_le _ _)
  generalize (json qs).take ((json qs).length % 65536) = t at hkl ⊢
  rcases sendHep_spec (start c).ctx p e hg t [] (start c).ctx.captId rfl (by rw [hkl]; exact hf) with ⟨_, _, _, _, k, hk⟩ | ⟨r', h6⟩
  · exact absurd hk (hsm.mem k)
  · rw [h6]
    have hre : retry (start c).ctx e = ((start c).ctx, []) := rfl
    cases hs : e.send with
    | none => exact absurd hs hsm.send
    | some n =>
      have hbl := body_len (start c).ctx.captId p hg t
      have hlen : (datagram (start c).ctx.captId p t).length = 6 + (body (start c).ctx.captId p t).length := by
        simp [datagram, magic, be16_length]; omega
      refine ⟨_, _, datagram (start c).ctx.captId p t, _, rfl, ?_, decode_datagram _ p t hg (by omega), rfl⟩
      rw [hre, List.nil_append]
      have htk : (datagram (start c).ctx.captId p t).take n = datagram (start c).ctx.captId p t :=
        List.take_of_length_le (by have := hw n hs; omega)
      simp only [out, htk]
      rfl

end Verif.Hep
