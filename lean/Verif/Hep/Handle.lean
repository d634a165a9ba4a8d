import Verif.Hep.Lemmas

/-!
# One packet
-/

namespace Verif.Hep

open Rtcp (Compound Plenty)

/-- The text for the parts of a compound packet. -/
def json (ps : List (List UInt8)) : List UInt8 := (ps.map Rtcp.text).flatten

theorem text_len (p : List UInt8) (h : Rtcp.Whole p) : (Rtcp.text p).length ≤ 9 * p.length := by
  unfold Rtcp.text
  split
  · rename_i hr
    exact Rtcp.len_report p (h.2.2 hr)
  · simp

theorem json_len : ∀ (ps : List (List UInt8)), (∀ p ∈ ps, Rtcp.Whole p) → (json ps).length ≤ 9 * ps.flatten.length
  | [], _ => by simp [json]
  | p :: ps, h => by
    have h1 := text_len p (h p (by simp))
    have h2 := json_len ps (fun q hq => h q (by simp [hq]))
    have e : json (p :: ps) = Rtcp.text p ++ json ps := by simp [json]
    rw [e, List.length_append, List.flatten_cons, List.length_append]
    omega

/-- `rtcp2json` on a buffer of some size. -/
theorem rtcp_spec (o : Rtcp.Out) (buf : List UInt8) (hf : Rtcp.Fresh o) (hb : buf.length ≤ 65535) :
    ∃ o' v, Rtcp.rtcp2json o buf = .ok (o', v) ∧ 0 < o'.alen ∧
      (0 ≤ v → ∃ ps, Compound buf ps ∧ o'.text = json ps) ∧ (Plenty o → (∃ ps, Compound buf ps) → 0 ≤ v) := by
  cases hr : Rtcp.rtcp2json o buf with
  | error f => exact absurd hr (Rtcp.C39_safe o buf hf hb f)
  | ok x =>
    obtain ⟨o', v⟩ := x
    obtain ⟨h1, h2⟩ := Rtcp.top o buf hf hb o' v hr
    refine ⟨o', v, rfl, ?_, (fun h => (h1 h).2), h2⟩
    unfold Rtcp.rtcp2json at hr
    split at hr
    · cases hr; exact hf.2
    · rename_i h4
      rw [Rtcp.header_eq (q := buf) (r := 0) rfl (by omega)] at hr
      simp only at hr
      split at hr
      · cases hr; exact hf.2
      · obtain ⟨o1, v1, he, hroom, _⟩ := Rtcp.loop_spec buf buf.length 0 o (by simp) (by unfold Rtcp.Room; rw [hf.1]; exact hf.2)
          (by rw [hf.1, List.drop_zero]; simp only [List.length_nil]; omega) (by omega)
        rw [List.drop_zero] at he
        rw [he] at hr
        cases hr
        unfold Rtcp.Room at hroom
        omega

/-- The addresses of a packet are those of its family, the numbers fit their types. -/
structure Good (p : Pkt) : Prop where
  fam : p.family = 2 ∧ p.src.length = 4 ∧ p.dst.length = 4 ∨ p.family = 10 ∧ p.src.length = 16 ∧ p.dst.length = 16
  sport : p.sport < 65536
  dport : p.dport < 65536
  sec : p.sec < 4294967296
  usec : p.usec < 4294967296

/-- A report on the packet fits into a datagram. -/
def Small (p : Pkt) : Prop := 129 + p.callId.length + 9 * p.data.length ≤ 65535

/-- The chunks behind the fixed part. -/
def rest (p : Pkt) (text : List UInt8) : List (Nat × List UInt8) :=
  [(17, p.callId)] ++ (if p.family = 2 then [(3, p.src), (4, p.dst)] else [(5, p.src), (6, p.dst)]) ++ [(15, text)]

/-- The datagram for a packet. -/
def body (id : Int) (p : Pkt) (text : List UInt8) : List UInt8 := wire (fixed (info p) id ++ rest p text)
def datagram (id : Int) (p : Pkt) (text : List UInt8) : List UInt8 :=
  magic ++ be16 (6 + (body id p text).length) ++ body id p text

theorem rest_len (p : Pkt) (hg : Good p) (t : List UInt8) : (wire (rest p t)).length ≤ 56 + p.callId.length + t.length := by
  rcases hg.fam with ⟨h, h1, h2⟩ | ⟨h, h1, h2⟩ <;>
    simp [rest, h, wire, field_length, h1, h2] <;> omega

theorem body_len (id : Int) (p : Pkt) (hg : Good p) (t : List UInt8) : 6 + (body id p t).length ≤ 129 + p.callId.length + t.length := by
  have := rest_len p hg t
  rw [body, wire_append, List.length_append, fixed_length]
  omega

theorem transmit_spec (c : Ctx) (e : Env) (w r : List UInt8) :
    (e.send = none ∧ transmit (filled c (magic ++ [0, 0] ++ w) r) e =
      .ok (filled { c with errors := c.errors + 1 } (magic ++ be16 (6 + w.length) ++ w) r, [])) ∨
    (∃ n, e.send = some n ∧ transmit (filled c (magic ++ [0, 0] ++ w) r) e =
      .ok (filled c (magic ++ be16 (6 + w.length) ++ w) r, [Eff.sent c.sock ((magic ++ be16 (6 + w.length) ++ w).take n)])) := by
  have hl : (magic ++ [0, 0] ++ w).length = 6 + w.length := by simp [magic]; omega
  have hl2 : (magic ++ be16 (6 + w.length) ++ w).length = 6 + w.length := by simp [magic, be16_length]; omega
  have hb : blit (magic ++ [0, 0] ++ w ++ r) 4 (be16 (6 + w.length)) = .ok (magic ++ be16 (6 + w.length) ++ w ++ r) := by
    have := blit_at magic [0, 0] (be16 (6 + w.length)) (w ++ r) 4 rfl rfl
    rw [← List.append_assoc, ← List.append_assoc] at this
    exact this
  unfold transmit filled
  simp only [Option.getD_some, hl, hb, hl2]
  rw [if_neg (by rw [List.length_append, hl2]; omega)]
  cases hs : e.send with
  | none => left; exact ⟨rfl, rfl⟩
  | some n =>
    right
    refine ⟨n, rfl, ?_⟩
    simp only [List.take_left' hl2]

/-- The context ready for a new packet. -/
theorem Inv.filled (c : Ctx) (a r : List UInt8) (h : 73 ≤ a.length) : Inv (filled c a r) := by
  intro b hb
  simp only [Hep.filled, Option.some.injEq] at hb
  subst hb
  simp only [Hep.filled, List.length_append]
  omega

theorem retry_filled (c : Ctx) (a r : List UInt8) (e : Env) : retry (filled c a r) e = (filled (retry c e).1 a r, (retry c e).2) := by
  unfold retry
  split <;> rename_i h
  · rw [if_pos (by exact h)]
    unfold reinit filled
    simp only
    split
    · rfl
    · split
      · rfl
      · split <;> rfl
  · rw [if_neg (by exact h)]

theorem retry_keeps (c : Ctx) (e : Env) : (retry c e).1.captId = c.captId ∧ (retry c e).1.password = c.password := by
  unfold retry reinit
  split
  · simp only
    split
    · exact ⟨rfl, rfl⟩
    · split
      · exact ⟨rfl, rfl⟩
      · split <;> exact ⟨rfl, rfl⟩
  · exact ⟨rfl, rfl⟩

/-- What holds between two packets. -/
structure Ready (m : M) : Prop where
  inv : Inv m.ctx
  pw : m.ctx.password = none
  sb : 0 < m.sb.alen

/-- What `send` does, if anything. -/
def out (s : Sk) (b : List UInt8) : Option Nat → List Eff
  | none => []
  | some n => [Eff.sent s (b.take n)]

/-- The socket and the number of errors afterwards. -/
def after (c : Ctx) (e : Env) : Sk × Nat := ((retry c e).1.sock, (retry c e).1.errors + if e.send = none then 1 else 0)

/-- The ways in which one packet can be handled: nothing, or one datagram. -/
inductive Res (m : M) (p : Pkt) (e : Env) : M → List Eff → Prop
  | quiet (m' : M) (h1 : m'.ctx.sock = m.ctx.sock) (h2 : m'.ctx.errors = m.ctx.errors)
      (why : (∃ k, e.mem k = none) ∨ (∃ b ∈ e.sb, b = false) ∨ ¬ ∃ ps, Compound p.data ps) : Res m p e m' []
  | report (m' : M) (ps : List (List UInt8)) (hc : Compound p.data ps) (h : (m'.ctx.sock, m'.ctx.errors) = after m.ctx e) :
      Res m p e m' ((retry m.ctx e).2 ++ out (retry m.ctx e).1.sock (datagram m.ctx.captId p (json ps)) e.send)

theorem sendHep_spec (c : Ctx) (p : Pkt) (e : Env) (hg : Good p) (t r : List UInt8) (id : Int) (hp : c.password = none)
    (hf : 129 + p.callId.length + t.length ≤ 65535) :
    (∃ a r', sendHep (filled c (magic ++ [0, 0] ++ wire (fixed (info p) id) ++ field 17 p.callId) r) (info p) t e = .ok (filled c a r', []) ∧
      73 ≤ a.length ∧ ∃ k, e.mem k = none) ∨
    (∃ r', sendHep (filled c (magic ++ [0, 0] ++ wire (fixed (info p) id) ++ field 17 p.callId) r) (info p) t e =
      .ok (filled { (retry c e).1 with errors := (retry c e).1.errors + if e.send = none then 1 else 0 } (datagram id p t) r',
        (retry c e).2 ++ out (retry c e).1.sock (datagram id p t) e.send)) := by
  have hbl := body_len id p hg t
  have hparts : (parts c (info p) t e).map (fun x => (x.1, x.2.1)) =
      (if p.family = 2 then [(3, p.src), (4, p.dst)] else [(5, p.src), (6, p.dst)]) ++ [(15, t)] := by
    unfold parts
    rw [hp]
    rcases hg.fam with ⟨h, _, _⟩ | ⟨h, _, _⟩ <;> simp [info, h]
  have hbody : body id p t = wire (fixed (info p) id) ++ (field 17 p.callId ++
      wire ((if p.family = 2 then [(3, p.src), (4, p.dst)] else [(5, p.src), (6, p.dst)]) ++ [(15, t)])) := by
    rw [body, wire_append, rest, List.append_assoc, wire_append (List.cons _ _)]
    simp [wire]
  have hpf : parts (filled c (magic ++ [0, 0] ++ wire (fixed (info p) id) ++ field 17 p.callId) r) (info p) t e = parts c (info p) t e := rfl
  have ha : (magic ++ [0, 0] ++ wire (fixed (info p) id) ++ field 17 p.callId).length = 79 + p.callId.length := by
    simp [magic, fixed_length, field_length]; omega
  rw [hbody] at hbl
  simp only [List.length_append, fixed_length, field_length] at hbl
  unfold sendHep
  rw [hpf]
  rcases appends_spec (parts c (info p) t e) (filled c (magic ++ [0, 0] ++ wire (fixed (info p) id) ++ field 17 p.callId) r) _ r rfl rfl
    (by rw [hparts, ha]; omega) with ⟨a', r', h1, x, hx, hn⟩ | ⟨r', h1⟩
  · left
    rw [h1]
    refine ⟨_, r', rfl, by rw [List.length_append, ha]; omega, ?_⟩
    unfold parts at hx
    rw [hp] at hx
    rcases hg.fam with ⟨h, _, _⟩ | ⟨h, _, _⟩ <;> simp [info, h] at hx <;> rcases hx with rfl | rfl | rfl <;> exact ⟨_, hn⟩
  · right
    refine ⟨r', ?_⟩
    rw [h1, hparts]
    simp only
    have e1 : magic ++ [0, 0] ++ wire (fixed (info p) id) ++ field 17 p.callId ++
        wire ((if p.family = 2 then [(3, p.src), (4, p.dst)] else [(5, p.src), (6, p.dst)]) ++ [(15, t)]) = magic ++ [0, 0] ++ body id p t := by
      rw [hbody]; simp only [List.append_assoc]
    rw [e1]
    have e2 : filled (filled c (magic ++ [0, 0] ++ wire (fixed (info p) id) ++ field 17 p.callId) r) (magic ++ [0, 0] ++ body id p t) r' =
      filled c (magic ++ [0, 0] ++ body id p t) r' := rfl
    rw [e2, retry_filled]
    simp only
    rcases transmit_spec (retry c e).1 e (body id p t) r' with ⟨hs, h2⟩ | ⟨n, hs, h2⟩
    · rw [h2, hs]; rfl
    · rw [h2, hs]
      simp only [reduceCtorEq, if_false, Nat.add_zero, out]
      rfl

theorem handle_spec (m : M) (p : Pkt) (e : Env) (hm : Ready m) (hg : Good p) (hs : Small p) :
    ∃ m' es, handle m p e = .ok (m', es) ∧ Ready m' ∧ m'.ctx.captId = m.ctx.captId ∧ Res m p e m' es := by
  unfold Small at hs
  have hfam : ¬ (p.family ≠ 2 ∧ p.family ≠ 10) := by rcases hg.fam with ⟨h, _⟩ | ⟨h, _⟩ <;> omega
  unfold handle
  rw [if_neg hfam]
  rcases fill_spec m.ctx (info p) (e.mem 0) hm.inv with ⟨h, _, hn⟩ | ⟨r, h⟩
  · rw [h]
    exact ⟨_, _, rfl, ⟨hm.inv, hm.pw, hm.sb⟩, rfl, .quiet _ rfl rfl (.inl ⟨0, hn⟩)⟩
  · rw [h]
    simp only
    have hl : (magic ++ [0, 0] ++ wire (fixed (info p) m.ctx.captId)).length = 73 := by
      rw [List.length_append, fixed_length]; rfl
    have hfill : ({ m.ctx with hdr := some (magic ++ [0, 0] ++ wire (fixed (info p) m.ctx.captId) ++ r), hdrLen := 73 } : Ctx) =
      filled m.ctx (magic ++ [0, 0] ++ wire (fixed (info p) m.ctx.captId)) r := by unfold filled; rw [hl]
    rw [hfill]
    rcases append_spec (filled m.ctx (magic ++ [0, 0] ++ wire (fixed (info p) m.ctx.captId)) r) 17 p.callId _ r (e.mem 1) rfl rfl
      (by rw [hl]; omega) with ⟨h2, hn⟩ | h2
    · rw [h2]
      exact ⟨_, _, rfl, ⟨Inv.filled _ _ _ (by rw [hl]), hm.pw, hm.sb⟩, rfl, .quiet _ rfl rfl (.inl ⟨1, hn⟩)⟩
    · rw [h2]
      simp only
      have hf2 : ({ filled m.ctx (magic ++ [0, 0] ++ wire (fixed (info p) m.ctx.captId)) r with
          hdr := some (magic ++ [0, 0] ++ wire (fixed (info p) m.ctx.captId) ++ field 17 p.callId),
          hdrLen := (magic ++ [0, 0] ++ wire (fixed (info p) m.ctx.captId) ++ field 17 p.callId).length } : Ctx) =
        filled m.ctx (magic ++ [0, 0] ++ wire (fixed (info p) m.ctx.captId) ++ field 17 p.callId) [] := by
        unfold filled; simp only [List.append_nil]
      rw [hf2]
      unfold convey
      obtain ⟨o', v, hr, ha, h0, h1⟩ := rtcp_spec { m.sb with text := [], allocs := e.sb } p.data ⟨rfl, hm.sb⟩ (by omega)
      rw [hr]
      simp only
      by_cases hv : v < 0
      · rw [if_pos hv]
        refine ⟨_, _, rfl, ⟨Inv.filled _ _ _ (by rw [List.length_append, hl]; omega), hm.pw, ha⟩, rfl, .quiet _ rfl rfl (.inr ?_)⟩
        by_cases hpl : ∃ b ∈ e.sb, b = false
        · exact .inl hpl
        · right
          intro hps
          have := h1 (fun b hb => by
            cases b with
            | true => rfl
            | false => exact absurd ⟨false, hb, rfl⟩ hpl) hps
          omega
      · rw [if_neg hv]
        obtain ⟨ps, hc, ht⟩ := h0 (by omega)
        have hjl := json_len ps hc.2.2.1
        rw [hc.2.1] at hjl
        rcases sendHep_spec m.ctx p e hg o'.text [] m.ctx.captId hm.pw (by rw [ht]; omega) with ⟨a, r', h3, h73, k, hk⟩ | ⟨r', h3⟩
        · rw [h3]
          exact ⟨_, _, rfl, ⟨Inv.filled _ _ _ h73, hm.pw, ha⟩, rfl, .quiet _ rfl rfl (.inl ⟨k, hk⟩)⟩
        · rw [h3, ht]
          have hd : 73 ≤ (datagram m.ctx.captId p (json ps)).length := by
            rw [datagram, body, wire_append, List.length_append, List.length_append, List.length_append, fixed_length]
            simp only [magic, be16_length, List.length_cons, List.length_nil]; omega
          exact ⟨_, _, rfl, ⟨Inv.filled _ _ _ hd, by have := (retry_keeps m.ctx e).2; rw [← hm.pw, ← this]; rfl, ha⟩,
            (retry_keeps m.ctx e).1, .report _ ps hc rfl⟩

end Verif.Hep
