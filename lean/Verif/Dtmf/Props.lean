import Verif.Dtmf.Trace
import Mathlib.Data.List.TakeWhile
import Mathlib.Tactic.IntervalCases

/-!
# C38: telephone events are reported once

Full claim: every key press is reported exactly once with its key and duration, whatever packets arrive, and nothing is read outside of the
packet.  `C38_exact` says exactly which packets cause a report and what it says, `C38_once` that an event is not reported twice unless
four others were begun in between, and `C38_reported_partial` that an event of at least two packets is reported.  What is missing
(`Cases.lean`): an event of one packet is not reported, the code 17 is reported as a NUL, a packet without a payload
spoils the event with its time stamp, contributing sources in the header are taken for the event, and a long tag makes the
worker read outside of its buffer.
-/

namespace Verif.Dtmf

/-! ### Vocabulary -/

def byte (p : Pkt) (i : Nat) : Nat := (p.buf.getD i 0).toNat

/-- The fields of a packet with a header of twelve bytes (RFC 3550, RFC 4733 section 2.3). -/
def tel (p : Pkt) : Tel where
  ts := byte p 4 * 2 ^ 24 + byte p 5 * 2 ^ 16 + byte p 6 * 2 ^ 8 + byte p 7
  ev := byte p 12
  fin := decide (byte p 13 / 128 = 1)
  vol := byte p 13 % 64
  dur := byte p 14 * 2 ^ 8 + byte p 15

/-- The character for an event: the keys of RFC 4733 section 3.2, a space for the flash. -/
def key (ev : Nat) : UInt8 :=
  if ev < 10 then UInt8.ofNat (48 + ev) else if ev = 10 then 42 else if ev = 11 then 35
  else if ev < 16 then UInt8.ofNat (65 + (ev - 12)) else if ev = 16 then 32 else 0

/-- The report of an event. -/
def report (tag : List UInt8) (callee : Bool) (x : Tel) (dur : Nat) : List UInt8 :=
  tag ++ [32, key x.ev, 32] ++ Dec.dec x.vol ++ [32] ++ Dec.dec dur ++ [32, if callee then 49 else 48]

/-- Among the packets after `a` and before `n` are some of four different events, none of them with the time stamp `t`. -/
def Four (xs : List Tel) (a n t : Nat) : Prop :=
  ∃ l : List Nat, l.length = 4 ∧ l.Nodup ∧ t ∉ l ∧ ∀ u ∈ l, ∃ k y, a < k ∧ k < n ∧ xs[k]? = some y ∧ Known y ∧ y.ts = u

/-- The packet buffers have their size (rtp_packet.h:37, 66). -/
def Whole (ps : List Pkt) : Prop := ∀ p ∈ ps, p.buf.length = 8192

/-! ### Lemmas -/

theorem rd_byte {p : Pkt} {i : Nat} (h : i < p.buf.length) : Str.rd p.buf i = .ok (p.buf.getD i 0) := by
  apply Str.rd_ok
  rw [List.getD_eq_getElem?_getD, List.getElem?_eq_getElem h]; rfl

theorem fields_spec {p : Pkt} (h : 16 ≤ p.buf.length) : fields p = .ok (tel p) := by
  unfold fields
  rw [rd_byte (show 4 < _ by omega), rd_byte (show 5 < _ by omega), rd_byte (show 6 < _ by omega), rd_byte (show 7 < _ by omega),
    rd_byte (show 12 < _ by omega), rd_byte (show 13 < _ by omega), rd_byte (show 14 < _ by omega), rd_byte (show 15 < _ by omega)]
  have h13 : (p.buf.getD 13 0).toNat < 256 := (p.buf.getD 13 0).toNat_lt
  change Except.ok _ = Except.ok _
  rw [Except.ok.injEq]
  unfold tel byte
  rw [Tel.mk.injEq]
  refine ⟨by omega, rfl, ?_, rfl, by omega⟩
  rw [decide_eq_decide]
  omega

theorem table_key {ev : Nat} {d : UInt8} (h : table[ev]? = some d) : d = key ev := by
  obtain ⟨h1, h2⟩ := List.getElem?_eq_some_iff.mp h
  rw [← h2]
  have h1' : ev < 18 := h1
  clear h2 h d
  interval_cases ev <;> rfl

theorem tel_vol (p : Pkt) : (tel p).vol < 64 := by
  change byte p 13 % 64 < 64; omega

theorem tel_dur (p : Pkt) : (tel p).dur < 65536 := by
  have h1 : byte p 14 < 256 := (p.buf.getD 14 0).toNat_lt
  have h2 : byte p 15 < 256 := (p.buf.getD 15 0).toNat_lt
  change byte p 14 * 2 ^ 8 + byte p 15 < 65536; omega

theorem text_report {tag : List UInt8} (h0 : 0 ∉ tag) (callee : Bool) (x : Tel) (dur : Nat) :
    text tag callee ⟨key x.ev, x.vol, dur⟩ = report tag callee x dur := by
  unfold text report
  rw [List.takeWhile_eq_self_iff.mpr (by intro c hc; simp only [ne_eq, decide_not, Bool.not_eq_true', decide_eq_false_iff_not]; rintro rfl; exact h0 hc)]
  simp

theorem text_length {tag : List UInt8} {callee : Bool} {n : Note} (hv : n.vol < 64) (hd : n.dur < 65536) :
    (text tag callee n).length ≤ tag.length + 13 := by
  have h1 := Dec.dec_length 1 n.vol (by omega)
  have h2 := Dec.dec_length 4 n.dur (by omega)
  have h3 : (tag.takeWhile (· ≠ 0)).length ≤ tag.length := (List.takeWhile_prefix _).length_le
  unfold text
  simp only [List.length_append, List.length_cons, List.length_nil]
  omega

/-- Notes of the list machine are within the range of the packets. -/
theorem note_small {xs : List Tel} (hx : ∀ x ∈ xs, x.vol < 64 ∧ x.dur < 65536) {i : Nat} {n : Note}
    (h : (arun [] xs).2[i]? = some (some n)) : n.vol < 64 ∧ n.dur < 65536 := by
  obtain ⟨a, x, hc, _, hv, ⟨⟨k, y, _, _, hy, _, _, hd⟩, _⟩⟩ := (exact xs i n).mp h
  exact ⟨hv ▸ (hx x (List.mem_of_getElem? hc.pkt)).1, hd ▸ (hx y (List.mem_of_getElem? hy)).2⟩

/-- A run, given that all reports fit. -/
theorem runFrom_spec (tag : List UInt8) (callee : Bool) : ∀ (ps : List Pkt) (s : St), RInv s → (∀ p ∈ ps, 16 ≤ p.buf.length) →
    (∀ n, some n ∈ (arun (rep s) (ps.map tel)).2 → (text tag callee n).length < maxBuf) →
    runFrom tag callee s ps = .ok ((arun (rep s) (ps.map tel)).2.map fun n => n.map (text tag callee))
  | [], _, _, _, _ => rfl
  | p :: ps, s, hi, hb, ht => by
    obtain ⟨s', n, h1, h2, h3⟩ := step_spec hi (tel p)
    have e1 : (astep (rep s) (tel p)).1 = rep s' := by rw [← h3]
    have e2 : (astep (rep s) (tel p)).2 = n := by rw [← h3]
    simp only [List.map_cons, arun, e1, e2] at ht ⊢
    have ih := runFrom_spec tag callee ps s' h2 (fun q hq => hb q (List.mem_cons_of_mem _ hq))
      (fun n hn => ht n (List.mem_cons_of_mem _ hn))
    unfold runFrom work
    rw [fields_spec (hb p (by simp))]
    simp only
    rw [h1]
    cases n with
    | none => simp only; rw [ih]; rfl
    | some n =>
      simp only
      have := ht n (by simp)
      unfold message
      simp only
      rw [if_pos this]
      simp only
      rw [ih]; rfl

theorem small_tel {ps : List Pkt} : ∀ x ∈ ps.map tel, x.vol < 64 ∧ x.dur < 65536 := by
  intro x hx
  obtain ⟨p, _, rfl⟩ := List.mem_map.mp hx
  exact ⟨tel_vol p, tel_dur p⟩

theorem run_spec {tag : List UInt8} (hl : tag.length ≤ 498) (callee : Bool) {ps : List Pkt} (hw : Whole ps) :
    run tag callee ps = .ok ((arun [] (ps.map tel)).2.map fun n => n.map (text tag callee)) := by
  unfold run
  rw [runFrom_spec tag callee ps St.init rinv_init (fun p hp => by rw [hw p hp]; omega)]
  · rw [rep_init]
  · intro n hn
    rw [rep_init] at hn
    obtain ⟨i, hi⟩ := List.mem_iff_getElem?.mp hn
    obtain ⟨h1, h2⟩ := note_small small_tel hi
    have := text_length (tag := tag) (callee := callee) h1 h2
    change _ < 512; omega

/-- An event is forgotten only after four others. -/
theorem four_of {xs : List Tel} {a n : Nat} {x : Tel} (ho : Opens xs a) (hx : xs[a]? = some x) (han : a < n)
    (hf : x.ts ∉ (begun (xs.take n)).take 4) : Four xs a n x.ts := by
  obtain ⟨l, h1, h2⟩ := begun_since (xs.take n) (a + 1)
  rw [List.take_take, Nat.min_eq_left (by omega), begun_opens ho hx] at h1
  have hlen : 4 ≤ l.length := by
    by_contra hc
    apply hf
    rw [h1, List.take_append, List.mem_append]
    right
    rw [show 4 - l.length = (3 - l.length) + 1 by omega, List.take_succ_cons]
    simp
  have ht : l.take 4 = (begun (xs.take n)).take 4 := by
    rw [h1, List.take_append_of_le_length hlen]
  refine ⟨l.take 4, by simp; omega, ht ▸ begun_nodup _, ht ▸ hf, ?_⟩
  intro u hu
  obtain ⟨k, y, g1, g2, g3⟩ := h2 u (List.mem_of_mem_take hu)
  obtain ⟨g4, g5⟩ := get_take g2
  exact ⟨k, y, by omega, g4, g5, g3⟩

theorem Four.mono {xs : List Tel} {a n m t : Nat} (h : Four xs a n t) (hm : n ≤ m) : Four xs a m t := by
  obtain ⟨l, h1, h2, h3, h4⟩ := h
  refine ⟨l, h1, h2, h3, fun u hu => ?_⟩
  obtain ⟨k, y, g1, g2, g3⟩ := h4 u hu
  exact ⟨k, y, g1, by omega, g3⟩

/-! ### C38 -/

/-- **C38.**  Whatever the packets are, the worker neither crashes nor accesses anything outside of the table of
digits, the history, the packet buffer or its own buffer, provided the tag is not longer than 498 bytes. -/
theorem C38_safe_partial (tag : List UInt8) (hl : tag.length ≤ 498) (callee : Bool) (ps : List Pkt) (hw : Whole ps) :
    ∃ ms, run tag callee ps = .ok ms ∧ ms.length = ps.length := by
  refine ⟨_, run_spec hl callee hw, ?_⟩
  rw [List.length_map, arun_length, List.length_map]

/-- **C38.**  A packet causes a report exactly if it completes an event, and the report has the key and the
volume of that packet and the longest duration of the packets of the event so far. -/
theorem C38_exact (tag : List UInt8) (hl : tag.length ≤ 498) (h0 : 0 ∉ tag) (callee : Bool) (ps : List Pkt) (hw : Whole ps)
    (ms : List (Option (List UInt8))) (hr : run tag callee ps = .ok ms) (i : Nat) (m : List UInt8) :
    ms[i]? = some (some m) ↔
      ∃ a x d, Completes (ps.map tel) a i x ∧ Longest (ps.map tel) a (i + 1) x d ∧ m = report tag callee x d := by
  rw [run_spec hl callee hw, Except.ok.injEq] at hr
  subst hr
  rw [List.getElem?_map, Option.map_eq_some_iff]
  constructor
  · rintro ⟨n, h1, h2⟩
    obtain ⟨n, rfl⟩ : ∃ n', n = some n' := by cases n with | none => cases h2 | some n => exact ⟨n, rfl⟩
    obtain ⟨a, x, g1, g2, g3, g4⟩ := (exact _ i n).mp h1
    refine ⟨a, x, n.dur, g1, g4, ?_⟩
    rw [Option.map_some, Option.some.injEq] at h2
    rw [← h2, ← text_report h0]
    congr 1
    cases n
    simp only at g2 g3
    rw [table_key g2, g3]
  · rintro ⟨a, x, d, g1, g2, rfl⟩
    refine ⟨some ⟨key x.ev, x.vol, d⟩, (exact _ i _).mpr ⟨a, x, g1, ?_, rfl, g2⟩, ?_⟩
    · obtain ⟨z, o1, o2, _⟩ := g1.opens
      obtain ⟨y, s1, s2, s3⟩ := g1.same
      rw [o1, Option.some.injEq] at s1; subst s1
      obtain ⟨e, he⟩ := table_of_known o2
      rw [s3] at he
      rw [he, table_key he]
    · rw [Option.map_some, text_report h0]

/-- **C38.**  Two reports for the same time stamp: four other events were begun between the first packet of the event
reported first and the second report. -/
theorem C38_once (tag : List UInt8) (hl : tag.length ≤ 498) (callee : Bool) (ps : List Pkt) (hw : Whole ps)
    (ms : List (Option (List UInt8))) (hr : run tag callee ps = .ok ms) (i j : Nat) (m m' : List UInt8) (p q : Pkt)
    (hi : ms[i]? = some (some m)) (hj : ms[j]? = some (some m')) (hij : i < j) (hp : ps[i]? = some p) (hq : ps[j]? = some q)
    (ht : (tel p).ts = (tel q).ts) :
    ∃ a, a < i ∧ (∃ y, ps[a]? = some y ∧ (tel y).ts = (tel p).ts) ∧ Four (ps.map tel) a j (tel p).ts := by
  rw [run_spec hl callee hw, Except.ok.injEq] at hr
  subst hr
  rw [List.getElem?_map, Option.map_eq_some_iff] at hi hj
  obtain ⟨n, h1, h2⟩ := hi
  obtain ⟨n', h1', h2'⟩ := hj
  obtain ⟨n, rfl⟩ : ∃ k, n = some k := by cases n with | none => cases h2 | some n => exact ⟨n, rfl⟩
  obtain ⟨n', rfl⟩ : ∃ k, n' = some k := by cases n' with | none => cases h2' | some n => exact ⟨n, rfl⟩
  obtain ⟨a, x, c, _⟩ := (exact _ i n).mp h1
  obtain ⟨a', x', c', _⟩ := (exact _ j n').mp h1'
  have ex : x = tel p := by have := c.pkt; rw [List.getElem?_map, hp] at this; exact (Option.some.inj this).symm
  have ex' : x' = tel q := by have := c'.pkt; rw [List.getElem?_map, hq] at this; exact (Option.some.inj this).symm
  obtain ⟨y, s1, s2, s3⟩ := c.same
  obtain ⟨y', s1', s2', s3'⟩ := c'.same
  have hts : x.ts = x'.ts := by rw [ex, ex', ht]
  have h_lt : a < a' := by
    rcases Nat.lt_trichotomy a a' with hh | hh | hh
    · exact hh
    · exfalso
      subst hh
      rw [s1, Option.some.injEq] at s1'
      subst s1'
      have := c'.first i c.lt hij x c.pkt hts (s3.symm.trans s3')
      rw [c.fin] at this; cases this
    · exact absurd c.opens (c'.latest a hh (Nat.lt_trans c.lt hij) y s1 (s2.trans hts))
  obtain ⟨z, o1, o2, o3⟩ := c'.opens
  rw [s1', Option.some.injEq] at o1; subst o1
  refine ⟨a, c.lt, ?_, ?_⟩
  · rw [List.getElem?_map, Option.map_eq_some_iff] at s1
    obtain ⟨w, w1, rfl⟩ := s1
    exact ⟨w, w1, by rw [s2, ex]⟩
  · rw [← ex, ← s2]
    exact (four_of c.opens s1 h_lt (by rw [s2, hts, ← s2']; exact o3)).mono (Nat.le_of_lt c'.lt)

/-- **C38.**  An event whose packets carry a time stamp not seen before is reported exactly once, between its first packet
and a later one with the end bit, unless four other events were begun in between.  (The full claim does not require a second
packet.) -/
theorem C38_reported_partial (tag : List UInt8) (hl : tag.length ≤ 498) (callee : Bool) (ps : List Pkt) (hw : Whole ps)
    (ms : List (Option (List UInt8))) (hr : run tag callee ps = .ok ms) (a i : Nat) (p q : Pkt) (hai : a < i)
    (hp : ps[a]? = some p) (hq : ps[i]? = some q) (hk : (tel p).ev ≤ 17)
    (hnew : ∀ k y, k < a → ps[k]? = some y → (tel y).ts ≠ (tel p).ts)
    (hts : (tel q).ts = (tel p).ts) (hev : (tel q).ev = (tel p).ev) (hfin : (tel q).fin = true)
    (hfew : ¬ Four (ps.map tel) a i (tel p).ts) :
    ∃ j, a < j ∧ j ≤ i ∧ (∃ m, ms[j]? = some (some m)) ∧ (∃ y, ps[j]? = some y ∧ (tel y).ts = (tel p).ts ∧ (tel y).ev = (tel p).ev) ∧
      ∀ k y m, a < k → k ≤ i → ps[k]? = some y → (tel y).ts = (tel p).ts → ms[k]? = some (some m) → k = j := by
  have hxa : (ps.map tel)[a]? = some (tel p) := by rw [List.getElem?_map, hp]; rfl
  have ho : Opens (ps.map tel) a := by
    refine ⟨tel p, hxa, ?_, fun hm => ?_⟩
    · change (tel p).ev < 18; omega
    · obtain ⟨x, hx, _, hxt⟩ := begun_mem (List.mem_of_mem_take hm)
      obtain ⟨k, hk⟩ := List.mem_iff_getElem?.mp hx
      obtain ⟨k1, k2⟩ := get_take hk
      rw [List.getElem?_map, Option.map_eq_some_iff] at k2
      obtain ⟨y, y1, rfl⟩ := k2
      exact hnew k y k1 y1 hxt
  -- the first packet of the event with the end bit after `a`
  obtain ⟨j, hj1, hj2, y, hy, hyt, hye, hyf, hmin⟩ : ∃ j, a < j ∧ j ≤ i ∧ ∃ y, ps[j]? = some y ∧ (tel y).ts = (tel p).ts ∧
      (tel y).ev = (tel p).ev ∧ (tel y).fin = true ∧
      ∀ k, a < k → k < j → ∀ z, (ps.map tel)[k]? = some z → z.ts = (tel p).ts → z.ev = (tel p).ev → z.fin = false := by
    have hP : ∃ j, a < j ∧ ∃ y, ps[j]? = some y ∧ (tel y).ts = (tel p).ts ∧ (tel y).ev = (tel p).ev ∧ (tel y).fin = true :=
      ⟨i, hai, q, hq, hts, hev, hfin⟩
    classical
    obtain ⟨f1, y, f2, f3, f4, f5⟩ := Nat.find_spec hP
    refine ⟨Nat.find hP, f1, Nat.find_min' hP ⟨hai, q, hq, hts, hev, hfin⟩, y, f2, f3, f4, f5, ?_⟩
    intro k hk1 hk2 z hz hz1 hz2
    cases hzf : z.fin with
    | false => rfl
    | true =>
      rw [List.getElem?_map, Option.map_eq_some_iff] at hz
      obtain ⟨w, w1, rfl⟩ := hz
      exact absurd ⟨hk1, w, w1, hz1, hz2, hzf⟩ (Nat.find_min hP hk2)
  have rec4 : ∀ n, a < n → n ≤ i → (tel p).ts ∈ (begun ((ps.map tel).take n)).take 4 := by
    intro n h1 h2
    by_contra hc
    exact hfew ((four_of ho hxa h1 hc).mono h2)
  have hc : Completes (ps.map tel) a j (tel y) := {
    opens := ho
    lt := hj1
    pkt := by rw [List.getElem?_map, hy]; rfl
    fin := hyf
    same := ⟨tel p, hxa, hyt.symm, hye.symm⟩
    recent := by rw [hyt]; exact rec4 j hj1 hj2
    latest := by
      intro k h1 h2 z hz hzt ⟨z', hz', _, hn⟩
      rw [hz, Option.some.injEq] at hz'; subst hz'
      exact hn (by rw [hzt, hyt]; exact rec4 k h1 (by omega))
    first := fun k h1 h2 z hz hzt hze => hmin k h1 h2 z hz (hzt.trans hyt) (hze.trans hye) }
  have hr' := hr
  rw [run_spec hl callee hw, Except.ok.injEq] at hr'
  have hlong : ∃ d, Longest (ps.map tel) a (j + 1) (tel y) d := by
    obtain ⟨g, h1, h2, h3⟩ := mem_run ((ps.map tel).take j)
    have hm := hc.recent
    rw [← h2] at hm
    obtain ⟨e, he, het⟩ := List.mem_map.mp hm
    have hE := h3 e he
    have hb : e.1 < j := by have := opens_lt hE.opens; simp at this; omega
    obtain ⟨z, e1, e2, e3⟩ := hE.start
    have hea : e.1 = a := by
      rcases Nat.lt_trichotomy e.1 a with hh | hh | hh
      · exact absurd ((opens_take hj1).mpr ho) (hE.latest a hh (tel p) (take_get hj1 hxa) (hyt.symm.trans het.symm))
      · exact hh
      · exact absurd ((opens_take hb).mp hE.opens) (hc.latest e.1 hh hb z (get_take e1).2 (e2.trans het))
    have hdg : table[(tel y).ev]? = e.2.digit := by
      have := (get_take e1).2
      rw [hea, hxa, Option.some.injEq] at this
      subst this
      rw [← e3, hye]
    have hpe : e.2.pending = true := by
      cases hpp : e.2.pending with
      | true => rfl
      | false =>
        obtain ⟨k, hk, z, z1, z2, z3, z4⟩ := hE.done hpp
        obtain ⟨k1, k2⟩ := get_take z1
        obtain ⟨d, hd⟩ : ∃ d, table[(tel y).ev]? = some d := ⟨_, List.getElem?_eq_getElem (by change _ < 18; rw [hye]; omega)⟩
        have := hc.first k (by omega) k1 z k2 (z2.trans het) (table_inj (z3.trans (hdg.symm.trans hd)) hd)
        rw [z4] at this; cases this
    exact ⟨_, hea ▸ hE.longest hc.pkt hpe het hdg⟩
  obtain ⟨d, hd⟩ := hlong
  have hnote : ∃ m, ms[j]? = some (some m) := by
    have := (exact (ps.map tel) j ⟨key (tel y).ev, (tel y).vol, d⟩).mpr ⟨a, tel y, hc, ?_, rfl, hd⟩
    · rw [← hr', List.getElem?_map, this]; exact ⟨_, rfl⟩
    · obtain ⟨e, he⟩ : ∃ e, table[(tel y).ev]? = some e := ⟨_, List.getElem?_eq_getElem (by change _ < 18; rw [hye]; omega)⟩
      rw [he, table_key he]
  obtain ⟨m, hm⟩ := hnote
  refine ⟨j, hj1, hj2, ⟨m, hm⟩, ⟨y, hy, hyt, hye⟩, ?_⟩
  intro k z m' hk1 hk2 hz hzt hm'
  -- the event of a report after `a` was begun by `a`
  have key : ∀ b n x, a < b → b ≤ i → (arun [] (ps.map tel)).2[b]? = some (some n) → (ps.map tel)[b]? = some x → x.ts = (tel p).ts →
      Completes (ps.map tel) a b x := by
    intro b n x hb1 hb2 hn hx hxt
    obtain ⟨a', x', c, _⟩ := (exact _ b n).mp hn
    have : x' = x := by have := c.pkt; rw [hx, Option.some.injEq] at this; exact this.symm
    subst this
    obtain ⟨w, s1, s2, s3⟩ := c.same
    have : a' = a := by
      rcases Nat.lt_trichotomy a' a with hh | hh | hh
      · rw [List.getElem?_map, Option.map_eq_some_iff] at s1
        obtain ⟨v, v1, rfl⟩ := s1
        exact absurd (s2.trans hxt) (hnew a' v hh v1)
      · exact hh
      · obtain ⟨z', hz', _, hn'⟩ := c.opens
        rw [s1, Option.some.injEq] at hz'; subst hz'
        exact absurd (by rw [s2, hxt]; exact rec4 a' hh (by have := c.lt; omega)) hn'
    exact this ▸ c
  have g1 : ∃ n, (arun [] (ps.map tel)).2[k]? = some (some n) := by
    rw [← hr', List.getElem?_map, Option.map_eq_some_iff] at hm'
    obtain ⟨n, h1, h2⟩ := hm'
    cases n with
    | none => cases h2
    | some n => exact ⟨n, h1⟩
  obtain ⟨n, hn⟩ := g1
  have ck := key k n (tel z) hk1 hk2 hn (by rw [List.getElem?_map, hz]; rfl) hzt
  obtain ⟨w, s1, s2, s3⟩ := ck.same
  rw [hxa, Option.some.injEq] at s1; subst s1
  rcases Nat.lt_trichotomy k j with hh | hh | hh
  · have := hc.first k hk1 hh (tel z) ck.pkt (hzt.trans hyt.symm) (s3.symm.trans hye.symm)
    rw [ck.fin] at this; cases this
  · exact hh
  · have := ck.first j hj1 hh (tel y) hc.pkt (hyt.trans hzt.symm) (hye.trans s3)
    rw [hc.fin] at this; cases this

end Verif.Dtmf
