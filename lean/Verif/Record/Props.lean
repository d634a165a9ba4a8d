import Verif.Record.Frame

/-!
# C35: the recorder
-/

namespace Verif.Record
open Verif.Cksum

abbrev Op := Env × Pkt × Out

/-- What one packet adds to the recording, and the next identification. -/
def rec1 (mode : Mode) (single : Bool) (ipid : Nat) (x : Op) : List Nat × Nat :=
  match prepare mode single ipid x.1 x.2.1 x.2.2 with
  | .error _ => ([], ipid)
  | .ok r => (if r.ok then r.bytes ++ x.2.1.data else [], r.ipid)

/-- The whole recording. -/
def recs (mode : Mode) (single : Bool) : Nat → List Op → List Nat
  | _, [] => []
  | ipid, x :: l => (rec1 mode single ipid x).1 ++ recs mode single (rec1 mode single ipid x).2 l

def idAfter (mode : Mode) (single : Bool) : Nat → List Op → Nat
  | ipid, [] => ipid
  | ipid, x :: l => idAfter mode single (rec1 mode single ipid x).2 l

theorem recs_append (mode : Mode) (single : Bool) : ∀ (l m : List Op) (ipid : Nat),
    recs mode single ipid (l ++ m) = recs mode single ipid l ++ recs mode single (idAfter mode single ipid l) m
  | [], m, ipid => rfl
  | x :: l, m, ipid => by simp [recs, idAfter, recs_append mode single l m]

theorem idAfter_append (mode : Mode) (single : Bool) : ∀ (l m : List Op) (ipid : Nat),
    idAfter mode single ipid (l ++ m) = idAfter mode single (idAfter mode single ipid l) m
  | [], m, ipid => rfl
  | x :: l, m, ipid => by simp [idAfter, idAfter_append mode single l m]

/-- The header is as long as was reckoned with. -/
theorem prepare_ok {mode : Mode} {single : Bool} {e : Env} {p : Pkt} {o : Out} (ipid : Nat) (h : Fits mode single (e, p, o)) :
    ∃ r, prepare mode single ipid e p o = .ok r ∧ r.bytes.length = hdrSize mode p := by
  unfold prepare hdrSize
  cases mode with
  | pcap =>
    obtain ⟨r, h1, h2, -⟩ := hdrPcap_ok ipid h
    exact ⟨r, h1, h2⟩
  | pkt => exact ⟨_, rfl, (hdrAdhoc_ok h.pkt).1⟩
  | remote => exact ⟨_, rfl, (hdrAdhoc_ok h.pkt).1⟩

/-- The state while packets `done` have been recorded into a file that held `f0`. -/
structure Inv (mode : Mode) (single : Bool) (id0 : Nat) (f0 : List Nat) (done : List Op) (s : St) : Prop where
  isMode : s.mode = mode
  isSingle : s.single = single
  mem : s.rbuf.length = 4096
  len : s.len ≤ 4096
  cut : ∃ j ≤ done.length, s.file = f0 ++ recs mode single id0 (done.take j)
  live : s.fd = true → s.file ++ s.rbuf.take s.len = f0 ++ recs mode single id0 done ∧ s.ipid = idAfter mode single id0 done

theorem flush_inv {mode : Mode} {single : Bool} {id0 : Nat} {f0 : List Nat} {done : List Op} {s : St} (h : Inv mode single id0 f0 done s)
    (hfd : s.fd = true) {w : Nat → Option Nat} (hw : Whole w) :
    Inv mode single id0 f0 done (flush s w) ∧ ((flush s w).fd = true → (flush s w).len = 0) ∧
      (Full w → (flush s w).fd = true) := by
  obtain ⟨h1, h2, h3, h4, h5, h6⟩ := h
  obtain ⟨h7, h8⟩ := h6 hfd
  unfold flush
  rcases hw s.len with hs | hs
  · rw [hs]
    have ht : (s.rbuf.take s.len).take s.len = s.rbuf.take s.len := by rw [List.take_take, Nat.min_self]
    refine ⟨⟨h1, h2, h3, by simp, ⟨done.length, Nat.le_refl _, ?_⟩, fun _ => ⟨?_, h8⟩⟩, fun _ => rfl, fun _ => hfd⟩
    · simp only [ht, List.take_length]; exact h7
    · simp only [ht, List.take_zero, List.append_nil]; exact h7
  · rw [hs]
    refine ⟨⟨h1, h2, h3, h4, h5, fun h => ?_⟩, fun h => ?_, fun hf => ?_⟩
    · cases h
    · cases h
    · rw [hf s.len] at hs; cases hs

theorem put_ok {m bs : List Nat} {off : Nat} (h : off + bs.length ≤ m.length) :
    ∃ m', put m off bs = .ok m' ∧ m'.length = m.length ∧ m'.take off = m.take off ∧ m'.take (off + bs.length) = m.take off ++ bs := by
  have hl : (m.take off).length = off := by rw [List.length_take]; omega
  refine ⟨m.take off ++ bs ++ m.drop (off + bs.length), ?_, ?_, ?_, ?_⟩
  · unfold put; rw [if_pos h]
  · simp only [List.length_append, hl, List.length_drop]; omega
  · rw [List.append_assoc, List.take_append_of_le_length (by omega), List.take_of_length_le (by omega)]
  · rw [List.take_append_of_le_length (by simp only [List.length_append, hl]; omega)]
    rw [List.take_of_length_le (by simp only [List.length_append, hl]; omega)]

theorem cut_snoc {mode : Mode} {single : Bool} {id0 : Nat} {f0 f : List Nat} {done : List Op} (x : Op)
    (h : ∃ j ≤ done.length, f = f0 ++ recs mode single id0 (done.take j)) :
    ∃ j ≤ (done ++ [x]).length, f = f0 ++ recs mode single id0 ((done ++ [x]).take j) := by
  obtain ⟨j, hj, he⟩ := h
  exact ⟨j, by simp; omega, by rw [List.take_append_of_le_length hj]; exact he⟩

theorem store2_inv {mode : Mode} {single : Bool} {id0 : Nat} {f0 : List Nat} {done : List Op} {s : St} {e : Env} {p : Pkt} {o : Out}
    (h : Inv mode single id0 f0 done s) (hfd : s.fd = true) (hf : Fits mode single (e, p, o)) (hw : Whole e.w2)
    (hroom : 4096 < s.len + hdrSize s.mode p + p.data.length → s.len = 0) :
    ∃ s', store2 e s p o = .ok s' ∧ Inv mode single id0 f0 (done ++ [(e, p, o)]) s' ∧ (Full e.w2 → s'.fd = true) := by
  obtain ⟨rfl, rfl, h3, h4, h5, h6⟩ := h
  obtain ⟨h7, h8⟩ := h6 hfd
  obtain ⟨r, hr, hlen⟩ := prepare_ok s.ipid hf
  have hrec : recs s.mode s.single id0 (done ++ [(e, p, o)]) =
      recs s.mode s.single id0 done ++ (if r.ok then r.bytes ++ p.data else []) := by
    rw [recs_append, ← h8]
    simp only [recs, rec1, hr, List.append_nil]
  have hid : idAfter s.mode s.single id0 (done ++ [(e, p, o)]) = r.ipid := by
    rw [idAfter_append, ← h8]
    simp only [idAfter, rec1, hr]
  unfold store2
  rw [hr]
  simp only
  by_cases hbig : 4096 < s.len + hdrSize s.mode p + p.data.length
  · rw [if_pos hbig]
    have h0 := hroom hbig
    have h7' : s.file = f0 ++ recs s.mode s.single id0 done := by simpa [h0] using h7
    cases hok : r.ok with
    | false =>
      simp only [Bool.not_false, if_true]
      simp only [hok, Bool.false_eq_true, if_false, List.append_nil] at hrec
      exact ⟨_, rfl, ⟨rfl, rfl, h3, h4, cut_snoc _ h5, fun _ => ⟨by rw [hrec]; exact h7, hid.symm⟩⟩, fun _ => hfd⟩
    | true =>
      simp only [Bool.not_true, Bool.false_eq_true, if_false]
      simp only [hok, if_true] at hrec
      have ht : (r.bytes ++ e.junk).take (hdrSize s.mode p) = r.bytes := by
        rw [List.take_append_of_le_length (by omega), List.take_of_length_le (by omega)]
      rw [ht]
      rcases hw (r.bytes ++ p.data).length with hs | hs
      · rw [hs]
        refine ⟨_, rfl, ⟨rfl, rfl, h3, h4, ⟨(done ++ [(e, p, o)]).length, Nat.le_refl _, ?_⟩, fun _ => ⟨?_, hid.symm⟩⟩, fun _ => hfd⟩
        · simp only [List.take_length, hrec, h7', List.append_assoc]
        · simp only [List.take_length, hrec, h7', h0, List.take_zero, List.append_nil, List.append_assoc]
      · rw [hs]
        refine ⟨_, rfl, ⟨rfl, rfl, h3, h4, cut_snoc _ h5, fun h => by cases h⟩, fun hfull => ?_⟩
        rw [hfull] at hs; cases hs
  · rw [if_neg hbig]
    obtain ⟨m1, a1, a2, a3, a4⟩ := put_ok (m := s.rbuf) (off := s.len) (bs := r.bytes) (by omega)
    rw [a1]
    simp only
    cases hok : r.ok with
    | false =>
      simp only [Bool.not_false, if_true]
      simp only [hok, Bool.false_eq_true, if_false, List.append_nil] at hrec
      exact ⟨_, rfl, ⟨rfl, rfl, by simp only [a2, h3], h4, cut_snoc _ h5, fun _ => ⟨by rw [hrec]; simp only [a3]; exact h7, hid.symm⟩⟩,
        fun _ => hfd⟩
    | true =>
      simp only [Bool.not_true, Bool.false_eq_true, if_false]
      simp only [hok, if_true] at hrec
      obtain ⟨m2, b1, b2, b3, b4⟩ := put_ok (m := m1) (off := s.len + hdrSize s.mode p) (bs := p.data) (by omega)
      rw [b1]
      refine ⟨_, rfl, ⟨rfl, rfl, by simp only [b2, a2, h3], by simp only; omega, cut_snoc _ h5, fun _ => ⟨?_, hid.symm⟩⟩, fun _ => hfd⟩
      rw [hrec]
      simp only
      rw [b4, ← hlen, a4, ← List.append_assoc, ← List.append_assoc, ← List.append_assoc, h7]
      simp [List.append_assoc]

theorem write_inv {mode : Mode} {single : Bool} {id0 : Nat} {f0 : List Nat} {done : List Op} {s : St} {e : Env} {p : Pkt} {o : Out}
    (h : Inv mode single id0 f0 done s) (hm : mode ≠ .remote) (hf : Fits mode single (e, p, o)) (hw1 : Whole e.w1) (hw2 : Whole e.w2) :
    ∃ s', write e s p o = .ok s' ∧ Inv mode single id0 f0 (done ++ [(e, p, o)]) s' ∧
      (s.fd = true → Full e.w1 → Full e.w2 → s'.fd = true) := by
  unfold write
  cases hfd : s.fd with
  | false =>
    obtain ⟨h1, h2, h3, h4, h5, h6⟩ := h
    exact ⟨s, rfl, ⟨h1, h2, h3, h4, cut_snoc _ h5, fun hh => by rw [hfd] at hh; cases hh⟩, fun hh => by cases hh⟩
  | true =>
    simp only [Bool.not_true, Bool.false_eq_true, if_false]
    rw [if_neg (by rw [h.isMode]; exact hm)]
    unfold writeLocal
    simp only
    split
    · obtain ⟨k1, k2, k3⟩ := flush_inv h hfd hw1
      cases hfd' : (flush s e.w1).fd with
      | false =>
        simp only [Bool.not_false, if_true]
        obtain ⟨h1, h2, h3, h4, h5, h6⟩ := k1
        refine ⟨_, rfl, ⟨h1, h2, h3, h4, cut_snoc _ h5, fun hh => by rw [hfd'] at hh; cases hh⟩, fun _ hh _ => ?_⟩
        rw [k3 hh] at hfd'; cases hfd'
      | true =>
        simp only [Bool.not_true, Bool.false_eq_true, if_false]
        obtain ⟨s', r1, r2, r3⟩ := store2_inv k1 hfd' hf hw2 (fun _ => k2 hfd')
        exact ⟨s', r1, r2, fun _ _ hh => r3 hh⟩
    · rename_i hno
      obtain ⟨s', r1, r2, r3⟩ := store2_inv h hfd hf hw2 (fun hh => by omega)
      exact ⟨s', r1, r2, fun _ _ hh => r3 hh⟩

theorem run_inv {mode : Mode} {single : Bool} {id0 : Nat} {f0 : List Nat} (hm : mode ≠ .remote) : ∀ (ops done : List Op) (s : St),
    Inv mode single id0 f0 done s → (∀ x ∈ ops, Fits mode single x ∧ Whole x.1.w1 ∧ Whole x.1.w2) →
    ∃ s', run s ops = .ok s' ∧ Inv mode single id0 f0 (done ++ ops) s' ∧
      (s.fd = true → (∀ x ∈ ops, Full x.1.w1 ∧ Full x.1.w2) → s'.fd = true)
  | [], done, s, h, _ => ⟨s, rfl, by simpa using h, fun h _ => h⟩
  | (e, p, o) :: ops, done, s, h, ho => by
    obtain ⟨f1, f2, f3⟩ := ho (e, p, o) (by simp)
    obtain ⟨s1, r1, r2, r3⟩ := write_inv h hm f1 f2 f3
    obtain ⟨s2, q1, q2, q3⟩ := run_inv hm ops (done ++ [(e, p, o)]) s1 r2 (fun x hx => ho x (by simp [hx]))
    refine ⟨s2, by rw [run, r1]; exact q1, by simpa using q2, fun hfd hfull => ?_⟩
    obtain ⟨g1, g2⟩ := hfull (e, p, o) (by simp)
    exact q3 (r3 hfd g1 g2) (fun x hx => hfull x (by simp [hx]))

/-- What a reader finds in the records. -/
theorem recs_pcap {single : Bool} : ∀ (ops : List Op) (ipid : Nat), (∀ x ∈ ops, Fits .pcap single x) →
    Reads readRec (recs .pcap single ipid ops) (ops.filterMap fun x => want single x.1 x.2.1 x.2.2)
  | [], ipid, _ => .nil
  | (e, p, o) :: ops, ipid, h => by
    obtain ⟨r, h1, h2, h3⟩ := hdrPcap_ok ipid (h (e, p, o) (by simp))
    have ih := recs_pcap ops r.ipid (fun x hx => h x (by simp [hx]))
    have h1' : prepare .pcap single ipid e p o = .ok r := h1
    simp only [recs, rec1, h1']
    rcases h3 with ⟨k1, k2⟩ | ⟨k1, x, k2, k3⟩
    · rw [List.filterMap_cons_none (by exact k2)]
      simpa [k1] using ih
    · rw [List.filterMap_cons_some (by exact k2)]
      simp only [k1, if_true]
      exact .cons (k3 _) ih

theorem recs_own {single : Bool} : ∀ (ops : List Op) (ipid : Nat), (∀ x ∈ ops, Fits .pkt single x) →
    Reads readOwn (recs .pkt single ipid ops) (ops.map fun x => (x.2.1.raddr, x.2.1.time8, x.2.1.data))
  | [], ipid, _ => .nil
  | (e, p, o) :: ops, ipid, h => by
    have ih := recs_own ops ipid (fun x hx => h x (by simp [hx]))
    have k := (hdrAdhoc_ok (h (e, p, o) (by simp)).pkt).2
    simp only [recs, rec1, prepare, if_true, List.map_cons]
    exact .cons (k _) ih

/-- A new recorder. -/
theorem ctor_inv {c : Cfg} {callId fromTag : List Nat} {rname : Option (List Nat)} {orig : Bool} {k : Kind} {canOpen : Bool}
    {w : Nat → Option Nat} {rbuf : List Nat} {ipid : Nat} {s : St} {sp : List Nat} {rp : Option (List Nat)}
    (hb : rbuf.length = 4096) (h : ctor c callId fromTag rname orig k canOpen w rbuf ipid = .ok (some (s, sp, rp))) :
    Inv (if c.pcap then .pcap else .pkt) (decide (k = Kind.both)) ipid (if c.pcap then pcapHdr else []) [] s ∧ s.fd = true := by
  unfold ctor at h
  split at h
  · cases h
  · simp only at h
    split at h
    · cases h
    · split at h
      · cases h
      · split at h
        · cases h
        · split at h
          · rename_i hp
            split at h
            · cases h
            · split at h
              · cases h
              · simp only [Except.ok.injEq, Option.some.injEq, Prod.mk.injEq] at h
                obtain ⟨rfl, -, -⟩ := h
                exact ⟨⟨by simp [hp], rfl, hb, by simp, ⟨0, by simp, by simp [hp, recs]⟩, fun _ => ⟨by simp [hp, recs], rfl⟩⟩, rfl⟩
          · rename_i hp
            simp only [Except.ok.injEq, Option.some.injEq, Prod.mk.injEq] at h
            obtain ⟨rfl, -, -⟩ := h
            exact ⟨⟨by simp [hp], rfl, hb, by simp, ⟨0, by simp, by simp [hp, recs]⟩, fun _ => ⟨by simp [hp, recs], rfl⟩⟩, rfl⟩

theorem close_inv {mode : Mode} {single : Bool} {id0 : Nat} {f0 : List Nat} {done : List Op} {s : St} {e : Env}
    (h : Inv mode single id0 f0 done s) (hm : mode ≠ .remote) (hw : Whole e.w1) :
    (∃ j ≤ done.length, (close e s).file = f0 ++ recs mode single id0 (done.take j)) ∧
    (s.fd = true → Full e.w1 → (close e s).file = f0 ++ recs mode single id0 done) := by
  unfold close
  by_cases hc : s.mode ≠ .remote ∧ 0 < s.len
  · rw [if_pos hc]
    cases hfd : s.fd with
    | true =>
      simp only [if_true]
      obtain ⟨k1, k2, k3⟩ := flush_inv h hfd hw
      refine ⟨k1.cut, fun _ hfull => ?_⟩
      have := (k1.live (k3 hfull)).1
      rw [k2 (k3 hfull)] at this
      simpa using this
    | false =>
      simp only [Bool.false_eq_true, if_false, flush]
      exact ⟨h.cut, fun hh => by cases hh⟩
  · rw [if_neg hc]
    refine ⟨h.cut, fun hfd _ => ?_⟩
    have h0 : s.len = 0 := by
      rcases Nat.eq_zero_or_pos s.len with h0 | h0
      · exact h0
      · exact absurd ⟨by rw [h.isMode]; exact hm, h0⟩ hc
    have := (h.live hfd).1
    rw [h0] at this
    simpa using this

/-! ## The theorems -/

/-- A capture: if the system takes all that is written, a reader of the closed file finds every packet recorded, once, in
the order of arrival, with its time, its addresses and its contents, in frames whose lengths and checksums are right; the
buffer is not overrun.

The statement is restricted by `Fits.same`: in a single file RTCP packets arrive and leave by the same family of addresses.
Without that the claim is false, see `C35_family_counterexample`. -/
theorem C35_capture_partial (c : Cfg) (hc : c.pcap = true) (callId fromTag : List Nat) (rname : Option (List Nat)) (orig : Bool)
    (k : Kind) (canOpen : Bool) (w : Nat → Option Nat) (rbuf : List Nat) (ipid : Nat) (hb : rbuf.length = 4096) (s : St) (sp : List Nat)
    (rp : Option (List Nat)) (hs : ctor c callId fromTag rname orig k canOpen w rbuf ipid = .ok (some (s, sp, rp)))
    (ops : List Op) (hf : ∀ x ∈ ops, Fits .pcap (decide (k = Kind.both)) x) (hw : ∀ x ∈ ops, Full x.1.w1 ∧ Full x.1.w2)
    (e : Env) (he : Full e.w1) :
    ∃ s', run s ops = .ok s' ∧
      Capture (close e s').file (ops.filterMap fun x => want (decide (k = Kind.both)) x.1 x.2.1 x.2.2) := by
  obtain ⟨hi, hfd⟩ := ctor_inv hb hs
  simp only [hc, if_true] at hi
  obtain ⟨s', r1, r2, r3⟩ := run_inv (by simp) ops [] s hi
    (fun x hx => ⟨hf x hx, fun n => .inl ((hw x hx).1 n), fun n => .inl ((hw x hx).2 n)⟩)
  refine ⟨s', r1, ?_⟩
  have := (close_inv (e := e) r2 (by simp) (fun n => .inl (he n))).2 (r3 hfd hw) he
  rw [this]
  exact ⟨_, cut_app _ rfl, recs_pcap ops _ hf⟩

/-- The recorder's own format: the same for every packet, without any restriction on families. -/
theorem C35_own (c : Cfg) (hc : c.pcap = false) (callId fromTag : List Nat) (rname : Option (List Nat)) (orig : Bool)
    (k : Kind) (canOpen : Bool) (w : Nat → Option Nat) (rbuf : List Nat) (ipid : Nat) (hb : rbuf.length = 4096) (s : St) (sp : List Nat)
    (rp : Option (List Nat)) (hs : ctor c callId fromTag rname orig k canOpen w rbuf ipid = .ok (some (s, sp, rp)))
    (ops : List Op) (hf : ∀ x ∈ ops, L4r x.1 ∧ x.2.1.Ok ∧ x.2.2.Ok) (hw : ∀ x ∈ ops, Full x.1.w1 ∧ Full x.1.w2)
    (e : Env) (he : Full e.w1) :
    ∃ s', run s ops = .ok s' ∧ Reads readOwn (close e s').file (ops.map fun x => (x.2.1.raddr, x.2.1.time8, x.2.1.data)) := by
  obtain ⟨hi, hfd⟩ := ctor_inv hb hs
  simp only [hc, Bool.false_eq_true, if_false] at hi
  have hf' : ∀ x ∈ ops, Fits .pkt (decide (k = Kind.both)) x := fun x hx =>
    ⟨(hf x hx).1, (hf x hx).2.1, (hf x hx).2.2, fun h => by cases h⟩
  obtain ⟨s', r1, r2, r3⟩ := run_inv (by simp) ops [] s hi
    (fun x hx => ⟨hf' x hx, fun n => .inl ((hw x hx).1 n), fun n => .inl ((hw x hx).2 n)⟩)
  refine ⟨s', r1, ?_⟩
  have := (close_inv (e := e) r2 (by simp) (fun n => .inl (he n))).2 (r3 hfd hw) he
  rw [this]
  exact recs_own ops _ hf'

/-- If writing fails at some point the file is still a proper capture, holding the packets up to some one and no others.
(Provided that the system takes all of a write or nothing; otherwise see `C35_short_write_counterexample`.) -/
theorem C35_failure_partial (c : Cfg) (hc : c.pcap = true) (callId fromTag : List Nat) (rname : Option (List Nat)) (orig : Bool)
    (k : Kind) (canOpen : Bool) (w : Nat → Option Nat) (rbuf : List Nat) (ipid : Nat) (hb : rbuf.length = 4096) (s : St) (sp : List Nat)
    (rp : Option (List Nat)) (hs : ctor c callId fromTag rname orig k canOpen w rbuf ipid = .ok (some (s, sp, rp)))
    (ops : List Op) (hf : ∀ x ∈ ops, Fits .pcap (decide (k = Kind.both)) x) (hw : ∀ x ∈ ops, Whole x.1.w1 ∧ Whole x.1.w2)
    (e : Env) (he : Whole e.w1) :
    ∃ s' j, run s ops = .ok s' ∧ j ≤ ops.length ∧
      Capture (close e s').file ((ops.take j).filterMap fun x => want (decide (k = Kind.both)) x.1 x.2.1 x.2.2) := by
  obtain ⟨hi, hfd⟩ := ctor_inv hb hs
  simp only [hc, if_true] at hi
  obtain ⟨s', r1, r2, -⟩ := run_inv (by simp) ops [] s hi (fun x hx => ⟨hf x hx, hw x hx⟩)
  obtain ⟨j, hj, hfile⟩ := (close_inv (e := e) r2 (by simp) he).1
  refine ⟨s', j, r1, hj, ?_⟩
  rw [hfile]
  exact ⟨_, cut_app _ rfl, recs_pcap _ _ (fun x hx => hf x (List.mem_of_mem_take hx))⟩

/-- A remote copy sends every packet as it is, once, in order, whatever its addresses. -/
theorem C35_remote : ∀ (ops : List Op) (s : St), s.mode = .remote → s.fd = true →
    ∃ s', run s ops = .ok s' ∧ s'.sent = s.sent ++ ops.map (fun x => x.2.1.data) ∧ s'.file = s.file
  | [], s, _, _ => ⟨s, rfl, by simp, rfl⟩
  | (e, p, o) :: ops, s, hm, hfd => by
    have h1 : write e s p o = .ok { s with sent := s.sent ++ [p.data] } := by
      unfold write; simp [hfd, hm]
    obtain ⟨s', r1, r2, r3⟩ := C35_remote ops { s with sent := s.sent ++ [p.data] } hm hfd
    exact ⟨s', by rw [run, h1]; exact r1, by simp [r2], r3⟩

/-- After a failed write nothing more is written. -/
theorem C35_stops (s : St) (h : s.fd = false) (ops : List Op) (e : Env) :
    ∃ s', run s ops = .ok s' ∧ (close e s').file = s.file := by
  have : ∀ ops, run s ops = .ok s := by
    intro ops
    induction ops with
    | nil => rfl
    | cons x ops ih =>
      obtain ⟨e, p, o⟩ := x
      rw [run, show write e s p o = .ok s by unfold write; simp [h]]
      exact ih
  refine ⟨s, this ops, ?_⟩
  unfold close
  split
  · simp [h, flush]
  · rfl

end Verif.Record
