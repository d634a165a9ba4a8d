import Verif.Eaud.Props
import Verif.Record.Names

/-!
# C47: recording and loading, and where loading fails
-/

namespace Verif.Eaud
open Verif.Rtp (Info parseRaw)
open Verif.Record (cut Reads readOwn readRec Capture Seen Fam Sa Cfg Op L4r Full Fits want h4 h6 env0)

variable {T J : Type}

/-! ## When the statistics have no error -/

/-- One source whose packets stay within 535 of the newest one, see `C11_one_source_partial`. -/
theorem C47_counted_partial (k : Clock T) (fl : Analyze.Fl J) (xs : List (T × List UInt8)) (ssrc : Nat) (x0 : Nat × Bool) (ns : List (Nat × Bool))
    (h0 : x0.1 < 65536) (ht : Analyze.Tame x0.1 x0.1 ns) (hn : ns.length + 1 < 4294967296)
    (hc : List.Forall₂ (fun p x => p.info.seq = x.1 % 65536 ∧ decide (128 ≤ (p.data.getD 1 0).toNat) = x.2 ∧ p.info.ssrc = ssrc)
      (xs.filterMap parsed) (x0 :: ns)) : Counted k fl xs := by
  have hc' : List.Forall₂ (Analyze.Carries ssrc) (stats k xs) (x0 :: ns) := by
    unfold stats
    rw [List.forall₂_map_left_iff]
    exact hc.imp fun p x h => ⟨_, rfl, h.1, h.2.1, h.2.2, rfl⟩
  obtain ⟨a, lo, hi, h1, -, -, -, -, -, -, -, h2, -⟩ := Analyze.C11_one_source_partial fl ssrc x0 ns _ h0 ht hc' hn
  exact ⟨a, h1, h2⟩

/-! ## From the proxy to the loader -/

/-- What is recorded in the recorder's own format is what is loaded from it: the packets of the call, every one of them, in
the order of their arrival. -/
theorem C47_recorded_own_partial (c : Cfg) (hc : c.pcap = false) (callId fromTag : List Nat) (rname : Option (List Nat)) (orig : Bool)
    (kd : Record.Kind) (canOpen : Bool) (w : Nat → Option Nat) (rbuf : List Nat) (ipid : Nat) (hb : rbuf.length = 4096) (s : Record.St)
    (sp : List Nat) (rp : Option (List Nat)) (hs : Record.ctor c callId fromTag rname orig kd canOpen w rbuf ipid = .ok (some (s, sp, rp)))
    (ops : List Op) (hne : ops ≠ []) (hf : ∀ x ∈ ops, L4r x.1 ∧ x.2.1.Ok ∧ x.2.2.Ok) (hw : ∀ x ∈ ops, Full x.1.w1 ∧ Full x.1.w2)
    (e : Record.Env) (he : Full e.w1) (k : Clock T) (fl : Analyze.Fl J) (fuel : Nat) (origin : Origin)
    (hst : Counted k fl (ops.map fun x => (k.dbl x.2.1.time8, octets x.2.1.data))) :
    ∃ s' cs n, Record.run s ops = .ok s' ∧ load k fl (fun _ => good) fuel origin (Record.close e s').file [] = .ok (some (cs, some n)) ∧
      WF cs ∧ n = total cs ∧
      ∀ ssrc, packets cs ssrc = fill [] (audio (ops.map fun x => (k.dbl x.2.1.time8, octets x.2.1.data)) ssrc) := by
  obtain ⟨s', h1, h2⟩ := Record.C35_own c hc callId fromTag rname orig kd canOpen w rbuf ipid hb s sp rp hs ops hf hw e he
  have hm : own k (ops.map fun x => (x.2.1.raddr, x.2.1.time8, x.2.1.data)) = ops.map fun x => (k.dbl x.2.1.time8, octets x.2.1.data) := by
    simp [own]
  obtain ⟨cs, n, k1, k2, k3, k4⟩ := C47_own_partial k fl fuel origin _ _ h2 (by simpa using hne) [] wf_nil (by rw [hm]; exact hst)
  rw [hm] at k4
  exact ⟨s', cs, n, h1, k1, k2, by simpa [total] using k3, k4⟩

/-- The same for captures if the call is over IPv4 and the sockets are bound to addresses. -/
theorem C47_recorded_capture_partial (c : Cfg) (hc : c.pcap = true) (callId fromTag : List Nat) (rname : Option (List Nat)) (orig : Bool)
    (kd : Record.Kind) (canOpen : Bool) (w : Nat → Option Nat) (rbuf : List Nat) (ipid : Nat) (hb : rbuf.length = 4096) (s : Record.St)
    (sp : List Nat) (rp : Option (List Nat)) (hs : Record.ctor c callId fromTag rname orig kd canOpen w rbuf ipid = .ok (some (s, sp, rp)))
    (ops : List Op) (hf : ∀ x ∈ ops, Fits .pcap (decide (kd = Record.Kind.both)) x) (hw : ∀ x ∈ ops, Full x.1.w1 ∧ Full x.1.w2)
    (h4 : ∀ x ∈ ops, x.2.1.raddr.fam = .v4 ∧ ¬ x.2.1.laddr.addr.all (· == 0) ∧ ¬ x.2.2.laddr.addr.all (· == 0))
    (e : Record.Env) (he : Full e.w1) (k : Clock T) (fl : Analyze.Fl J) (fuel : Nat) (hfu : ops.length < fuel) (origin : Origin)
    (hst : Counted k fl (ops.map fun x => (k.ts2d x.2.1.sec x.2.1.usec, octets x.2.1.data))) :
    ∃ s' cs n, Record.run s ops = .ok s' ∧ load k fl (fun _ => good) fuel origin (Record.close e s').file [] = .ok (some (cs, some n)) ∧
      WF cs ∧ n = total cs ∧
      ∀ ssrc, packets cs ssrc = fill [] (audio (ops.map fun x => (k.ts2d x.2.1.sec x.2.1.usec, octets x.2.1.data)) ssrc) := by
  obtain ⟨s', h1, h2⟩ := Record.C35_capture_partial c hc callId fromTag rname orig kd canOpen w rbuf ipid hb s sp rp hs ops hf hw e he
  have hwant : ∀ x ∈ ops, ∃ y : Seen, want (decide (kd = Record.Kind.both)) x.1 x.2.1 x.2.2 = some y ∧ y.sec = x.2.1.sec ∧ y.usec = x.2.1.usec ∧
      y.payload = x.2.1.data ∧ y.src.fam = .v4 := by
    intro x hx
    obtain ⟨q1, q2, q3⟩ := h4 x hx
    unfold want
    cases hcs : decide (kd = Record.Kind.both) && !x.2.2.rtp with
    | true =>
      simp only [if_true]
      unfold Record.asSent
      rw [if_neg (fun hh => q3 hh.1)]
      simp only [Bool.and_eq_true, Bool.not_eq_true'] at hcs
      exact ⟨_, rfl, rfl, rfl, rfl, ((hf x hx).same rfl hcs.1 hcs.2).trans q1⟩
    | false =>
      simp only [Bool.false_eq_true, if_false]
      unfold Record.asReceived
      rw [if_neg (fun hh => q2 hh.1)]
      exact ⟨_, rfl, rfl, rfl, rfl, q1⟩
  have hm : ∀ l : List Op, (∀ x ∈ l, x ∈ ops) →
      captured k (l.filterMap fun x => want (decide (kd = Record.Kind.both)) x.1 x.2.1 x.2.2) =
        l.map (fun x => (k.ts2d x.2.1.sec x.2.1.usec, octets x.2.1.data)) ∧
      (l.filterMap fun x => want (decide (kd = Record.Kind.both)) x.1 x.2.1 x.2.2).length = l.length := by
    intro l
    induction l with
    | nil => intro _; exact ⟨rfl, rfl⟩
    | cons x l ih =>
      intro hl
      obtain ⟨i1, i2⟩ := ih fun y hy => hl y (by simp [hy])
      obtain ⟨y, e1, e2, e3, e4, e5⟩ := hwant x (hl x (by simp))
      rw [List.filterMap_cons, e1]
      simp only
      refine ⟨?_, by simp [i2]⟩
      unfold captured at i1 ⊢
      rw [List.filter_cons_of_pos (by simp [e5]), List.map_cons, List.map_cons, i1, e2, e3, e4]
  obtain ⟨hm1, hm2⟩ := hm ops fun _ h => h
  obtain ⟨cs, n, k1, k2, k3, k4⟩ := C47_capture_partial k fl fuel origin _ _ h2 (fun y hy => by
      obtain ⟨x, hx, hxy⟩ := List.mem_filterMap.1 hy
      obtain ⟨y', e1, e2, e3, e4, e5⟩ := hwant x hx
      rw [e1] at hxy
      cases hxy
      rw [e4]
      exact Nat.lt_of_le_of_lt (hf x hx).pkt.size (by omega)) (by omega) [] wf_nil (by rw [hm1]; exact hst)
  rw [hm1] at k4
  exact ⟨s', cs, n, h1, k1, k2, by simpa [total] using k3, k4⟩

/-! ## Examples -/

/-- A clock for the examples. -/
def ck : Clock Nat := ⟨num, fun s u => s * 1000000 + u, fun a b => decide (a < b), fun _ t => t, fun _ => true, fun _ => true⟩

/-- An RTP packet of eight samples (PCMU). -/
def rtp (ssrc seq ts : Nat) : List Nat :=
  [0x80, 0, seq / 256, seq % 256, ts / 16777216, ts / 65536 % 256, ts / 256 % 256, ts % 256, 0, 0, 0, ssrc] ++ List.replicate 8 (seq % 256)

/-- A record of the recorder's own format. -/
def ownRec (t : Nat) (d : List Nat) : List Nat :=
  [2, 0, 19, 137, 10, 0, 0, 1] ++ List.replicate 12 0 ++ [t, 0, 0, 0, 0, 0, 0, 0] ++ [d.length % 256, d.length / 256] ++ d

/-- The file with the packets of these sources, numbers and time stamps. -/
def ownFile (xs : List (Nat × Nat × Nat)) : List Nat := xs.flatMap fun x => ownRec 1 (rtp x.1 x.2.1 x.2.2)

/-- The result of loading: sources and numbers of the channels, and what is returned. -/
def loaded (file : List Nat) : Option (Option (List (List (Nat × Nat)) × Option Nat)) :=
  (load ck Analyze.fl0 (fun _ => good) 100 .a file []).toOption.map
    (Option.map fun x => (x.1.map (fun c => c.pkts.map fun p => (p.info.ssrc, p.info.seq)), x.2))

theorem readOwn_rec (t : Nat) (d r : List Nat) :
    readOwn (ownRec t d ++ r) = some ((⟨.v4, [10, 0, 0, 1], 5001⟩, [t, 0, 0, 0, 0, 0, 0, 0], d), r) := by
  have e1 : ownRec t d ++ r = ([2, 0, 19, 137, 10, 0, 0, 1] ++ List.replicate 12 0) ++ ([t, 0, 0, 0, 0, 0, 0, 0] ++
      ([d.length % 256, d.length / 256] ++ (d ++ r))) := by simp [ownRec]
  have e2 : Record.little [d.length % 256, d.length / 256] = d.length := by simp [Record.little, Record.big]; omega
  unfold readOwn
  rw [e1, Record.cut_app _ (by rfl)]
  simp only [bind, Option.bind]
  rw [Record.cut_app _ (by rfl)]
  simp only
  rw [Record.cut_app _ (by rfl)]
  simp only
  rw [e2, Record.cut_app _ (by rfl)]
  rfl

theorem reads_file : ∀ (xs : List (Nat × Nat × Nat)), Reads readOwn (ownFile xs)
    (xs.map fun x => (⟨.v4, [10, 0, 0, 1], 5001⟩, [1, 0, 0, 0, 0, 0, 0, 0], rtp x.1 x.2.1 x.2.2))
  | [] => .nil
  | _ :: xs => .cons (readOwn_rec 1 _ _) (reads_file xs)

/-- Two sources, one of them with a late packet and a repeated one. -/
def call : List (Nat × Nat × Nat) := [(7, 1, 160), (8, 5, 100), (7, 3, 480), (7, 2, 320), (7, 3, 480), (8, 6, 260)]

/-- The hypotheses of `C47_own_partial` hold of it. -/
example : Counted ck Analyze.fl0 (own ck (call.map fun x => (⟨.v4, [10, 0, 0, 1], 5001⟩, [1, 0, 0, 0, 0, 0, 0, 0], rtp x.1 x.2.1 x.2.2))) := by
  have : ∃ a, (Analyze.run Analyze.fl0 (.init Analyze.fl0)
      (stats ck (own ck (call.map fun x => (⟨.v4, [10, 0, 0, 1], 5001⟩, [1, 0, 0, 0, 0, 0, 0, 0], rtp x.1 x.2.1 x.2.2))))).toOption = some a ∧
      a.aecount = 0 := by
    refine ⟨_, rfl, ?_⟩
    decide +kernel
  obtain ⟨a, h1, h2⟩ := this
  exact ⟨a, by revert h1; cases Analyze.run _ _ _ <;> intro h <;> cases h; rfl, h2⟩

example : loaded (ownFile call) = some (some ([[(8, 5), (8, 6)], [(7, 1), (7, 2), (7, 3)]], some 5)) := by decide +kernel

/-! ## Where loading fails -/

/-- A packet older than the first one, after a wrap of the numbers: the statistics do not take it, for the loader that is
the end of the file.  The packets after it are lost (and the caller ends the program). -/
theorem C47_error_counterexample :
    loaded (ownFile [(7, 65535, 160), (7, 0, 320), (7, 65530, 80), (7, 1, 480)]) = some (some ([[(7, 65535), (7, 0)]], none)) := by
  decide +kernel

/-- A recording of a call over IPv6 taken as a capture holds its packets, and nothing is loaded from it.  No error is
returned. -/
theorem C47_ipv6_counterexample (k : Clock T) (fl : Analyze.Fl J) (fuel : Nat) (origin : Origin) (file : List Nat) (xs : List Seen)
    (h : Capture file xs) (hsz : ∀ x ∈ xs, x.payload.length < 65536) (hf : xs.length < fuel) (h6 : ∀ x ∈ xs, x.src.fam = .v6) :
    load k fl (fun _ => good) fuel origin file [] = .ok (some ([], some 0)) := by
  obtain ⟨r, h1, h2⟩ := h
  obtain ⟨he, hl24⟩ := cut_spec h1
  have hl := loadPcap_ok k fl origin file r xs h2 hsz fuel hf _ ⟨[], .init fl, 0⟩ he
  have hfil : (xs.filter fun x => x.src.fam = .v4 ∧ 12 ≤ x.payload.length) = [] := by
    rw [List.filter_eq_nil_iff]
    intro x hx
    simp [h6 x hx]
  rw [hfil] at hl
  unfold load
  rw [kind_capture h1]
  simp only
  change loadPcap k fl (fun _ => good) origin file 1 fuel (24 : Nat) _ = _ at hl
  change (match loadPcap k fl (fun _ => good) origin file 1 fuel (24 : Nat) ⟨[], .init fl, 0⟩ with
    | .error f => .error f
    | .ok none => .ok none
    | .ok (some (s, r)) => .ok (some (s.chans, r)) : Except Fault _) = _
  rw [hl]
  rfl

/-- There are such recordings. -/
example : ∃ file, Capture file [⟨1000, 20, h6 1, h6 2, rtp 7 1 160⟩] := by
  have hp : (⟨h6 1, h6 2, rtp 7 1 160, 1000, 20, List.replicate 8 0⟩ : Record.Pkt).Ok :=
    ⟨Record.h6_ok (by omega), Record.h6_ok (by omega), rfl, by unfold Cksum.Bytes; decide, by decide, by decide, by decide, rfl⟩
  have hs : (Record.start true .rtp).isSome = true := by decide +kernel
  unfold Record.start at hs
  split at hs
  · rename_i _ hx
    obtain ⟨⟨s, sp, rp⟩, rfl⟩ := Option.isSome_iff_exists.1 hs
    obtain ⟨s', -, h⟩ := Record.C35_capture_partial (Record.cfg0 true) rfl _ _ _ _ _ _ _ _ _ (List.length_replicate ..) s sp rp hx
      [(env0, ⟨h6 1, h6 2, rtp 7 1 160, 1000, 20, List.replicate 8 0⟩, Record.out6 true)]
      (by intro x hx; rw [List.mem_singleton] at hx; subst hx
          exact ⟨(fun a b h => by cases h), hp, Record.out6_ok true, fun _ h => by cases h⟩)
      (by intro x hx; rw [List.mem_singleton] at hx; subst hx; exact ⟨fun _ => rfl, fun _ => rfl⟩) env0 (fun _ => rfl)
    exact ⟨_, h⟩
  · cases hs

/-- Whether loading is undefined. -/
def faults (file : List Nat) : Bool :=
  match load ck Analyze.fl0 (fun _ => good) 100 .a file [] with
  | .error .ub => true
  | _ => false

/-- A recording that was cut off inside a header (the system took a part of a write) at the end of a page: the length of the
packet is read past the mapping. -/
theorem C47_cut_counterexample : ∃ file : List Nat, file.length = 4096 ∧ faults file = true :=
  ⟨ownRec 1 (List.replicate 4046 0) ++ List.replicate 20 0, by decide +kernel, by decide +kernel⟩

def pcapHeader : List Nat := [0xd4, 0xc3, 0xb2, 0xa1, 2, 0, 4, 0, 0, 0, 0, 0, 0, 0, 0, 0, 255, 255, 0, 0, 1, 0, 0, 0]

/-- A capture whose last record is cut off: its length is not checked against the file, the packet is read past the
mapping. -/
theorem C47_length_counterexample : ∃ file : List Nat, file.length < 100 ∧ faults file = true :=
  ⟨pcapHeader ++ [0, 0, 0, 0, 0, 0, 0, 0, 0x60, 0xea, 0, 0, 0x60, 0xea, 0, 0] ++ List.replicate 12 0 ++ [8, 0] ++ List.replicate 28 0,
    by decide +kernel, by decide +kernel⟩

def stuck : List Nat :=
  pcapHeader ++ [0, 0, 0, 0, 0, 0, 0, 0, 0xf0, 0xff, 0xff, 0xff, 0, 0, 0, 0] ++ List.replicate 42 0

/-- A record of an unknown protocol with length 2^32 - 16: the loader comes back to it for ever. -/
theorem C47_endless_counterexample (k : Clock T) (fl : Analyze.Fl J) (sys : Int → Sys) (origin : Origin) (chans : List (Chan T)) (fuel : Nat) :
    load k fl sys fuel origin stuck chans = .ok none := by
  have h1 : pcapDissect stuck 1 24 = .ok (.skip 0) := by
    have : (pcapDissect stuck 1 24).toOption = some (.skip 0) := by decide +kernel
    revert this
    cases pcapDissect stuck 1 24 <;> intro h <;> cases h
    rfl
  have h2 : ∀ fuel (s : St T J), loadPcap k fl sys origin stuck 1 fuel 24 s = .ok none := by
    intro fuel
    induction fuel with
    | zero => intro s; rfl
    | succ n ih =>
      intro s
      rw [loadPcap, if_pos (by decide), h1]
      exact ih s
  have h3 : kind stuck = .ok (some (.pcap 1)) := by
    have : (kind stuck).toOption = some (some (.pcap 1)) := by decide +kernel
    revert this
    cases kind stuck <;> intro h <;> cases h
    rfl
  unfold load
  rw [h3]
  simp only
  rw [h2]

/-- Two files: numbers and time stamps of the channels, and what is returned for the second. -/
def loaded2 (f1 f2 : List Nat) : Option (Option (List (List (Nat × Nat)) × Option Nat)) :=
  (load ck Analyze.fl0 (fun _ => good) 100 .a f1 []).toOption.bind fun x => x.bind fun y =>
    (load ck Analyze.fl0 (fun _ => good) 100 .b f2 y.1).toOption.map
      (Option.map fun x => (x.1.map (fun c => c.pkts.map fun p => (p.info.seq, p.info.ts)), x.2))

/-- The two parties of a call may use the same SSRC (they choose it independently): the packets of both are put into one
channel, and a packet of the second with the number of the last one of the first is lost. -/
theorem C47_same_ssrc_counterexample :
    loaded2 (ownFile [(7, 1, 160), (7, 2, 320), (7, 3, 480)]) (ownFile [(7, 3, 9160), (7, 4, 9320), (7, 5, 9480)]) =
      some (some ([[(1, 160), (2, 320), (3, 480), (4, 9320), (5, 9480)]], some 2)) := by decide +kernel

end Verif.Eaud
