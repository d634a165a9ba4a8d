import Verif.Eaud.File

/-!
# C47: loading a recording

A recording in the recorder's own format or a capture is read independently by `Record.readOwn` and `Record.readRec`.
`audio xs ssrc` are the packets of the file that parse as RTP of one source and have samples, in the order of the file;
`packets cs ssrc` those the loader has got.
-/

namespace Verif.Eaud
open Verif.Rtp (Info parseRaw)
open Verif.Record (cut Reads readOwn readRec Capture Seen Fam Sa)

variable {T J : Type}

/-- The packets of a file with their times. -/
def own (k : Clock T) (xs : List (Sa × List Nat × List Nat)) : List (T × List UInt8) := xs.map fun x => (k.dbl x.2.1, octets x.2.2)

/-- The IPv4 packets of a capture with their times. -/
def captured (k : Clock T) (xs : List Seen) : List (T × List UInt8) :=
  (xs.filter fun x => x.src.fam = .v4).map fun x => (k.ts2d x.sec x.usec, octets x.payload)

/-- The statistics over the packets have no error. -/
def Counted (k : Clock T) (fl : Analyze.Fl J) (xs : List (T × List UInt8)) : Prop :=
  ∃ a, Analyze.run fl (.init fl) (stats k xs) = .ok a ∧ a.aecount = 0

theorem parsed_short {x : T × List UInt8} (h : x.2.length < 12) : parsed x = none := by
  unfold parsed
  rcases Rtp.parseRaw_spec x.2 with ⟨-, e, hp, -⟩ | ⟨hw, -⟩
  · rw [hp]
  · exact absurd hw.1 (by omega)

theorem filterMap_filter {A : Type} (f : A → T × List UInt8) (p : A → Bool) (xs : List A) (h : ∀ x ∈ xs, p x = false → parsed (f x) = none) :
    ((xs.filter p).map f).filterMap parsed = (xs.map f).filterMap parsed := by
  induction xs with
  | nil => rfl
  | cons x xs ih =>
    have ih := ih fun y hy => h y (by simp [hy])
    cases hp : p x with
    | true => simp only [List.filter_cons_of_pos hp, List.map_cons, List.filterMap_cons, ih]
    | false =>
      rw [List.filter_cons_of_neg (by simp [hp]), ih, List.map_cons, List.filterMap_cons, h x (by simp) hp]

theorem rd_start {b : List Nat} {n : Nat} (h : b ≠ []) (hn : n ≤ 4096) : rd b 0 n = .ok ((mapped b).take n) := by
  unfold rd
  have : 0 < b.length := List.length_pos_iff.2 h
  rw [if_pos]
  · rfl
  · simp only [mapped, List.length_append, List.length_replicate]
    omega

theorem mapped_take {a r : List Nat} : (mapped (a ++ r)).take a.length = a := by simp [mapped]

theorem kind_own {file : List Nat} {xs : List (Sa × List Nat × List Nat)} (h : Reads readOwn file xs) (hx : xs ≠ []) :
    kind file = .ok (some .adhoc) := by
  cases h with
  | nil => exact absurd rfl hx
  | @cons l r x xs h1 h2 =>
    obtain ⟨sa, t, d⟩ := x
    obtain ⟨a, n, rfl, la, lt, ln, hn, ha⟩ := readOwn_spec h1
    match a, la with
    | a0 :: a1 :: a2 :: a3 :: a', _ =>
      have h0 : a0 = 2 ∨ a0 = 10 := by
        rcases ha with h | h
        · left; simpa using h
        · right; simpa using h
      unfold kind
      rw [if_neg (by simp), rd_start (by simp) (by omega)]
      simp only
      rw [if_pos]
      simp only [mapped, List.cons_append, List.take_succ_cons, List.take_zero, num]
      omega

theorem feeds_load {k : Clock T} {fl : Analyze.Fl J} {origin : Origin} {chans : List (Chan T)} {ps qs : List (T × List UInt8)} (hc : WF chans)
    (he : ps.filterMap parsed = qs.filterMap parsed) (hst : Counted k fl qs) :
    ∃ s', feeds k fl origin ⟨chans, .init fl, 0⟩ ps = .ok (s', true) ∧ WF s'.chans ∧
      (∀ x, packets s'.chans x = fill (packets chans x) (audio qs x)) ∧ s'.pcount + total chans = total s'.chans := by
  obtain ⟨a, ha, h0⟩ := hst
  have : stats k qs = stats k ps := by unfold stats; rw [he]
  rw [this] at ha
  obtain ⟨s', k1, k2, k3, k4⟩ := feeds_ok k fl origin ps ⟨chans, .init fl, 0⟩ a hc ha (by rw [h0]; rfl)
  refine ⟨s', k1, k2, fun x => ?_, by simpa using k4⟩
  rw [k3]
  unfold audio
  rw [he]

/-- A file of the recorder's own format is loaded: each source has one channel, which gets the packets of the source in the
file one after the other, and the number of packets added is returned.  Provided that the statistics do not find an error,
see `C47_error_counterexample`. -/
theorem C47_own_partial (k : Clock T) (fl : Analyze.Fl J) (fuel : Nat) (origin : Origin) (file : List Nat) (xs : List (Sa × List Nat × List Nat))
    (h : Reads readOwn file xs) (hx : xs ≠ []) (chans : List (Chan T)) (hc : WF chans) (hst : Counted k fl (own k xs)) :
    ∃ cs n, load k fl (fun _ => good) fuel origin file chans = .ok (some (cs, some n)) ∧ WF cs ∧ n + total chans = total cs ∧
      ∀ ssrc, packets cs ssrc = fill (packets chans ssrc) (audio (own k xs) ssrc) := by
  have hl := loadAdhoc_ok k fl origin file file xs h [] ⟨chans, .init fl, 0⟩ rfl
  obtain ⟨s', k1, k2, k3, k4⟩ := feeds_load (origin := origin) (ps := (xs.filter fun x => 12 ≤ x.2.2.length).map fun x => (k.dbl x.2.1, octets x.2.2)) hc
    (filterMap_filter (fun x : Sa × List Nat × List Nat => (k.dbl x.2.1, octets x.2.2)) (fun x => 12 ≤ x.2.2.length) xs
      (fun x _ hp => parsed_short (by simp [octets] at hp ⊢; omega))) hst
  rw [k1] at hl
  unfold load
  rw [kind_own h hx]
  simp only
  rw [List.length_nil] at hl
  rw [hl]
  exact ⟨_, _, rfl, k2, k4, k3⟩

theorem kind_capture {file r : List Nat} (h : cut 24 file =
    some ([0xd4, 0xc3, 0xb2, 0xa1, 2, 0, 4, 0, 0, 0, 0, 0, 0, 0, 0, 0, 255, 255, 0, 0, 1, 0, 0, 0], r)) : kind file = .ok (some (.pcap 1)) := by
  obtain ⟨rfl, -⟩ := cut_spec h
  unfold kind
  have : (mapped ([0xd4, 0xc3, 0xb2, 0xa1, 2, 0, 4, 0, 0, 0, 0, 0, 0, 0, 0, 0, 255, 255, 0, 0, 1, 0, 0, 0] ++ r)).take 24 =
      [0xd4, 0xc3, 0xb2, 0xa1, 2, 0, 4, 0, 0, 0, 0, 0, 0, 0, 0, 0, 255, 255, 0, 0, 1, 0, 0, 0] :=
    mapped_take (a := [0xd4, 0xc3, 0xb2, 0xa1, 2, 0, 4, 0, 0, 0, 0, 0, 0, 0, 0, 0, 255, 255, 0, 0, 1, 0, 0, 0])
  rw [if_neg (by simp), rd_start (by simp) (by omega), this]
  simp only
  rw [if_neg (by decide), if_neg (by simp)]
  rfl

/-- A capture is loaded; of its packets those over IPv4 (for the others see `C47_ipv6_counterexample`). -/
theorem C47_capture_partial (k : Clock T) (fl : Analyze.Fl J) (fuel : Nat) (origin : Origin) (file : List Nat) (xs : List Seen)
    (h : Capture file xs) (hsz : ∀ x ∈ xs, x.payload.length < 65536) (hf : xs.length < fuel) (chans : List (Chan T)) (hc : WF chans)
    (hst : Counted k fl (captured k xs)) :
    ∃ cs n, load k fl (fun _ => good) fuel origin file chans = .ok (some (cs, some n)) ∧ WF cs ∧ n + total chans = total cs ∧
      ∀ ssrc, packets cs ssrc = fill (packets chans ssrc) (audio (captured k xs) ssrc) := by
  obtain ⟨r, h1, h2⟩ := h
  obtain ⟨he, hl24⟩ := cut_spec h1
  have hl := loadPcap_ok k fl origin file r xs h2 hsz fuel hf _ ⟨chans, .init fl, 0⟩ he
  have hfil : (xs.filter fun x => x.src.fam = .v4 ∧ 12 ≤ x.payload.length) =
      (xs.filter fun x => x.src.fam = .v4).filter fun x => 12 ≤ x.payload.length := by
    rw [List.filter_filter]
    congr 1
    funext x
    simp [Bool.and_comm]
  rw [hfil] at hl
  obtain ⟨s', k1, k2, k3, k4⟩ := feeds_load (origin := origin)
    (ps := ((xs.filter fun x => x.src.fam = .v4).filter fun x => 12 ≤ x.payload.length).map fun x => (k.ts2d x.sec x.usec, octets x.payload)) hc
    (filterMap_filter (fun x : Seen => (k.ts2d x.sec x.usec, octets x.payload)) (fun x => 12 ≤ x.payload.length) (xs.filter fun x => x.src.fam = .v4)
      (fun x _ hp => parsed_short (by simp [octets] at hp ⊢; omega))) hst
  rw [k1] at hl
  unfold load
  rw [kind_capture h1]
  simp only
  change loadPcap k fl (fun _ => good) origin file 1 fuel (24 : Nat) _ = _ at hl
  change ∃ cs n, (match loadPcap k fl (fun _ => good) origin file 1 fuel (24 : Nat) ⟨chans, .init fl, 0⟩ with
    | .error f => .error f
    | .ok none => .ok none
    | .ok (some (s, r)) => .ok (some (s.chans, r)) : Except Fault _) = _ ∧ _
  rw [hl]
  exact ⟨_, _, rfl, k2, k4, k3⟩

theorem fill_append (l xs ys : List (Packet T)) : fill l (xs ++ ys) = fill (fill l xs) ys := by simp [fill]

theorem packets_nil (x : Nat) : packets ([] : List (Chan T)) x = [] := rfl

/-- The two directions of a call, recorded in two files of the recorder's own format: each source has its packets in the
order they were sent, each of them once.  (In captures and for one file alike.) -/
theorem C47_call_partial (k : Clock T) (fl : Analyze.Fl J) (fuel : Nat) (f1 f2 : List Nat) (xs ys : List (Sa × List Nat × List Nat))
    (h1 : Reads readOwn f1 xs) (hx : xs ≠ []) (h2 : Reads readOwn f2 ys) (hy : ys ≠ []) (s1 : Counted k fl (own k xs)) (s2 : Counted k fl (own k ys))
    (n : Packet T → Nat) (ho : ∀ ssrc, Orderly n (audio (own k xs) ssrc ++ audio (own k ys) ssrc)) :
    ∃ c1 n1 c2 n2, load k fl (fun _ => good) fuel .a f1 [] = .ok (some (c1, some n1)) ∧
      load k fl (fun _ => good) fuel .b f2 c1 = .ok (some (c2, some n2)) ∧ WF c2 ∧ n1 + n2 = total c2 ∧
      ∀ ssrc, Sorted n (audio (own k xs) ssrc ++ audio (own k ys) ssrc) (packets c2 ssrc) := by
  obtain ⟨c1, n1, a1, a2, a3, a4⟩ := C47_own_partial k fl fuel .a f1 xs h1 hx [] wf_nil s1
  obtain ⟨c2, n2, b1, b2, b3, b4⟩ := C47_own_partial k fl fuel .b f2 ys h2 hy c1 a2 s2
  refine ⟨c1, n1, c2, n2, a1, b1, b2, ?_, fun ssrc => ?_⟩
  · simp only [total, List.flatMap_nil, List.length_nil] at a3 b3 ⊢
    omega
  · rw [b4, a4, packets_nil, ← fill_append]
    exact C47_order_partial n _ (ho ssrc)

end Verif.Eaud
