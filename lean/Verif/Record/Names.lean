import Verif.Record.Props

/-!
# C35: where it fails, and C61: the names of recordings
-/

namespace Verif.Record
open Verif.Cksum

/-! ## Examples -/

def h4 (n : Nat) : Sa := ⟨.v4, [10, 0, 0, n], 5000 + n⟩
def h6 (n : Nat) : Sa := ⟨.v6, [32, 1, 13, 184, 0, 0, 0, 0, 0, 0, 0, 0, 0, 0, 0, n], 5000 + n⟩

theorem h4_ok {n : Nat} (h : n < 256) : (h4 n).Ok :=
  ⟨rfl, by intro b hb; simp only [h4, List.mem_cons, List.not_mem_nil, or_false] at hb; omega, by simp only [h4]; omega⟩

theorem h6_ok {n : Nat} (h : n < 256) : (h6 n).Ok :=
  ⟨rfl, by intro b hb; simp only [h6, List.mem_cons, List.not_mem_nil, or_false] at hb; omega, by simp only [h6]; omega⟩

/-- The system takes everything and knows no local address. -/
def env0 : Env := ⟨some, some, fun _ => none, []⟩

def pkt4 (n : Nat) : Pkt := ⟨h4 1, h4 2, List.replicate n 7, 1000, 20, List.replicate 8 0⟩
def out4 (rtp : Bool) : Out := ⟨some (h4 9), h4 8, rtp⟩
def out6 (rtp : Bool) : Out := ⟨some (h6 9), h6 8, rtp⟩

theorem pkt4_ok {n : Nat} (h : n ≤ 8192) : (pkt4 n).Ok :=
  ⟨h4_ok (by omega), h4_ok (by omega), rfl, by intro b hb; rw [List.eq_of_mem_replicate hb]; omega,
    by simp only [pkt4, List.length_replicate]; exact h, by simp only [pkt4]; omega, by simp only [pkt4]; omega, rfl⟩

theorem out4_ok (b : Bool) : (out4 b).Ok :=
  ⟨h4_ok (by omega), by intro a ha; cases ha; exact ⟨h4_ok (by omega), rfl⟩⟩

theorem out6_ok (b : Bool) : (out6 b).Ok :=
  ⟨h6_ok (by omega), by intro a ha; cases ha; exact ⟨h6_ok (by omega), rfl⟩⟩

def cfg0 (pcap : Bool) : Cfg := ⟨some (bytes "/r"), none, pcap⟩

def start (pcap : Bool) (k : Kind) : Option (St × List Nat × Option (List Nat)) :=
  match ctor (cfg0 pcap) (bytes "c") (bytes "t") none true k true some (List.replicate 4096 0) 0 with
  | .ok x => x
  | .error _ => none

/-- The hypotheses of `C35_capture_partial` are met by a recording that fills the buffer more than once and has a packet
larger than the buffer. -/
example : (start true .both).isSome = true ∧
    (∀ x ∈ List.replicate 40 (env0, pkt4 172, out4 true) ++ [(env0, pkt4 5000, out4 true), (env0, pkt4 60, out4 false)],
      Fits .pcap true x ∧ Full x.1.w1 ∧ Full x.1.w2) := by
  refine ⟨by decide +kernel, ?_⟩
  intro x hx
  have : ∃ n ≤ 8192, ∃ b, x = (env0, pkt4 n, out4 b) := by
    rcases List.mem_append.1 hx with h | h
    · exact ⟨172, by omega, true, List.eq_of_mem_replicate h⟩
    · simp only [List.mem_cons, List.not_mem_nil, or_false] at h
      rcases h with rfl | rfl
      · exact ⟨5000, by omega, true, rfl⟩
      · exact ⟨60, by omega, false, rfl⟩
  obtain ⟨n, hn, b, rfl⟩ := this
  exact ⟨⟨(fun a b h => by cases h), pkt4_ok hn, out4_ok b, fun _ _ _ => rfl⟩, fun _ => rfl, fun _ => rfl⟩

/-! ## Where C35 fails -/

/-- What running and closing makes: `none` is undefined behaviour. -/
def result (s : Option (St × List Nat × Option (List Nat))) (ops : List Op) (e : Env) : Option (List Nat) :=
  match s with
  | none => some []
  | some (s, _, _) =>
    match run s ops with
    | .ok s => some (close e s).file
    | .error _ => none

/-- Single file, an RTCP packet that arrives by IPv4 and leaves by IPv6: the room is reckoned by the one family, the header
made for the other one.  With the buffer nearly full the header is written past its end. -/
theorem C35_family_counterexample : ∃ ops : List Op,
    (∀ x ∈ ops, L4r x.1 ∧ x.2.1.Ok ∧ x.2.2.Ok ∧ Full x.1.w1 ∧ Full x.1.w2) ∧ (start true .both).isSome = true ∧
    result (start true .both) ops env0 = none := by
  refine ⟨[(env0, pkt4 3962, out4 true), (env0, pkt4 8, out6 false)], ?_, by decide +kernel, by decide +kernel⟩
  intro x hx
  simp only [List.mem_cons, List.not_mem_nil, or_false] at hx
  rcases hx with rfl | rfl
  · exact ⟨(fun a b h => by cases h), pkt4_ok (by omega), out4_ok _, fun _ => rfl, fun _ => rfl⟩
  · exact ⟨(fun a b h => by cases h), pkt4_ok (by omega), out6_ok _, fun _ => rfl, fun _ => rfl⟩

theorem not_capture {l : List Nat} (h : readRec (l.drop 24) = none) (hl : 24 < l.length) : ¬ ∃ xs, Capture l xs := by
  rintro ⟨xs, r, h1, h2⟩
  unfold cut at h1
  rw [if_pos (by omega)] at h1
  simp only [Option.some.injEq, Prod.mk.injEq] at h1
  obtain ⟨-, h1⟩ := h1
  rw [h1] at h
  cases h2 with
  | nil =>
    have := congrArg List.length h1
    simp only [List.length_drop, List.length_nil] at this
    omega
  | cons hr _ => rw [h] at hr; cases hr

/-- Even without an overrun such a packet makes the file unreadable: the length announced is not the one written. -/
theorem C35_family_garbled_counterexample : ∃ ops : List Op,
    (∀ x ∈ ops, L4r x.1 ∧ x.2.1.Ok ∧ x.2.2.Ok ∧ Full x.1.w1 ∧ Full x.1.w2) ∧
    ∃ f, result (start true .both) ops env0 = some f ∧ ¬ ∃ xs, Capture f xs := by
  refine ⟨[(env0, pkt4 8, out6 false)], ?_, ?_⟩
  · intro x hx
    simp only [List.mem_cons, List.not_mem_nil, or_false] at hx
    subst hx
    exact ⟨(fun a b h => by cases h), pkt4_ok (by omega), out6_ok _, fun _ => rfl, fun _ => rfl⟩
  · have h1 : (result (start true .both) [(env0, pkt4 8, out6 false)] env0).isSome = true := by decide +kernel
    have h2 : (result (start true .both) [(env0, pkt4 8, out6 false)] env0).map
        (fun f => (decide (readRec (f.drop 24) = none), decide (24 < f.length))) = some (true, true) := by decide +kernel
    cases hr : result (start true .both) [(env0, pkt4 8, out6 false)] env0 with
    | none => rw [hr] at h1; cases h1
    | some f =>
      rw [hr] at h2
      simp only [Option.map_some, Option.some.injEq, Prod.mk.injEq, decide_eq_true_eq] at h2
      exact ⟨f, rfl, not_capture h2.1 h2.2⟩

/-- A short write (a file system that is filling up) goes unnoticed: the recording is cut in the middle of a packet and the
recorder believes all is well; the file is no capture. -/
theorem C35_short_write_counterexample : ∃ e : Env, (∀ n, ∃ k, 0 < k ∧ e.w1 n = some k) ∧
    ∃ f, result (start true .both) [(env0, pkt4 100, out4 true)] e = some f ∧ ¬ ∃ xs, Capture f xs := by
  refine ⟨{ env0 with w1 := fun _ => some 20 }, fun _ => ⟨20, by omega, rfl⟩, ?_⟩
  have h1 : (result (start true .both) [(env0, pkt4 100, out4 true)] { env0 with w1 := fun _ => some 20 }).map
      (fun f => (decide (readRec (f.drop 24) = none), decide (24 < f.length))) = some (true, true) := by decide +kernel
  cases hr : result (start true .both) [(env0, pkt4 100, out4 true)] { env0 with w1 := fun _ => some 20 } with
  | none => rw [hr] at h1; cases h1
  | some f =>
    rw [hr] at h1
    simp only [Option.map_some, Option.some.injEq, Prod.mk.injEq, decide_eq_true_eq] at h1
    exact ⟨f, rfl, not_capture h1.1 h1.2⟩

/-! ## C61: names -/

theorem sprintf_ok {bs : List Nat} (h : bs.length ≤ 4096) : sprintf bs = .ok bs := by unfold sprintf; rw [if_pos h]

theorem path_length (dir : List Nat) (pcap : Bool) (c t : List Nat) (rname : Option (List Nat)) (orig : Bool) (k : Kind) :
    (path dir pcap c t rname orig k).length ≤ dir.length + (c.length + t.length + (rname.getD []).length) + 9 := by
  have e1 : (bytes "/").length = 1 := by decide +kernel
  have e2 : (bytes "=").length = 1 := by decide +kernel
  have e3 : (bytes ".o").length = 2 := by decide +kernel
  have e4 : (bytes ".a").length = 2 := by decide +kernel
  have e5 : (bytes ".rtp").length = 4 := by decide +kernel
  have e6 : (bytes ".rtcp").length = 5 := by decide +kernel
  have e7 : (bytes ".pcap").length = 5 := by decide +kernel
  unfold path
  cases rname <;> cases k <;> cases orig <;> cases pcap <;>
    simp only [List.length_append, e1, e2, e3, e4, e5, e6, e7, Option.getD_none, Option.getD_some, List.length_nil, reduceCtorEq,
      and_true, and_false, if_true, if_false, Bool.false_eq_true] <;> omega

/-- The names fit as long as call, tag and directory are not too long together. -/
theorem C61_path_partial (c : Cfg) (callId fromTag : List Nat) (rname : Option (List Nat)) (orig : Bool) (k : Kind) (canOpen : Bool)
    (w : Nat → Option Nat) (rbuf : List Nat) (ipid : Nat)
    (hr : ∀ d, c.rdir = some d → d.length + (callId.length + fromTag.length + (rname.getD []).length) ≤ 4087)
    (hs : ∀ d, c.sdir = some d → d.length + (callId.length + fromTag.length + (rname.getD []).length) ≤ 4087) :
    ∃ x, ctor c callId fromTag rname orig k canOpen w rbuf ipid = .ok x := by
  unfold ctor
  cases hrd : c.rdir with
  | none => exact ⟨_, rfl⟩
  | some rd =>
    simp only
    have h1 : sprintf (path rd c.pcap callId fromTag rname orig k) = .ok (path rd c.pcap callId fromTag rname orig k) :=
      sprintf_ok (by have := path_length rd c.pcap callId fromTag rname orig k; have := hr rd hrd; omega)
    have h2 : ∃ x, spool c.sdir (path rd c.pcap callId fromTag rname orig k) = .ok x := by
      unfold spool
      cases c.sdir with
      | none => exact ⟨_, rfl⟩
      | some _ => simp only [h1]; exact ⟨_, rfl⟩
    obtain ⟨x, h2⟩ := h2
    rw [h2]
    simp only
    have h3 : ∃ y, sprintf (path (c.sdir.getD rd) c.pcap callId fromTag rname orig k) = .ok y := by
      refine ⟨_, sprintf_ok ?_⟩
      have := path_length (c.sdir.getD rd) c.pcap callId fromTag rname orig k
      cases hsd : c.sdir with
      | none => rw [hsd] at this; have := hr rd hrd; simp only [Option.getD_none] at *; omega
      | some sd => rw [hsd] at this; have := hs sd hsd; simp only [Option.getD_some] at *; omega
    obtain ⟨y, h3⟩ := h3
    rw [h3]
    simp only
    split
    · exact ⟨_, rfl⟩
    · split
      · split
        · exact ⟨_, rfl⟩
        · split <;> exact ⟨_, rfl⟩
      · exact ⟨_, rfl⟩

/-- A longer call-id overruns the buffer for the name. -/
theorem C61_path_counterexample : ∃ callId : List Nat, callId.length = 4096 ∧
    (match ctor (cfg0 true) callId (bytes "t") none true .both true some [] 0 with
      | .error .ub => true
      | _ => false) = true :=
  ⟨List.replicate 4096 97, List.length_replicate, by decide +kernel⟩

theorem split_eq {a b c d : List Nat} {x : Nat} (ha : x ∉ a) (hc : x ∉ c) (h : a ++ x :: b = c ++ x :: d) : a = c ∧ b = d := by
  induction a generalizing c with
  | nil =>
    cases c with
    | nil => simpa using h
    | cons y c =>
      simp only [List.nil_append, List.cons_append, List.cons.injEq] at h
      exact absurd (by simp [h.1]) hc
  | cons z a ih =>
    cases c with
    | nil =>
      simp only [List.nil_append, List.cons_append, List.cons.injEq] at h
      exact absurd (by simp [h.1]) ha
    | cons y c =>
      simp only [List.cons_append, List.cons.injEq] at h
      obtain ⟨rfl, h⟩ := h
      obtain ⟨rfl, rfl⟩ := ih (fun hm => ha (by simp [hm])) (fun hm => hc (by simp [hm])) h
      exact ⟨rfl, rfl⟩

/-- Recordings of the same kind of different calls, or of different (media-less) tags, have different names, provided that
call-ids hold no equal sign. -/
theorem C61_distinct_partial (dir : List Nat) (pcap : Bool) (c1 t1 c2 t2 : List Nat) (orig : Bool) (k : Kind)
    (h1 : 61 ∉ c1) (h2 : 61 ∉ c2) (h : path dir pcap c1 t1 none orig k = path dir pcap c2 t2 none orig k) : c1 = c2 ∧ t1 = t2 := by
  have he : bytes "=" = [61] := by decide +kernel
  unfold path at h
  simp only [List.append_assoc, List.append_cancel_left_eq, he, List.cons_append, List.nil_append] at h
  obtain ⟨rfl, h'⟩ := split_eq h1 h2 h
  exact ⟨rfl, List.append_cancel_right h'⟩

/-- With an equal sign in the call-id they can be the same. -/
theorem C61_distinct_counterexample (dir : List Nat) (pcap orig : Bool) (k : Kind) :
    path dir pcap (bytes "a") (bytes "b=c") none orig k = path dir pcap (bytes "a=b") (bytes "c") none orig k := by
  have h1 : bytes "a" ++ bytes "=" ++ bytes "b=c" = bytes "a=b" ++ bytes "=" ++ bytes "c" := by decide +kernel
  unfold path
  simp only [List.append_assoc] at h1 ⊢
  simp only [List.append_cancel_left_eq]
  have : ∀ r : List Nat, bytes "a" ++ (bytes "=" ++ (bytes "b=c" ++ r)) = bytes "a=b" ++ (bytes "=" ++ (bytes "c" ++ r)) := by
    intro r
    have := congrArg (· ++ r) h1
    simpa [List.append_assoc] using this
  exact this _

/-- `from_tag_nmn`: the tag up to the media number, rtpp_session.c:159-167. -/
def nmn (tag : List Nat) : List Nat := tag.takeWhile (· ≠ 59)

/-- The streams of one call that differ by the media number only are recorded into one file. -/
theorem C61_media_counterexample (dir : List Nat) (pcap orig : Bool) (k : Kind) (callId tag : List Nat) (h : 59 ∉ tag) (m n : List Nat) :
    path dir pcap callId (nmn (tag ++ 59 :: m)) none orig k = path dir pcap callId (nmn (tag ++ 59 :: n)) none orig k := by
  have : ∀ m, nmn (tag ++ 59 :: m) = tag := by
    intro m
    unfold nmn
    rw [List.takeWhile_append_of_pos (by
      intro a ha
      have : a ≠ 59 := fun he => h (he ▸ ha)
      simpa using this)]
    simp
  rw [this, this]

/-- Both directions of a session recorded under a given name go to one file, too. -/
theorem C61_given_name_counterexample (dir : List Nat) (pcap : Bool) (callId tag name : List Nat) :
    path dir pcap callId tag (some name) true .rtp = path dir pcap callId tag (some name) false .rtp := by
  unfold path; rfl

/-- The kinds of recording of one session have different names. -/
theorem C61_kinds (dir : List Nat) (pcap : Bool) (c t : List Nat) (k1 k2 : Kind) (o1 o2 : Bool)
    (h1 : k1 ≠ .both) (h2 : k2 ≠ .both)
    (h : path dir pcap c t none o1 k1 = path dir pcap c t none o2 k2) : k1 = k2 ∧ o1 = o2 := by
  have e3 : bytes ".o" = [46, 111] := by decide +kernel
  have e4 : bytes ".a" = [46, 97] := by decide +kernel
  have e5 : bytes ".rtp" = [46, 114, 116, 112] := by decide +kernel
  have e6 : bytes ".rtcp" = [46, 114, 116, 99, 112] := by decide +kernel
  unfold path at h
  simp only [List.append_assoc, List.append_cancel_left_eq] at h
  cases k1 <;> cases k2 <;> cases o1 <;> cases o2 <;> simp_all

/-- A name that stays in the directory: a single further component. -/
def Inside (dir p : List Nat) : Prop := ∃ name, p = dir ++ [47] ++ name ∧ 47 ∉ name

theorem C61_inside_partial (dir : List Nat) (pcap : Bool) (c t : List Nat) (orig : Bool) (k : Kind) (h1 : 47 ∉ c) (h2 : 47 ∉ t) :
    Inside dir (path dir pcap c t none orig k) := by
  have e1 : bytes "/" = [47] := by decide +kernel
  have e2 : bytes "=" = [61] := by decide +kernel
  have e3 : bytes ".o" = [46, 111] := by decide +kernel
  have e4 : bytes ".a" = [46, 97] := by decide +kernel
  have e5 : bytes ".rtp" = [46, 114, 116, 112] := by decide +kernel
  have e6 : bytes ".rtcp" = [46, 114, 116, 99, 112] := by decide +kernel
  have e7 : bytes ".pcap" = [46, 112, 99, 97, 112] := by decide +kernel
  unfold path Inside
  simp only [e1, e2, e3, e4, e5, e6, e7, List.append_assoc, List.append_cancel_left_eq]
  refine ⟨_, rfl, ?_⟩
  cases k <;> cases orig <;> cases pcap <;> simp [h1, h2]

/-- A call-id with slashes leads out of it: nothing checks. -/
theorem C61_inside_counterexample (dir : List Nat) (pcap orig : Bool) :
    path dir pcap (bytes "../etc/x") (bytes "t") none orig .rtp =
      dir ++ bytes "/../etc/x=t" ++ (if orig then bytes ".o" else bytes ".a") ++ bytes ".rtp" := by
  have h1 : bytes "/" ++ bytes "../etc/x" ++ bytes "=" ++ bytes "t" = bytes "/../etc/x=t" := by decide +kernel
  unfold path
  rw [← h1]
  simp only [List.append_assoc]

end Verif.Record
