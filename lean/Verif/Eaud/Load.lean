import Verif.Eaud.Order
import Verif.Rtp.Props
import Verif.Analyze.Jitter
import Verif.Record.Spec

/-!
# Lemmas about loading
-/

namespace Verif.Eaud
open Verif.Rtp (Info parseRaw)

variable {T J : Type}

/-! ## Channels -/

/-- The packets of one source, in the order of the channels. -/
def packets (l : List (Chan T)) (ssrc : Nat) : List (Packet T) := (l.flatMap (·.pkts)).filter (fun p => p.info.ssrc = ssrc)

/-- The number of packets in the channels. -/
def total (l : List (Chan T)) : Nat := (l.flatMap (·.pkts)).length

/-- One channel for each source. -/
structure WF (l : List (Chan T)) : Prop where
  ne : ∀ c ∈ l, c.pkts ≠ []
  same : ∀ c ∈ l, ∀ p ∈ c.pkts, ∀ q ∈ c.pkts, p.info.ssrc = q.info.ssrc
  dist : l.Pairwise fun c d => ∀ p ∈ c.pkts, ∀ q ∈ d.pkts, p.info.ssrc ≠ q.info.ssrc

theorem wf_nil : WF ([] : List (Chan T)) := ⟨by simp, by simp, List.Pairwise.nil⟩

theorem insertRev_mem (q : Packet T) (r : List (Packet T)) : insertRev q r = none ∨
    ∃ r', insertRev q r = some r' ∧ (∀ p, p ∈ r' ↔ p = q ∨ p ∈ r) ∧ r'.length = r.length + 1 := by
  induction r with
  | nil => exact .inr ⟨[q], rfl, by simp, rfl⟩
  | cons pp rest ih =>
    unfold insertRev
    split
    · exact .inl rfl
    · split
      · exact .inr ⟨_, rfl, by simp, rfl⟩
      · rcases ih with e | ⟨r', e, k, hl⟩
        · exact .inl (by rw [e]; rfl)
        · refine .inr ⟨pp :: r', by rw [e]; rfl, fun p => ?_, by simp [hl]⟩
          rw [List.mem_cons, List.mem_cons, k]
          constructor
          · rintro (h | h | h) <;> simp [h]
          · rintro (h | h | h) <;> simp [h]

theorem insert_mem (q : Packet T) (r : List (Packet T)) : insert q r = none ∨
    ∃ r', insert q r = some r' ∧ (∀ p, p ∈ r' ↔ p = q ∨ p ∈ r) ∧ r'.length = r.length + 1 := by
  unfold insert
  rcases insertRev_mem q r.reverse with e | ⟨r', e, k, hl⟩
  · exact .inl (by rw [e]; rfl)
  · exact .inr ⟨r'.reverse, by rw [e]; rfl, fun p => by rw [List.mem_reverse, k, List.mem_reverse], by simp [hl]⟩

theorem lookup_spec (ssrc : Nat) : ∀ (l : List (Chan T)), WF l →
    (lookup ssrc l = .ok none ∧ ∀ c ∈ l, ∀ p ∈ c.pkts, p.info.ssrc ≠ ssrc) ∨
    (∃ a c b, lookup ssrc l = .ok (some a.length) ∧ l = a ++ c :: b ∧ ∀ p ∈ c.pkts, p.info.ssrc = ssrc)
  | [], _ => .inl ⟨rfl, by simp⟩
  | c :: rest, h => by
    unfold lookup
    cases hc : c.pkts with
    | nil => exact absurd hc (h.ne c (by simp))
    | cons p ps =>
      simp only
      have hsame : ∀ q ∈ c.pkts, q.info.ssrc = p.info.ssrc := fun q hq =>
        h.same c (by simp) q hq p (by simp [hc])
      split
      · rename_i he
        exact .inr ⟨[], c, rest, rfl, rfl, fun q hq => by rw [hsame q hq, he]⟩
      · rename_i he
        have hw : WF rest := ⟨fun d hd => h.ne d (by simp [hd]), fun d hd => h.same d (by simp [hd]), (List.pairwise_cons.1 h.dist).2⟩
        rcases lookup_spec ssrc rest hw with ⟨e, k⟩ | ⟨a, d, b, e, rfl, k⟩
        · refine .inl ⟨by rw [e]; rfl, fun d hd q hq => ?_⟩
          rcases List.mem_cons.1 hd with rfl | hd
          · rw [hsame q hq]; exact he
          · exact k d hd q hq
        · exact .inr ⟨c :: a, d, b, by rw [e]; rfl, rfl, k⟩

theorem chanRev_spec (k : Clock T) (new : Chan T) (t : T) : ∀ (l : List (Chan T)), (∀ c ∈ l, c.pkts ≠ []) →
    ∃ a b, chanRev k new t l = .ok (a ++ new :: b) ∧ l = a ++ b
  | [], _ => ⟨[], [], rfl, rfl⟩
  | c :: rest, h => by
    unfold chanRev
    cases hc : c.pkts with
    | nil => exact absurd hc (h c (by simp))
    | cons p ps =>
      simp only
      split
      · exact ⟨[], c :: rest, rfl, rfl⟩
      · obtain ⟨a, b, e, rfl⟩ := chanRev_spec k new t rest (fun d hd => h d (by simp [hd]))
        exact ⟨c :: a, b, by rw [e]; rfl, rfl⟩

theorem chanInsert_spec (k : Clock T) {l : List (Chan T)} {new : Chan T} (h : ∀ c ∈ l, c.pkts ≠ []) (hn : new.pkts ≠ []) :
    ∃ a b, chanInsert k l new = .ok (a ++ new :: b) ∧ l = a ++ b := by
  unfold chanInsert
  cases hc : new.pkts with
  | nil => exact absurd hc hn
  | cons p ps =>
    simp only
    obtain ⟨a, b, e, hl⟩ := chanRev_spec k new p.time l.reverse (fun c hc => h c (List.mem_reverse.1 hc))
    refine ⟨b.reverse, a.reverse, by rw [e]; simp [Except.map], ?_⟩
    rw [← List.reverse_append, ← hl, List.reverse_reverse]

theorem packets_mid (a b : List (Chan T)) (c : Chan T) (x : Nat) :
    packets (a ++ c :: b) x = packets a x ++ (c.pkts.filter (fun p => p.info.ssrc = x) ++ packets b x) := by
  simp [packets]

theorem packets_app (a b : List (Chan T)) (x : Nat) : packets (a ++ b) x = packets a x ++ packets b x := by simp [packets]

theorem packets_none {l : List (Chan T)} {x : Nat} (h : ∀ c ∈ l, ∀ p ∈ c.pkts, p.info.ssrc ≠ x) : packets l x = [] := by
  unfold packets
  rw [List.filter_eq_nil_iff]
  intro p hp
  obtain ⟨c, hc, hp⟩ := List.mem_flatMap.1 hp
  simpa using h c hc p hp

theorem filter_same {l : List (Packet T)} {x y : Nat} (h : ∀ p ∈ l, p.info.ssrc = x) :
    l.filter (fun p => p.info.ssrc = y) = if y = x then l else [] := by
  split
  · rename_i e
    rw [List.filter_eq_self]
    intro p hp
    simp [h p hp, e]
  · rename_i e
    rw [List.filter_eq_nil_iff]
    intro p hp
    have := h p hp
    simp only [decide_eq_true_eq]
    omega

def good : Sys := ⟨true, true, true, true⟩

/-- A packet put into its channel. -/
theorem place_spec (k : Clock T) (origin : Origin) {s : St T J} (p : Packet T) (h : WF s.chans) :
    ∃ s', place k good origin s p = .ok (some s') ∧ WF s'.chans ∧ s'.an = s.an ∧
      (∀ x, packets s'.chans x = if x = p.info.ssrc then (insert p (packets s.chans x)).getD (packets s.chans x) else packets s.chans x) ∧
      s'.pcount + total s.chans = s.pcount + total s'.chans := by
  unfold place
  rcases lookup_spec p.info.ssrc s.chans h with ⟨e, hno⟩ | ⟨a, c, b, e, hl, hc⟩
  · rw [e]
    simp only [good, Bool.not_true, Bool.false_eq_true, if_false]
    obtain ⟨a, b, e2, hl⟩ := chanInsert_spec k (l := s.chans) (new := ⟨[p], origin⟩) h.ne (by simp)
    rw [e2]
    refine ⟨_, rfl, ?_, rfl, fun x => ?_, ?_⟩
    · simp only
      rw [hl] at h hno
      constructor
      · intro d hd
        rcases List.mem_append.1 hd with hd | hd
        · exact h.ne d (by simp [hd])
        · rcases List.mem_cons.1 hd with rfl | hd
          · simp
          · exact h.ne d (by simp [hd])
      · intro d hd
        rcases List.mem_append.1 hd with hd | hd
        · exact h.same d (by simp [hd])
        · rcases List.mem_cons.1 hd with rfl | hd
          · intro u hu v hv
            simp only [List.mem_singleton] at hu hv
            rw [hu, hv]
          · exact h.same d (by simp [hd])
      · obtain ⟨d1, d2, d3⟩ := List.pairwise_append.1 h.dist
        refine List.pairwise_append.2 ⟨d1, List.pairwise_cons.2 ⟨fun d hd u hu v hv => ?_, d2⟩, fun d hd d' hd' => ?_⟩
        · simp only [List.mem_singleton] at hu
          rw [hu]
          exact fun he => hno d (by simp [hd]) v hv he.symm
        · rcases List.mem_cons.1 hd' with rfl | hd'
          · intro u hu v hv
            simp only [List.mem_singleton] at hv
            rw [hv]
            exact hno d (by simp [hd]) u hu
          · exact d3 d hd d' hd'
    · simp only
      rw [packets_mid]
      rw [hl] at hno ⊢
      have ha : ∀ d ∈ a, ∀ u ∈ d.pkts, u.info.ssrc ≠ p.info.ssrc := fun d hd => hno d (by simp [hd])
      have hb : ∀ d ∈ b, ∀ u ∈ d.pkts, u.info.ssrc ≠ p.info.ssrc := fun d hd => hno d (by simp [hd])
      rw [packets_app]
      by_cases hx : x = p.info.ssrc
      · subst hx
        rw [if_pos rfl, packets_none ha, packets_none hb]
        simp [insert, insertRev]
      · rw [if_neg hx]
        simp [Ne.symm hx]
    · simp only [hl, total]
      simp
      omega
  · rw [e]
    have hget : s.chans[a.length]? = some c := by rw [hl]; simp
    simp only [hget]
    rw [hl] at h
    obtain ⟨d1, d2, d3⟩ := List.pairwise_append.1 h.dist
    obtain ⟨d4, d5⟩ := List.pairwise_cons.1 d2
    have hcne := h.ne c (by simp)
    obtain ⟨u, hu⟩ := List.exists_mem_of_ne_nil _ hcne
    have ha : ∀ d ∈ a, ∀ v ∈ d.pkts, v.info.ssrc ≠ p.info.ssrc := fun d hd v hv => by
      rw [← hc u hu]; exact d3 d hd c (by simp) v hv u hu
    have hb : ∀ d ∈ b, ∀ v ∈ d.pkts, v.info.ssrc ≠ p.info.ssrc := fun d hd v hv => by
      rw [← hc u hu]; exact Ne.symm (d4 d hd u hu v hv)
    have hpk : packets s.chans p.info.ssrc = c.pkts := by
      rw [hl, packets_mid, packets_none ha, packets_none hb, filter_same hc]; simp
    rcases insert_mem p c.pkts with e2 | ⟨r, e2, hm, hlen⟩
    · rw [e2]
      refine ⟨_, rfl, by rw [hl]; exact h, rfl, fun x => ?_, rfl⟩
      split
      · rename_i hx; subst hx; rw [hpk, e2]; rfl
      · rfl
    · rw [e2]
      have hset : s.chans.set a.length { c with pkts := r } = a ++ { c with pkts := r } :: b := by
        rw [hl]; simp
      have hr : ∀ v ∈ r, v.info.ssrc = p.info.ssrc := fun v hv => by
        rcases (hm v).1 hv with rfl | hv
        · rfl
        · exact hc v hv
      refine ⟨_, rfl, ?_, rfl, fun x => ?_, ?_⟩
      · simp only [hset]
        constructor
        · intro d hd
          rcases List.mem_append.1 hd with hd | hd
          · exact h.ne d (by simp [hd])
          · rcases List.mem_cons.1 hd with rfl | hd
            · exact fun he => by simp only at he; rw [he] at hlen; simp at hlen
            · exact h.ne d (by simp [hd])
        · intro d hd
          rcases List.mem_append.1 hd with hd | hd
          · exact h.same d (by simp [hd])
          · rcases List.mem_cons.1 hd with rfl | hd
            · intro v hv w hw
              rw [hr v hv, hr w hw]
            · exact h.same d (by simp [hd])
        · refine List.pairwise_append.2 ⟨d1, List.pairwise_cons.2 ⟨fun d hd v hv w hw => ?_, d5⟩, fun d hd d' hd' => ?_⟩
          · rw [hr v hv]
            exact Ne.symm (hb d hd w hw)
          · rcases List.mem_cons.1 hd' with rfl | hd'
            · intro v hv w hw
              rw [hr w hw]
              exact ha d hd v hv
            · exact d3 d hd d' (by simp [hd'])
      · simp only [hset]
        rw [packets_mid]
        simp only [filter_same hr]
        by_cases hx : x = p.info.ssrc
        · subst hx
          rw [if_pos rfl, if_pos rfl, hpk, packets_none ha, packets_none hb, e2]
          simp
        · rw [if_neg hx, if_neg hx, hl, packets_mid, filter_same hc, if_neg hx]
      · simp only [hset]
        rw [hl]
        simp only [total, List.flatMap_append, List.flatMap_cons, List.length_append]
        omega

/-! ## Packets of a file -/

/-- A packet that can be parsed. -/
def parsed (x : T × List UInt8) : Option (Packet T) :=
  match parseRaw x.2 with
  | .ok (.ok i) => some ⟨x.1, i, x.2⟩
  | _ => none

/-- What the statistics are given. -/
def stats (k : Clock T) (xs : List (T × List UInt8)) : List (Option Analyze.Pkt) :=
  (xs.filterMap parsed).map fun p => some (forStats k good p.time p.data p.info)

/-- Packets with audio. -/
def audio (xs : List (T × List UInt8)) (ssrc : Nat) : List (Packet T) :=
  (xs.filterMap parsed).filter fun p => p.info.nsamples.getD 0 ≠ 0 ∧ p.info.ssrc = ssrc

/-- All packets of a file; `false` if it is given up. -/
def feeds (k : Clock T) (fl : Analyze.Fl J) (origin : Origin) : St T J → List (T × List UInt8) → Except Fault (St T J × Bool)
  | s, [] => .ok (s, true)
  | s, x :: xs =>
    match feed k fl good origin s x.1 x.2 with
    | .error f => .error f
    | .ok none => .ok (s, false)
    | .ok (some s) => feeds k fl origin s xs

theorem analyze_aecount {fl : Analyze.Fl J} {a a' : Analyze.An J} {p : Option Analyze.Pkt} (h : Analyze.analyze fl a p = .ok a') :
    a.aecount ≤ a'.aecount ∧ ∀ q, p = some q → ∃ a1 r, Analyze.update fl a q = .ok (a1, r) ∧
      (a'.aecount = a.aecount → r ≠ .err ∧ a1 = a') := by
  unfold Analyze.analyze at h
  cases p with
  | none => cases h; exact ⟨Nat.le_refl _, fun q hq => by cases hq⟩
  | some q =>
    simp only at h
    have hu : ∀ a1 r, Analyze.update fl a q = .ok (a1, r) → a1.aecount = a.aecount := by
      intro a1 r hu
      unfold Analyze.update at hu
      split at hu
      · cases hu
      · cases hu; rfl
      · cases hu; rfl
    split at h
    · cases h
    · rename_i a1 he
      cases h
      have := hu _ _ he
      refine ⟨by simp only; omega, fun q' hq' => ?_⟩
      cases hq'
      refine ⟨a1, _, he, fun hh => ?_⟩
      simp only at hh; omega
    · rename_i a1 r he hr
      cases h
      have := hu _ _ hr
      refine ⟨by omega, fun q' hq' => ?_⟩
      cases hq'
      refine ⟨_, _, hr, fun _ => ⟨?_, rfl⟩⟩
      intro e; subst e; exact he rfl

theorem run_aecount {fl : Analyze.Fl J} : ∀ (ps : List (Option Analyze.Pkt)) {a a' : Analyze.An J}, Analyze.run fl a ps = .ok a' → a.aecount ≤ a'.aecount
  | [], a, a', h => by cases h; exact Nat.le_refl _
  | p :: ps, a, a', h => by
    rw [Analyze.run] at h
    cases hp : Analyze.analyze fl a p with
    | error f => rw [hp] at h; cases h
    | ok a1 =>
      rw [hp] at h
      exact Nat.le_trans (analyze_aecount hp).1 (run_aecount ps h)

theorem feeds_ok (k : Clock T) (fl : Analyze.Fl J) (origin : Origin) : ∀ (xs : List (T × List UInt8)) (s : St T J) (a : Analyze.An J),
    WF s.chans → Analyze.run fl s.an (stats k xs) = .ok a → a.aecount = s.an.aecount →
    ∃ s', feeds k fl origin s xs = .ok (s', true) ∧ WF s'.chans ∧
      (∀ x, packets s'.chans x = fill (packets s.chans x) (audio xs x)) ∧
      s'.pcount + total s.chans = s.pcount + total s'.chans
  | [], s, a, h, _, _ => ⟨s, rfl, h, fun x => by simp [audio, fill], rfl⟩
  | (t, d) :: xs, s, a, h, hr, ha => by
    rw [feeds]
    unfold feed
    simp only [good, Bool.not_true, Bool.false_eq_true, if_false]
    rcases Rtp.parseRaw_spec d with ⟨-, e, hp, -⟩ | ⟨-, i, hp, -⟩
    · have hn : parsed (t, d) = none := by unfold parsed; simp only [hp]
      rw [hp]
      simp only
      have hs : stats k ((t, d) :: xs) = stats k xs := by simp [stats, hn]
      have hau : ∀ x, audio ((t, d) :: xs) x = audio xs x := fun x => by simp [audio, hn]
      rw [hs] at hr
      obtain ⟨s', k1, k2, k3, k4⟩ := feeds_ok k fl origin xs s a h hr ha
      exact ⟨s', k1, k2, fun x => by rw [hau, k3], k4⟩
    · have hn : parsed (t, d) = some ⟨t, i, d⟩ := by unfold parsed; simp only [hp]
      rw [hp]
      simp only
      have hs : stats k ((t, d) :: xs) = some (forStats k good t d i) :: stats k xs := by simp [stats, hn]
      rw [hs, Analyze.run] at hr
      cases hz : Analyze.analyze fl s.an (some (forStats k good t d i)) with
      | error f => rw [hz] at hr; cases hr
      | ok a1 =>
        rw [hz] at hr
        simp only at hr
        obtain ⟨m1, m2⟩ := analyze_aecount hz
        have m3 := run_aecount _ hr
        obtain ⟨a2, r, m4, m5⟩ := m2 _ rfl
        obtain ⟨m6, rfl⟩ := m5 (by omega)
        change ∃ s', (match (match Analyze.update fl s.an (forStats k good t d i) with
          | .error f => .error f
          | .ok (an, r) => keep k good origin { s with an := an } ⟨t, i, d⟩ r : Except Fault (Option (St T J))) with
          | .error f => Except.error f
          | .ok none => Except.ok (s, false)
          | .ok (some s) => feeds k fl origin s xs) = .ok (s', true) ∧ _
        rw [m4]
        have hmid : keep k good origin { s with an := a2 } ⟨t, i, d⟩ r = if i.nsamples.getD 0 = 0 then .ok (some { s with an := a2 })
              else place k good origin { s with an := a2 } ⟨t, i, d⟩ := by
          cases r <;> first | rfl | exact absurd rfl m6
        simp only
        rw [hmid]
        by_cases hz0 : i.nsamples.getD 0 = 0
        · rw [if_pos hz0]
          simp only
          obtain ⟨s', k1, k2, k3, k4⟩ := feeds_ok k fl origin xs { s with an := a2 } a h hr (by simp only; omega)
          refine ⟨s', k1, k2, fun x => ?_, k4⟩
          rw [k3]
          have : audio ((t, d) :: xs) x = audio xs x := by simp [audio, hn, hz0]
          rw [this]
        · rw [if_neg hz0]
          obtain ⟨s1, q1, q2, q3, q4, q5⟩ := place_spec k origin (s := { s with an := a2 }) ⟨t, i, d⟩ h
          rw [q1]
          simp only
          obtain ⟨s', k1, k2, k3, k4⟩ := feeds_ok k fl origin xs s1 a q2 (by rw [q3]; exact hr) (by rw [q3]; simp only; omega)
          refine ⟨s', k1, k2, fun x => ?_, by simp only at q5; omega⟩
          rw [k3, q4]
          by_cases hx : x = i.ssrc
          · have : audio ((t, d) :: xs) x = ⟨t, i, d⟩ :: audio xs x := by
              simp [audio, hn, hz0, hx]
            rw [this, if_pos hx]
            simp [fill]
          · have : audio ((t, d) :: xs) x = audio xs x := by
              simp [audio, hn, Ne.symm hx]
            rw [this, if_neg hx]

end Verif.Eaud
