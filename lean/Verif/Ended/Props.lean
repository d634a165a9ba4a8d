import Verif.Ended.Step
import Mathlib.Data.List.Perm.Subperm

/-!
# C82: what is told of a session
-/

namespace Verif.Ended

/-! ### Receiving -/

theorem scan_addr (t : Int) (l : List Cmsg) (a : List UInt8) (h : .pktinfo a ∈ l) (hu : ∀ b, .pktinfo b ∈ l → b = a) :
    (scan t l).1 = some a := by
  induction l generalizing t with
  | nil => cases h
  | cons x l ih =>
    have hu' : ∀ b, .pktinfo b ∈ l → b = a := fun b hb => hu b (by simp [hb])
    cases x with
    | pktinfo b => rw [hu b (by simp)]; rfl
    | stamp u => exact ih u (by simpa using h) hu'
    | other => exact ih t (by simpa using h) hu'

theorem scan_none (t : Int) (l : List Cmsg) (h : ∀ a, .pktinfo a ∉ l) : (scan t l).1 = none := by
  induction l generalizing t with
  | nil => rfl
  | cons x l ih =>
    cases x with
    | pktinfo b => exact absurd (by simp) (h b)
    | stamp u => exact ih u (fun a ha => h a (by simp [ha]))
    | other => exact ih t (fun a ha => h a (by simp [ha]))

theorem scan_nostamp (t : Int) (l : List Cmsg) (h : ∀ u, .stamp u ∉ l) : (scan t l).2 = t := by
  induction l generalizing t with
  | nil => rfl
  | cons x l ih =>
    cases x with
    | pktinfo b => rfl
    | stamp u => exact absurd (by simp) (h u)
    | other => exact ih t (fun a ha => h a (by simp [ha]))

theorem scan_stamp (t u : Int) (l1 l2 : List Cmsg) (h1 : ∀ a, .pktinfo a ∉ l1) (h2 : ∀ v, .stamp v ∉ l2) :
    (scan t (l1 ++ .stamp u :: l2)).2 = u := by
  induction l1 generalizing t with
  | nil => exact scan_nostamp u l2 h2
  | cons x l ih =>
    cases x with
    | pktinfo b => exact absurd (by simp) (h1 b)
    | stamp v => exact ih v (fun a ha => h1 a (by simp [ha]))
    | other => exact ih t (fun a ha => h1 a (by simp [ha]))

/-- A packet is taken to have come to the address that the system tells, or, if it tells none, to the address of the stream, and to the port of the
stream; at the time that the system tells, or, if it tells none, at the time the thread has looked.  Missing: a time that is told after the address
(`C82_stamp_counterexample`). -/
theorem C82_received_partial (port : Nat) (now : Ts) (l : List Cmsg) :
    (∀ a, .pktinfo a ∈ l → (∀ b, .pktinfo b ∈ l → b = a) → (recv port now l).laddr = some a) ∧
    ((∀ a, .pktinfo a ∉ l) → (recv port now l).laddr = none) ∧ (recv port now l).lport = port ∧ (recv port now l).time.mono = now.mono ∧
    (∀ l1 u l2, l = l1 ++ .stamp u :: l2 → u ≠ 0 → (∀ a, .pktinfo a ∉ l1) → (∀ v, .stamp v ∉ l2) → (recv port now l).time.wall = u) ∧
    ((∀ u, .stamp u ∉ l) → (recv port now l).time.wall = now.wall) := by
  refine ⟨fun a h hu => scan_addr 0 l a h hu, fun h => scan_none 0 l h, rfl, rfl, ?_, ?_⟩
  · intro l1 u l2 e hu h1 h2
    simp only [recv]
    rw [e, scan_stamp 0 u l1 l2 h1 h2, if_pos hu]
  · intro h
    simp only [recv]
    rw [scan_nostamp 0 l h]
    simp

/-- The time that is told after the address is not taken. -/
theorem C82_stamp_counterexample : (recv 5000 ⟨7, 900⟩ [.pktinfo [10, 0, 0, 1], .stamp 850]).time.wall = 900 ∧
    (recv 5000 ⟨7, 900⟩ [.stamp 850, .pktinfo [10, 0, 0, 1]]).time.wall = 850 := by decide

/-- Times that go back: 9 is told as the longest pause, though something came after 4 and 5. -/
theorem C82_gap_counterexample : ([⟨1, 1⟩, ⟨10, 10⟩, ⟨5, 5⟩].foldl reg cnt0).gap = 9 ∧
    ∀ x ∈ [(1 : Int), 10, 5], ∀ y ∈ [(1 : Int), 10, 5], x < y → (∀ z ∈ [(1 : Int), 10, 5], ¬ (x < z ∧ z < y)) → y - x ≤ 5 := by
  decide

/-! ### Records -/

/-- All times are after the start of the clock. -/
def Clock (h : List Act) : Prop := ∀ id k t, Act.packet id k t ∈ h → 0 < t.mono

theorem arrivals_mem {h : List Act} {id : Nat} {k : Strm} {t : Ts} (ht : t ∈ arrivals h id k) : Act.packet id k t ∈ h := by
  obtain ⟨a, ha, e⟩ := List.mem_filterMap.1 ht
  cases a with
  | packet i j u =>
    simp only at e
    split at e
    · next hh => cases e; obtain ⟨rfl, rfl⟩ := hh; exact ha
    · cases e
  | _ => cases e

/-- Each session that has ended has one record, and none else has.  It tells when the session was made and when its end began, and for each stream it is
a true account of the packets up to some moment: all that had come before the end began are in it. -/
theorem C82_record {h : List Act} {s : St} (hr : Run h s) (hc : Clock h) :
    (s.recs.map Rec.seuid).Nodup ∧
    (∀ id ∈ s.ids, s.sess id = none ↔ id ∈ s.recs.map Rec.seuid) ∧
    ∀ r ∈ s.recs, Act.create r.seuid r.init ∈ h ∧ (r.complete = true ↔ Act.complete r.seuid ∈ h) ∧ Began h r.seuid r.destroy ∧
      ∀ k, ∃ h1 h2, h = h1 ++ h2 ∧ Began h1 r.seuid r.destroy ∧ (∃ t, Act.destroy r.seuid t ∈ h2) ∧
        Describes (r.cnt k) (arrivals h1 r.seuid k) := by
  have hi := run_inv hr
  refine ⟨hi.distinct, ?_, ?_⟩
  · intro id hid
    constructor
    · intro hn
      -- as many identifiers as records and sessions: none is left over
      by_contra hno
      have hst := hi.standing
      have hsub : (s.recs.map Rec.seuid) ⊆ s.ids.filter (fun j => (s.sess j).isNone && !decide (j = id)) := by
        intro j hj
        obtain ⟨r, hr', rfl⟩ := List.mem_map.1 hj
        obtain ⟨_, h2, h3⟩ := hi.recs r hr'
        refine List.mem_filter.2 ⟨h2, ?_⟩
        rw [h3]
        simp
        intro e
        exact hno (e ▸ hj)
      have hle : (s.recs.map Rec.seuid).length ≤ (s.ids.filter (fun j => (s.sess j).isNone && !decide (j = id))).length :=
        (List.subperm_of_subset hi.distinct hsub).length_le
      have hcount : ∀ l : List Nat, l.Nodup → ((l.filter (fun j => (s.sess j).isNone && !decide (j = id))).length : Int) +
          (l.map fun j => if (s.sess j).isSome then (1 : Int) else 0).sum + (if id ∈ l then 1 else 0) ≤ l.length := by
        intro l
        induction l with
        | nil => intro _; simp
        | cons j l ih =>
          intro hnd
          obtain ⟨hj, hl⟩ := List.nodup_cons.1 hnd
          have := ih hl
          simp only [List.filter_cons, List.map_cons, List.sum_cons, List.mem_cons, List.length_cons]
          by_cases hji : j = id
          · subst hji
            rw [if_neg hj] at this
            simp [hn]
            omega
          · have hne : ¬ id = j := fun e => hji e.symm
            cases hsj : s.sess j <;> simp [hji, hne] at this ⊢ <;> omega
      have := hcount s.ids hi.nodup
      rw [if_pos hid] at this
      unfold total at hst
      simp only at hst
      rw [List.length_map] at hle
      omega
    · intro hm
      obtain ⟨r, hr', rfl⟩ := List.mem_map.1 hm
      exact (hi.recs r hr').2.2
  · intro r hr'
    obtain ⟨h1, _, _⟩ := hi.recs r hr'
    refine ⟨h1.init, h1.complete, ?_, ?_⟩
    · obtain ⟨a, b, e, _, c, _⟩ := h1.snap ⟨false, false⟩
      rw [e]
      exact c.mono b
    · intro k
      obtain ⟨a, b, e, d, c, f⟩ := h1.snap k
      refine ⟨a, b, e, c, d, ?_⟩
      rw [f]
      exact C82_times_partial _ (fun t ht => hc _ _ t (by rw [e]; exact List.mem_append_left _ (arrivals_mem ht)))

/-! ### Statistics -/

theorem sum_filter {α : Type} (l : List α) (p : α → Prop) [DecidablePred p] :
    (l.map fun r => if p r then (1 : Int) else 0).sum = (l.filter (fun r => decide (p r))).length := by
  induction l with
  | nil => rfl
  | cons r l ih =>
    simp only [List.map_cons, List.sum_cons, ih, List.filter_cons]
    by_cases h : p r <;> simp [h] <;> omega

theorem total_zero (s : St) (f : Option Sess → Int) (h : ∀ id ∈ s.ids, f (s.sess id) = 0) : total s f = 0 := by
  unfold total
  rw [List.map_congr_left (g := fun _ => (0 : Int)) h]
  induction s.ids with
  | nil => rfl
  | cons x l ih => simp only [List.map_cons, List.sum_cons, ih]; rfl

/-- Packets have come from neither side, from one side only. -/
def Neither (rtcp : Bool) (r : Rec) : Prop := (r.cnt ⟨rtcp, false⟩).n = 0 ∧ (r.cnt ⟨rtcp, true⟩).n = 0
def OneSide (rtcp : Bool) (r : Rec) : Prop :=
  ((r.cnt ⟨rtcp, false⟩).n = 0 ∧ (r.cnt ⟨rtcp, true⟩).n ≠ 0) ∨ ((r.cnt ⟨rtcp, false⟩).n ≠ 0 ∧ (r.cnt ⟨rtcp, true⟩).n = 0)

instance (b : Bool) (r : Rec) : Decidable (Neither b r) := inferInstanceAs (Decidable (_ ∧ _))
instance (b : Bool) (r : Rec) : Decidable (OneSide b r) := inferInstanceAs (Decidable (_ ∨ _))

theorem silent_eq (b : Bool) : silent b = fun r => if r.complete = true ∧ Neither b r then 1 else 0 := by
  funext r; rfl

theorem oneWay_eq (b : Bool) : oneWay b = fun r => if r.complete = true ∧ OneSide b r then 1 else 0 := by
  funext r
  unfold oneWay OneSide
  by_cases h1 : (r.cnt ⟨b, false⟩).n = 0 <;> by_cases h2 : (r.cnt ⟨b, true⟩).n = 0 <;> simp [h1, h2]

/-- While no session is just being taken down, the statistics are exactly what the records say: how many sessions have ended, how many of the
completed ones had no packets, or packets from one side only, for media and for control, and how long all sessions took together; those made are the
ended and the standing ones, and so for those completed. -/
theorem C82_statistics {h : List Act} {s : St} (hr : Run h s) (hq : ∀ id x, s.sess id = some x → x.pc = none) :
    s.destroyed = s.recs.length ∧
    s.nortp = (s.recs.filter fun r => r.complete = true ∧ Neither false r).length ∧
    s.owrtp = (s.recs.filter fun r => r.complete = true ∧ OneSide false r).length ∧
    s.nortcp = (s.recs.filter fun r => r.complete = true ∧ Neither true r).length ∧
    s.owrtcp = (s.recs.filter fun r => r.complete = true ∧ OneSide true r).length ∧
    s.duration = (s.recs.map fun r => r.destroy - r.init).sum ∧
    s.created = s.recs.length + (s.ids.filter fun id => (s.sess id).isSome).length ∧
    s.completed = (s.recs.filter fun r => r.complete).length + (s.ids.filter fun id => ((s.sess id).map (·.complete)).getD false).length := by
  have hi := run_inv hr
  have hz : ∀ p w, total s (tally p w) = 0 := by
    intro p w
    refine total_zero s _ (fun id _ => ?_)
    cases hx : s.sess id with
    | none => rfl
    | some x => simp [tally, hq id x hx]
  have a1 := hi.destroyed
  have a2 := hi.nortp
  have a3 := hi.owrtp
  have a4 := hi.nortcp
  have a5 := hi.owrtcp
  have a6 := hi.duration
  unfold Tally at a1 a2 a3 a4 a5 a6
  rw [hz] at a1 a2 a3 a4 a5 a6
  rw [silent_eq, sum_filter] at a2 a4
  rw [oneWay_eq, sum_filter] at a3 a5
  have a1' : ((s.recs.map fun _ => (1 : Int)).sum) = s.recs.length := by
    induction s.recs with
    | nil => rfl
    | cons r l ih => simp only [List.map_cons, List.sum_cons, ih, List.length_cons]; omega
  rw [a1'] at a1
  have a7 := hi.standing
  have a8 := hi.completed
  have e7 : (total s fun o => if o.isSome then 1 else 0) = ((s.ids.filter fun id => (s.sess id).isSome).length : Int) := by
    have := sum_filter s.ids (fun id => (s.sess id).isSome = true)
    simp only [Bool.decide_eq_true] at this
    exact this
  have e8 : total s isWhole = ((s.ids.filter fun id => ((s.sess id).map (·.complete)).getD false).length : Int) := by
    have := sum_filter s.ids (fun id => ((s.sess id).map (·.complete)).getD false = true)
    simp only [Bool.decide_eq_true] at this
    rw [← this]
    unfold total
    congr 1
    refine List.map_congr_left fun id _ => ?_
    cases s.sess id <;> simp [isWhole]
  have e9 : (s.recs.map whole).sum = ((s.recs.filter fun r => r.complete).length : Int) := by
    have := sum_filter s.recs (fun r => r.complete = true)
    simp only [Bool.decide_eq_true] at this
    exact this
  rw [e7] at a7
  rw [e8, e9] at a8
  have hcr := hi.created
  refine ⟨by omega, by omega, by omega, by omega, by omega, by omega, by omega, by omega⟩

theorem total_le (s : St) (f g : Option Sess → Int) (h : ∀ id, f (s.sess id) ≤ g (s.sess id)) : total s f ≤ total s g := by
  unfold total
  induction s.ids with
  | nil => exact Int.le_refl _
  | cons x l ih =>
    simp only [List.map_cons, List.sum_cons]
    have := h x
    omega

theorem sum_le (l : List Rec) (f g : Rec → Int) (h : ∀ r, f r ≤ g r) : (l.map f).sum ≤ (l.map g).sum := by
  induction l with
  | nil => exact Int.le_refl _
  | cons x l ih =>
    simp only [List.map_cons, List.sum_cons]
    have := h x
    omega

theorem total_add (s : St) (f g : Option Sess → Int) : total s f + total s g = total s fun o => f o + g o := by
  unfold total
  induction s.ids with
  | nil => rfl
  | cons x l ih =>
    simp only [List.map_cons, List.sum_cons] at ih ⊢
    omega

theorem sum_add (l : List Rec) (f g : Rec → Int) : (l.map f).sum + (l.map g).sum = (l.map fun r => f r + g r).sum := by
  induction l with
  | nil => rfl
  | cons x l ih =>
    simp only [List.map_cons, List.sum_cons]
    omega

theorem both_le (b : Bool) (r : Rec) : silent b r + oneWay b r ≤ whole r := by
  rw [silent_eq, oneWay_eq]
  unfold whole Neither OneSide
  cases hc : r.complete <;> by_cases h1 : (r.cnt ⟨b, false⟩).n = 0 <;> by_cases h2 : (r.cnt ⟨b, true⟩).n = 0 <;> simp [h1, h2, hc]

/-- At any moment, also between the actions of any number of destructors: no session is counted both as without packets and as one-way, and none that was
not completed; no more have ended or been completed than have been made. -/
theorem C82_bounds {h : List Act} {s : St} (hr : Run h s) :
    s.nortp + s.owrtp ≤ s.completed ∧ s.nortcp + s.owrtcp ≤ s.completed ∧ s.completed ≤ s.created ∧ s.destroyed ≤ s.created := by
  have hi := run_inv hr
  have media : ∀ (b : Bool) (p : Nat) (u v : Int), 5 ≤ p → Tally s p (silent b) u → Tally s p (oneWay b) v → u + v ≤ s.completed := by
    intro b p u v hp hu hv
    unfold Tally at hu hv
    have h1 := sum_add s.recs (silent b) (oneWay b)
    have h2 := total_add s (tally p (silent b)) (tally p (oneWay b))
    have h3 := sum_le s.recs (fun r => silent b r + oneWay b r) whole (both_le b)
    have h4 := total_le s (fun o => tally p (silent b) o + tally p (oneWay b) o) isWhole (by
      intro id
      cases hx : s.sess id with
      | none => simp [tally, isWhole]
      | some x =>
        simp only [tally, isWhole]
        by_cases hlt : p < x.pc.getD 0
        · rw [if_pos hlt, if_pos hlt]
          cases hpc : x.pc with
          | none => rw [hpc] at hlt; simp at hlt
          | some q =>
            have := both_le b x.acct
            unfold whole at this
            rw [((hi.sess id x hx).ends q hpc).2.2.2.1] at this
            exact this
        · rw [if_neg hlt, if_neg hlt]
          split <;> simp)
    have := hi.completed
    omega
  have m1 := media false 5 _ _ (by omega) hi.nortp hi.owrtp
  have m2 := media true 6 _ _ (by omega) hi.nortcp hi.owrtcp
  have h5 := total_le s isWhole (fun o => if o.isSome then 1 else 0) (by
    intro id
    cases hx : s.sess id with
    | none => simp [isWhole]
    | some x => simp only [isWhole]; split <;> simp)
  have h6 := sum_le s.recs whole (fun _ => 1) (by intro r; unfold whole; split <;> simp)
  have hl : ((s.recs.map fun _ => (1 : Int)).sum) = s.recs.length := by
    induction s.recs with
    | nil => rfl
    | cons r l ih => simp only [List.map_cons, List.sum_cons, ih, List.length_cons]; omega
  have h7 := total_le s (tally 7 fun _ => 1) (fun o => if o.isSome then 1 else 0) (by
    intro id
    cases hx : s.sess id with
    | none => simp [tally]
    | some x => simp only [tally]; split <;> simp)
  have a1 := hi.destroyed
  unfold Tally at a1
  have a2 := hi.standing
  have a3 := hi.completed
  have a4 := hi.created
  refine ⟨by omega, by omega, by omega, by omega⟩

end Verif.Ended
