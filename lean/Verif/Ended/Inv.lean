import Verif.Ended.Times

/-!
# C82: invariant
-/

namespace Verif.Ended

/-! ### Sums over the sessions -/

/-- The sum over all identifiers. -/
def total (s : St) (f : Option Sess → Int) : Int := (s.ids.map fun id => f (s.sess id)).sum

theorem sum_update (l : List Nat) (g g' : Nat → Int) (id : Nat) (hn : l.Nodup) (hi : id ∈ l) (h : ∀ j, j ≠ id → g' j = g j) :
    (l.map g').sum = (l.map g).sum - g id + g' id := by
  induction l with
  | nil => cases hi
  | cons x l ih =>
    obtain ⟨hx, hl⟩ := List.nodup_cons.1 hn
    simp only [List.map_cons, List.sum_cons]
    by_cases hxi : x = id
    · subst hxi
      have : l.map g' = l.map g := List.map_congr_left fun j hj => h j (fun e => hx (e ▸ hj))
      rw [this]
      omega
    · rw [h x hxi, ih hl (by simpa [Ne.symm hxi] using hi)]
      omega

theorem sum_congr (l : List Nat) (g g' : Nat → Int) (h : ∀ j ∈ l, g' j = g j) : (l.map g').sum = (l.map g).sum := by
  rw [List.map_congr_left h]

theorem total_put (s : St) (id : Nat) (x : Option Sess) (f : Option Sess → Int) (hn : s.ids.Nodup) (hi : id ∈ s.ids) :
    total (put s id x) f = total s f - f (s.sess id) + f x := by
  unfold total
  have := sum_update s.ids (fun j => f (s.sess j)) (fun j => f ((put s id x).sess j)) id hn hi (fun j hj => by simp [put, hj])
  simp only [put, if_true] at this ⊢
  exact this

/-- What `w` gives for the records handed over and for those of the destructors that have passed the action `p`. -/
def tally (p : Nat) (w : Rec → Int) : Option Sess → Int
  | none => 0
  | some x => if p < x.pc.getD 0 then w x.acct else 0

def Tally (s : St) (p : Nat) (w : Rec → Int) (v : Int) : Prop := v = (s.recs.map w).sum + total s (tally p w)

/-- No packets on either side, on one side only. -/
def silent (rtcp : Bool) (r : Rec) : Int :=
  if r.complete ∧ (r.cnt ⟨rtcp, false⟩).n = 0 ∧ (r.cnt ⟨rtcp, true⟩).n = 0 then 1 else 0
def oneWay (rtcp : Bool) (r : Rec) : Int :=
  if r.complete ∧ ((r.cnt ⟨rtcp, false⟩).n = 0) ≠ ((r.cnt ⟨rtcp, true⟩).n = 0) then 1 else 0

def whole (r : Rec) : Int := if r.complete then 1 else 0
def isWhole : Option Sess → Int
  | some x => if x.complete then 1 else 0
  | none => 0

/-- The number of the action that copies the counters. -/
def Strm.at (k : Strm) : Nat := (if k.rtcp then 3 else 1) + if k.side then 1 else 0

/-- The counters in a record are those of the stream at a moment after the end of the session had begun. -/
def Snap (h : List Act) (r : Rec) (k : Strm) : Prop :=
  ∃ h1 h2, h = h1 ++ h2 ∧ Began h1 r.seuid r.destroy ∧ r.cnt k = counted (arrivals h1 r.seuid k)

theorem Began.mono {h : List Act} {id : Nat} {t : Int} (b : Began h id t) (l : List Act) : Began (h ++ l) id t := by
  obtain ⟨x, y, e, n⟩ := b
  exact ⟨x, y ++ l, by rw [e]; simp, n⟩

theorem Snap.mono {h : List Act} {r : Rec} {k : Strm} (b : Snap h r k) (l : List Act) : Snap (h ++ l) r k := by
  obtain ⟨x, y, e, n⟩ := b
  exact ⟨x, y ++ l, by rw [e]; simp, n⟩

theorem arrivals_snoc (h : List Act) (a : Act) (id : Nat) (k : Strm) :
    arrivals (h ++ [a]) id k = arrivals h id k ++ arrivals [a] id k := by
  simp [arrivals, List.filterMap_append]

/-- A session that has not been destroyed. -/
structure SInv (h : List Act) (id : Nat) (x : Sess) : Prop where
  seuid : x.seuid = id
  acct : x.acct.seuid = id ∧ x.acct.init = x.init
  init : Act.create id x.init ∈ h
  complete : x.complete = true ↔ Act.complete id ∈ h
  cnt : ∀ k, x.cnt k = counted (arrivals h id k)
  stands : x.pc = none → ∀ t, Act.destroy id t ∉ h
  ends : ∀ p, x.pc = some p → 1 ≤ p ∧ p ≤ 9 ∧ Began h id x.acct.destroy ∧ x.acct.complete = x.complete ∧
    ∀ k, k.at < p → Snap h x.acct k

/-- A record handed over. -/
structure RInv (h : List Act) (r : Rec) : Prop where
  init : Act.create r.seuid r.init ∈ h
  complete : r.complete = true ↔ Act.complete r.seuid ∈ h
  snap : ∀ k, ∃ h1 h2, h = h1 ++ h2 ∧ (∃ t, Act.destroy r.seuid t ∈ h2) ∧ Began h1 r.seuid r.destroy ∧
    r.cnt k = counted (arrivals h1 r.seuid k)

structure Inv (h : List Act) (s : St) : Prop where
  nodup : s.ids.Nodup
  given : ∀ id, id ∉ s.ids → s.sess id = none ∧ (∀ k, arrivals h id k = []) ∧ Act.complete id ∉ h ∧ ∀ t, Act.destroy id t ∉ h
  sess : ∀ id x, s.sess id = some x → SInv h id x
  recs : ∀ r ∈ s.recs, RInv h r ∧ r.seuid ∈ s.ids ∧ s.sess r.seuid = none
  distinct : (s.recs.map Rec.seuid).Nodup
  created : s.created = s.ids.length
  standing : (s.ids.length : Int) = s.recs.length + total s fun o => if o.isSome then 1 else 0
  completed : (s.completed : Int) = (s.recs.map whole).sum + total s isWhole
  nortp : Tally s 5 (silent false) s.nortp
  owrtp : Tally s 5 (oneWay false) s.owrtp
  nortcp : Tally s 6 (silent true) s.nortcp
  owrtcp : Tally s 6 (oneWay true) s.owrtcp
  destroyed : Tally s 7 (fun _ => 1) s.destroyed
  duration : Tally s 8 (fun r => r.destroy - r.init) s.duration

theorem inv0 : Inv [] st0 := by
  refine ⟨List.nodup_nil, fun id _ => ⟨rfl, fun _ => rfl, by simp, by simp⟩, ?_, ?_, List.nodup_nil, rfl, rfl, rfl, ?_, ?_, ?_, ?_, ?_, ?_⟩
  · intro id x h; cases h
  · intro r hr; cases hr
  all_goals rfl

/-- Sums when a session is made, changed without effect on `f`. -/
theorem total_create (s : St) (id : Nat) (x : Sess) (f : Option Sess → Int) (hi : id ∉ s.ids) (s' : St)
    (h1 : s'.ids = id :: s.ids) (h2 : s'.sess = (put s id (some x)).sess) : total s' f = f (some x) + total s f := by
  unfold total
  rw [h1, h2]
  simp only [List.map_cons, List.sum_cons, put, if_true]
  rw [sum_congr s.ids (fun j => f (s.sess j)) _ (fun j hj => by
    have : j ≠ id := fun e => hi (e ▸ hj)
    simp [this])]

theorem SInv.other {h : List Act} {id : Nat} {x : Sess} (hs : SInv h id x) (a : Act) (ha : ∀ k, arrivals [a] id k = [])
    (hc : a ≠ .complete id) (hd : ∀ t, a ≠ .destroy id t) : SInv (h ++ [a]) id x := by
  refine ⟨hs.seuid, hs.acct, by simp [hs.init], ?_, ?_, ?_, ?_⟩
  · rw [hs.complete]
    simp only [List.mem_append, List.mem_singleton]
    exact ⟨.inl, fun h => h.elim (fun y => y) (fun e => absurd e.symm hc)⟩
  · intro k
    rw [arrivals_snoc, ha k, List.append_nil]
    exact hs.cnt k
  · intro hp t ht
    rcases List.mem_append.1 ht with h | h
    · exact hs.stands hp t h
    · simp at h; exact hd t h.symm
  · intro p hp
    obtain ⟨h1, h2, h3, h4, h5⟩ := hs.ends p hp
    exact ⟨h1, h2, h3.mono _, h4, fun k hk => (h5 k hk).mono _⟩

theorem RInv.mono {h : List Act} {r : Rec} (hr : RInv h r) (a : Act) (hc : a ≠ .complete r.seuid) : RInv (h ++ [a]) r := by
  refine ⟨by simp [hr.init], ?_, ?_⟩
  · rw [hr.complete]
    simp only [List.mem_append, List.mem_singleton]
    exact ⟨.inl, fun h => h.elim (fun y => y) (fun e => absurd e.symm hc)⟩
  · intro k
    obtain ⟨h1, h2, e, ⟨t, ht⟩, b, c⟩ := hr.snap k
    exact ⟨h1, h2 ++ [a], by rw [e]; simp, ⟨t, by simp [ht]⟩, b, c⟩

/-- A session changed in place: what has to be shown. -/
theorem Inv.change {h : List Act} {s : St} (hi : Inv h s) (a : Act) (id : Nat) (x x' : Sess) (hx : s.sess id = some x)
    (ha : ∀ j k, j ≠ id → arrivals [a] j k = []) (hc : ∀ j, j ≠ id → a ≠ .complete j) (hd : ∀ j t, j ≠ id → a ≠ .destroy j t)
    (hcr : ∀ j t, a ≠ .create j t) (hs : SInv (h ++ [a]) id x') (hpc : x'.pc.getD 0 = x.pc.getD 0) (hacc : x'.acct = x.acct)
    (n m : Nat) (hn : (n : Int) - s.completed = (if x'.complete then 1 else 0) - (if x.complete then 1 else 0)) :
    Inv (h ++ [a]) { put s id (some x') with completed := n, timeout := m } := by
  have hid : id ∈ s.ids := by
    by_contra hni
    rw [(hi.given id hni).1] at hx; cases hx
  have key : ∀ f : Option Sess → Int, f (some x') = f (some x) →
      total { put s id (some x') with completed := n, timeout := m } f = total s f := by
    intro f hf
    have := total_put s id (some x') f hi.nodup hid
    rw [hx, hf] at this
    have e : total { put s id (some x') with completed := n, timeout := m } f = total (put s id (some x')) f := rfl
    rw [e, this]; omega
  have ht : ∀ p w, tally p w (some x') = tally p w (some x) := by
    intro p w; simp only [tally, hpc, hacc]
  have tt : ∀ {p w v}, Tally s p w v → Tally { put s id (some x') with completed := n, timeout := m } p w v := by
    intro p w v hv
    unfold Tally at *
    rw [key _ (ht p w)]
    exact hv
  refine ⟨hi.nodup, ?_, ?_, ?_, hi.distinct, hi.created, ?_, ?_, tt hi.nortp, tt hi.owrtp, tt hi.nortcp, tt hi.owrtcp, tt hi.destroyed,
    tt hi.duration⟩
  · intro j hj
    have hne : j ≠ id := fun e => hj (e ▸ hid)
    obtain ⟨g1, g2, g3, g4⟩ := hi.given j hj
    refine ⟨by simp [put, hne, g1], fun k => by rw [arrivals_snoc, g2, ha j k hne]; rfl, ?_, ?_⟩
    · simp only [List.mem_append, List.mem_singleton, not_or]
      exact ⟨g3, fun e => hc j hne e.symm⟩
    · intro t
      simp only [List.mem_append, List.mem_singleton, not_or]
      exact ⟨g4 t, fun e => hd j t hne e.symm⟩
  · intro j y hy
    by_cases hne : j = id
    · subst hne
      simp [put] at hy
      subst hy
      exact hs
    · simp [put, hne] at hy
      exact (hi.sess j y hy).other a (fun k => ha j k hne) (hc j hne) (fun t => hd j t hne)
  · intro r hr
    obtain ⟨h1, h2, h3⟩ := hi.recs r hr
    have hne : r.seuid ≠ id := fun e => by rw [e, hx] at h3; cases h3
    exact ⟨h1.mono a (hc _ hne), h2, by simp [put, hne, h3]⟩
  · rw [key _ rfl]
    exact hi.standing
  · have := total_put s id (some x') isWhole hi.nodup hid
    have e : total { put s id (some x') with completed := n, timeout := m } isWhole = total (put s id (some x')) isWhole := rfl
    rw [e, this, hx]
    have hcm := hi.completed
    show (n : Int) = (s.recs.map whole).sum + _
    simp only [isWhole]
    omega

/-- The copies of the counters; the record stays as it is after them. -/
theorem noted_late (x : Sess) (now : Int) (pc : Nat) (h : 5 ≤ pc) : noted x now pc = x.acct := by
  match pc, h with
  | n + 5, _ => rfl

theorem sum_snoc (l : List Rec) (w : Rec → Int) (r : Rec) : ((l ++ [r]).map w).sum = (l.map w).sum + w r := by
  simp [List.sum_append]

theorem upd_fields (s : St) (b : Bool) (r : Rec) : (upd s b r).ids = s.ids ∧ (upd s b r).sess = s.sess ∧ (upd s b r).recs = s.recs ∧
    (upd s b r).created = s.created ∧ (upd s b r).completed = s.completed ∧ (upd s b r).destroyed = s.destroyed ∧
    (upd s b r).duration = s.duration := by
  unfold upd; split <;> (try split) <;> (try split) <;> simp

theorem told_fields (s : St) (x : Sess) (pc : Nat) : (told s x pc).ids = s.ids ∧ (told s x pc).sess = s.sess ∧
    (told s x pc).recs = (if pc = 9 then s.recs ++ [x.acct] else s.recs) ∧ (told s x pc).created = s.created ∧
    (told s x pc).completed = s.completed ∧
    (told s x pc).destroyed = s.destroyed + (if pc = 7 then 1 else 0) ∧
    (told s x pc).duration = s.duration + (if pc = 8 then x.acct.destroy - x.acct.init else 0) := by
  unfold told
  split
  · split
    · have := upd_fields s false x.acct; simp [this]
    · simp
  · split
    · have := upd_fields s true x.acct; simp [this]
    · simp
  · simp
  · simp
  · simp
  · next h1 h2 h3 h4 h5 =>
    refine ⟨rfl, rfl, ?_, rfl, rfl, ?_, ?_⟩
    · rw [if_neg h5]
    · rw [if_neg h3]; rfl
    · rw [if_neg h4]; simp

theorem upd_rtp (s : St) (r : Rec) (hc : r.complete = true) : ((upd s false r).nortp : Int) = s.nortp + silent false r ∧
    ((upd s false r).owrtp : Int) = s.owrtp + oneWay false r ∧ (upd s false r).nortcp = s.nortcp ∧ (upd s false r).owrtcp = s.owrtcp := by
  unfold upd silent oneWay
  by_cases h1 : (r.cnt ⟨false, false⟩).n = 0 <;> by_cases h2 : (r.cnt ⟨false, true⟩).n = 0 <;> simp [h1, h2, hc]

theorem upd_rtcp (s : St) (r : Rec) (hc : r.complete = true) : ((upd s true r).nortcp : Int) = s.nortcp + silent true r ∧
    ((upd s true r).owrtcp : Int) = s.owrtcp + oneWay true r ∧ (upd s true r).nortp = s.nortp ∧ (upd s true r).owrtp = s.owrtp := by
  unfold upd silent oneWay
  by_cases h1 : (r.cnt ⟨true, false⟩).n = 0 <;> by_cases h2 : (r.cnt ⟨true, true⟩).n = 0 <;> simp [h1, h2, hc]

theorem told_media (s : St) (x : Sess) (pc : Nat) (hc : x.acct.complete = x.complete ∨ pc < 5) :
    ((told s x pc).nortp : Int) = s.nortp + (if pc = 5 then silent false x.acct else 0) ∧
    ((told s x pc).owrtp : Int) = s.owrtp + (if pc = 5 then oneWay false x.acct else 0) ∧
    ((told s x pc).nortcp : Int) = s.nortcp + (if pc = 6 then silent true x.acct else 0) ∧
    ((told s x pc).owrtcp : Int) = s.owrtcp + (if pc = 6 then oneWay true x.acct else 0) := by
  by_cases h5 : pc = 5
  · subst h5
    have hc' : x.acct.complete = x.complete := hc.resolve_right (by omega)
    cases hx : x.complete
    · rw [hx] at hc'
      simp [told, hx, silent, oneWay, hc']
    · rw [hx] at hc'
      have := upd_rtp s x.acct hc'
      simp [told, hx, this]
  · by_cases h6 : pc = 6
    · subst h6
      have hc' : x.acct.complete = x.complete := hc.resolve_right (by omega)
      cases hx : x.complete
      · rw [hx] at hc'
        simp [told, hx, silent, oneWay, hc']
      · rw [hx] at hc'
        have := upd_rtcp s x.acct hc'
        simp [told, hx, this]
    · rw [if_neg h5, if_neg h5, if_neg h6, if_neg h6]
      unfold told
      split
      · exact absurd rfl h5
      · exact absurd rfl h6
      all_goals simp

/-- What an action of a destructor adds to a sum over records. -/
theorem tally_step (s : St) (id : Nat) (x : Sess) (now : Int) (p : Nat) (w : Rec → Int) (v d : Int) (hx : s.sess id = some x)
    (hn : s.ids.Nodup) (hid : id ∈ s.ids) (hp : 5 ≤ p ∧ p ≤ 8) (hpc : x.pc.getD 0 ≤ 9) (hv : Tally s p w v)
    (hd : d = if x.pc.getD 0 = p then w x.acct else 0) : Tally (destroyNext s id x now) p w (v + d) := by
  unfold Tally at *
  obtain ⟨f1, f2, f3, _⟩ := told_fields s x (x.pc.getD 0)
  have hr : (destroyNext s id x now).recs = (told s x (x.pc.getD 0)).recs := rfl
  have ht : ∀ y, total (put (told s x (x.pc.getD 0)) id y) (tally p w) = total s (tally p w) - tally p w (some x) + tally p w y := by
    intro y
    rw [total_put _ id y _ (by rw [f1]; exact hn) (by rw [f1]; exact hid), f2, hx]
    unfold total
    rw [f1, f2]
  have hdn : total (destroyNext s id x now) (tally p w) = _ := ht _
  rw [hr, f3, hdn]
  generalize hpp : x.pc.getD 0 = pc at *
  by_cases h9 : pc = 9
  · rw [if_pos h9, if_pos h9, sum_snoc]
    have : tally p w (some x) = w x.acct := by simp only [tally, hpp]; rw [if_pos (by omega)]
    rw [this]
    rw [if_neg (by omega)] at hd
    simp only [tally]
    omega
  · rw [if_neg h9, if_neg h9]
    simp only [tally, hpp, Option.getD_some]
    by_cases hlt : p < pc
    · rw [if_pos hlt, if_pos (by omega), noted_late x now pc (by omega)]
      rw [if_neg (by omega)] at hd
      omega
    · rw [if_neg hlt]
      by_cases he : pc = p
      · rw [if_pos (by omega), noted_late x now pc (by omega)]
        rw [if_pos he] at hd
        omega
      · rw [if_neg (by omega)]
        rw [if_neg he] at hd
        omega

end Verif.Ended
