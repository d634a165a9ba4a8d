import Verif.Cmd.Rcache
import Verif.Hash.Lemmas

/-!
# C20: a command that is sent again is answered again, not executed again

For every history of arrivals and clean-ups.  An answer that cannot be stored for lack of memory is not
retained (`memOk`).
-/

namespace Verif.Cmd

/-! ### Specification -/

/-- The times at which the cache was cleaned up during an event. -/
def cleanTimes : CEv × COut → List Int
  | (.cleanup t, _) => [t]
  | (.arrive _ _ _ mid _ _, .executed _) => mid
  | _ => []

/-- A command with this cookie was executed. -/
def ExecOf (k : Bytes) (x : CEv × COut) : Prop :=
  ∃ t r mid m g o, x = (.arrive t k r mid m g, .executed o)

/-- After the history `h`, the answer `r` to the last execution of a command with cookie `k`, which arrived at
time `t`, is to be available: no clean-up since was later than `t + ttl`. -/
def Retained (ttl : Int) (h : List (CEv × COut)) (k r : Bytes) (t : Int) : Prop :=
  ∃ pre mid g post, h = pre ++ (.arrive t k (some r) mid true g, .executed (some r)) :: post ∧
    (∀ x ∈ post, ¬ ExecOf k x) ∧ ∀ x ∈ post, ∀ u ∈ cleanTimes x, u ≤ t + ttl

/-! ### Lemmas: the table as a partial map -/

section
variable (hash : Bytes → Nat)

/-- The cache `c` maps cookies to entries as `f` does. -/
def Maps (c : Cache) (f : Bytes → Option CEnt) : Prop :=
  ∃ m, Hash.R (rcCfg hash) c m ∧ ∀ k, f k = (m.items.find? fun x => decide (x.key = k)).map (·.val)

variable {hash}

theorem Maps.lookup {c : Cache} {f} (h : Maps hash c f) (k : Bytes) : cacheLookup hash c k = f k := by
  obtain ⟨m, hr, hf⟩ := h
  unfold cacheLookup Hash.find
  rw [Hash.find_cmpkey hr.wf, hf, hr.spec_find, Option.map_map]
  rfl

theorem maps_new : Maps hash cacheNew fun _ => none := ⟨_, Hash.R.init _, fun k => by simp [Hash.Spec.empty]⟩

theorem Maps.insert {c : Cache} {f} (h : Maps hash c f) (ttl : Int) (k r : Bytes) (t : Int) (m g : Bool) :
    ∃ c', cacheInsert hash ttl c k r t m g = .ok c' ∧
      Maps hash c' fun j => if j = k ∧ m = true ∧ f k = none then some ⟨r, t + ttl⟩ else f j := by
  unfold cacheInsert
  cases m with
  | false => exact ⟨c, by simp, by simpa using h⟩
  | true =>
    obtain ⟨mm, hr, hf⟩ := h
    have := Hash.append_refines hr k (⟨r, t + ttl⟩ : CEnt) g
    simp only [Hash.Spec.step, rcCfg, Bool.true_and] at this
    by_cases hany : mm.items.any (fun x => decide (x.key = k)) = true
    · rw [if_pos hany] at this
      simp only [Bool.false_eq_true, if_false] at this
      obtain ⟨t', hd, first, e1, e2, e3⟩ := this
      refine ⟨t', by simp only [if_true, rcCfg]; rw [e1], mm, e3, fun j => ?_⟩
      change (if _ then _ else _) = _
      rw [if_neg, hf]
      rintro ⟨_, _, hn⟩
      rw [hf, Option.map_eq_none_iff, List.find?_eq_none] at hn
      obtain ⟨x, hx, hk⟩ := List.any_eq_true.mp hany
      exact hn x hx hk
    · rw [if_neg hany] at this
      obtain ⟨t', hd, first, e1, e2, e3⟩ := this
      refine ⟨t', by simp only [if_true, rcCfg]; rw [e1], _, e3, fun j => ?_⟩
      have hnone : mm.items.find? (fun x => decide (x.key = k)) = none := by
        rw [List.find?_eq_none]
        intro x hx hk
        exact hany (List.any_eq_true.mpr ⟨x, hx, hk⟩)
      have hfk : f k = none := by rw [hf, hnone]; rfl
      rw [List.find?_append]
      change (if _ then _ else _) = _
      by_cases hj : j = k
      · subst hj
        rw [if_pos ⟨rfl, rfl, hfk⟩, hnone]
        simp
      · rw [if_neg (by simp [hj]), hf]
        have : List.find? (fun x => decide (x.key = j)) [(⟨mm.next, k, ⟨r, t + ttl⟩⟩ : Hash.Spec.Item Bytes CEnt)] = none := by
          simp [Ne.symm hj]
        rw [this, Option.or_none]

theorem visit_ematch (t : Int) : ∀ (order : List (Hash.Spec.Item Bytes CEnt)) (m : Hash.Spec.MM Bytes CEnt),
    (Hash.Spec.visit (ematch t) m () order).1.items =
      m.items.filter fun x => !(order.any fun y => y.id == x.id && decide (y.val.etime < t)) := by
  intro order
  induction order with
  | nil => intro m; simp only [Hash.Spec.visit, List.any_nil, Bool.not_false]; rw [List.filter_eq_self.mpr (by simp)]
  | cons y order ih =>
    intro m
    rw [Hash.Spec.visit]
    simp only [ematch, Bool.false_eq_true, if_false]
    refine (ih _).trans ?_
    by_cases hy : y.val.etime < t
    · simp only [hy, decide_true, if_true, Hash.Spec.erase, List.filter_filter]
      apply List.filter_congr
      intro x _
      simp only [List.any_cons, hy, decide_true, Bool.and_true, Bool.not_or]
      rw [Bool.and_comm]
      congr 1
      simp only [bne]
      rw [Bool.beq_comm]
    · simp only [hy, decide_false, Bool.false_eq_true, if_false, List.any_cons, Bool.and_false, Bool.false_or]

theorem find_filter {l : List (Hash.Spec.Item Bytes CEnt)} (h : (l.map (·.key)).Nodup) (p : Hash.Spec.Item Bytes CEnt → Bool) (k : Bytes) :
    (l.filter p).find? (fun x => decide (x.key = k)) = (l.find? fun x => decide (x.key = k)).filter p := by
  induction l with
  | nil => rfl
  | cons x l ih =>
    rw [List.map_cons, List.nodup_cons] at h
    by_cases hk : x.key = k
    · rw [List.find?_cons_of_pos (by simpa using hk)]
      by_cases hp : p x = true
      · rw [List.filter_cons_of_pos hp, List.find?_cons_of_pos (by simpa using hk), Option.filter_some, if_pos hp]
      · rw [List.filter_cons_of_neg hp]
        simp only [Option.filter, hp, Bool.false_eq_true, if_false]
        rw [List.find?_eq_none]
        intro y hy hyk
        rw [decide_eq_true_eq] at hyk
        exact h.1 (List.mem_map.mpr ⟨y, (List.mem_filter.mp hy).1, by rw [hyk, hk]⟩)
    · rw [List.find?_cons_of_neg (by simpa using hk)]
      by_cases hp : p x = true
      · rw [List.filter_cons_of_pos hp, List.find?_cons_of_neg (by simpa using hk)]; exact ih h.2
      · rw [List.filter_cons_of_neg hp]; exact ih h.2

theorem Maps.cleanup {c : Cache} {f} (h : Maps hash c f) (t : Int) :
    ∃ c', cacheCleanup c t = .ok c' ∧ Maps hash c' fun k => (f k).filter fun e => decide (t ≤ e.etime) := by
  obtain ⟨m, hr, hf⟩ := h
  obtain ⟨c', last, order, hp, e1, e2⟩ := Hash.foreach_refines hr (ematch t) ()
  refine ⟨c', by unfold cacheCleanup; rw [e1], _, e2, fun k => ?_⟩
  rw [visit_ematch]
  have hcongr : m.items.filter (fun x => !(order.any fun y => y.id == x.id && decide (y.val.etime < t))) =
      m.items.filter (fun x => decide (t ≤ x.val.etime)) := by
    apply List.filter_congr
    intro x hx
    by_cases hx' : x.val.etime < t
    · have : order.any (fun y => y.id == x.id && decide (y.val.etime < t)) = true :=
        List.any_eq_true.mpr ⟨x, hp.mem_iff.mpr hx, by simp [hx']⟩
      rw [this]
      simp [hx']
    · have : order.any (fun y => y.id == x.id && decide (y.val.etime < t)) = false := by
        rw [List.any_eq_false]
        intro y hy hc
        rw [Bool.and_eq_true, beq_iff_eq, decide_eq_true_eq] at hc
        have hy' := hp.mem_iff.mp hy
        have := hr.id_inj hy' hx hc.1
        rw [this] at hc
        exact hx' hc.2
      rw [this]
      simp; omega
  rw [hcongr, find_filter (hr.keys rfl)]
  change (f k).filter _ = _
  rw [hf]
  cases m.items.find? (fun x => decide (x.key = k)) with
  | none => rfl
  | some x =>
    by_cases hx : t ≤ x.val.etime <;> simp [Option.filter, hx]

theorem Maps.cleanups {f} (ts : List Int) : ∀ {c : Cache}, Maps hash c f →
    ∃ c', cleanups c ts = .ok c' ∧ Maps hash c' fun k => (f k).filter fun e => ts.all fun t => decide (t ≤ e.etime) := by
  induction ts generalizing f with
  | nil =>
    intro c h
    refine ⟨c, rfl, ?_⟩
    have : (fun k => (f k).filter fun e => ([] : List Int).all fun t => decide (t ≤ e.etime)) = f := by
      funext k; cases f k <;> simp
    rw [this]; exact h
  | cons t ts ih =>
    intro c h
    obtain ⟨c1, e1, e2⟩ := h.cleanup t
    obtain ⟨c2, f1, f2⟩ := ih e2
    refine ⟨c2, by rw [Cmd.cleanups, e1]; exact f1, ?_⟩
    have : (fun k => (f k).filter fun e => (t :: ts).all fun t => decide (t ≤ e.etime)) =
        fun k => ((f k).filter fun e => decide (t ≤ e.etime)).filter fun e => ts.all fun t => decide (t ≤ e.etime) := by
      funext k
      cases f k with
      | none => rfl
      | some e => by_cases he : t ≤ e.etime <;> simp [Option.filter, he]
    rw [this]; exact f2

end

/-! ### Lemmas: histories -/

theorem retained_snoc_exec {ttl : Int} {h : List (CEv × COut)} {t : Int} {k : Bytes} {ro : Option Bytes} {mid m g o} (r : Bytes) (t' : Int) :
    Retained ttl (h ++ [(.arrive t k ro mid m g, .executed o)]) k r t' ↔ t = t' ∧ ro = some r ∧ m = true ∧ o = some r := by
  constructor
  · rintro ⟨pre, mid', g', post, e, h1, _⟩
    rcases List.eq_nil_or_concat post with rfl | ⟨post', x, rfl⟩
    · obtain ⟨_, e2⟩ := List.append_inj' e rfl
      simp only [List.cons.injEq, and_true, Prod.mk.injEq, CEv.arrive.injEq, COut.executed.injEq] at e2
      exact ⟨e2.1.1, e2.1.2.2.1, e2.1.2.2.2.2.1, e2.2⟩
    · exfalso
      rw [List.concat_eq_append, ← List.cons_append, ← List.append_assoc] at e
      obtain ⟨_, e2⟩ := List.append_inj' e rfl
      simp only [List.cons.injEq, and_true] at e2
      exact h1 x (by simp) ⟨t, ro, mid, m, g, o, e2.symm⟩
  · rintro ⟨rfl, rfl, rfl, rfl⟩
    exact ⟨h, mid, g, [], rfl, by simp, by simp⟩

theorem retained_snoc_other {ttl : Int} {h : List (CEv × COut)} {x : CEv × COut} {k : Bytes} (hx : ¬ ExecOf k x) (r : Bytes) (t : Int) :
    Retained ttl (h ++ [x]) k r t ↔ Retained ttl h k r t ∧ ∀ u ∈ cleanTimes x, u ≤ t + ttl := by
  constructor
  · rintro ⟨pre, mid', g', post, e, h1, h2⟩
    rcases List.eq_nil_or_concat post with rfl | ⟨post', y, rfl⟩
    · obtain ⟨_, e2⟩ := List.append_inj' e rfl
      simp only [List.cons.injEq, and_true] at e2
      exact absurd ⟨t, some r, mid', true, g', some r, e2⟩ hx
    · rw [List.concat_eq_append] at e h1 h2
      rw [← List.cons_append, ← List.append_assoc] at e
      obtain ⟨e1, e2⟩ := List.append_inj' e rfl
      simp only [List.cons.injEq, and_true] at e2
      subst e2
      exact ⟨⟨pre, mid', g', post', e1, fun y hy => h1 y (by simp [hy]), fun y hy => h2 y (by simp [hy])⟩,
        h2 x (by simp)⟩
  · rintro ⟨⟨pre, mid', g', post, rfl, h1, h2⟩, h3⟩
    refine ⟨pre, mid', g', post ++ [x], by simp, ?_, ?_⟩
    · intro y hy
      rcases List.mem_append.mp hy with hy | hy
      · exact h1 y hy
      · rw [List.mem_singleton] at hy; subst hy; exact hx
    · intro y hy
      rcases List.mem_append.mp hy with hy | hy
      · exact h2 y hy
      · rw [List.mem_singleton] at hy; subst hy; exact h3

/-- What is in the cache after a history. -/
def CInv (hash : Bytes → Nat) (ttl : Int) (h : List (CEv × COut)) (c : Cache) : Prop :=
  ∃ f, Maps hash c f ∧ ∀ k e, f k = some e ↔ Retained ttl h k e.reply (e.etime - ttl)

/-- What must come of an event after a history. -/
def Right (ttl : Int) (h : List (CEv × COut)) : CEv → COut → Prop
  | .cleanup _, o => o = .none
  | .arrive _ k reply _ _ _, o => (∃ r t, Retained ttl h k r t ∧ o = .resent r) ∨
      ((¬ ∃ r t, Retained ttl h k r t) ∧ o = .executed reply)

theorem cstep_ok {hash : Bytes → Nat} {ttl : Int} {h : List (CEv × COut)} {c : Cache} (hi : CInv hash ttl h c) (ev : CEv) :
    ∃ c' o, cstep hash ttl c ev = .ok (c', o) ∧ CInv hash ttl (h ++ [(ev, o)]) c' ∧ Right ttl h ev o := by
  obtain ⟨f, hm, hf⟩ := hi
  cases ev with
  | cleanup t =>
    obtain ⟨c', e1, e2⟩ := hm.cleanup t
    refine ⟨c', .none, by rw [cstep, e1], ⟨_, e2, ?_⟩, rfl⟩
    intro k e
    rw [retained_snoc_other (by rintro ⟨_, _, _, _, _, _, h⟩; cases h), ← hf]
    simp only [cleanTimes, List.mem_singleton, forall_eq, Option.filter_eq_some_iff, decide_eq_true_eq]
    constructor
    · rintro ⟨h1, h2⟩; exact ⟨h1, by omega⟩
    · rintro ⟨h1, h2⟩; exact ⟨h1, by omega⟩
  | arrive t k reply mid m g =>
    rw [cstep, hm.lookup]
    cases hk : f k with
    | some e =>
      refine ⟨c, .resent e.reply, rfl, ⟨f, hm, ?_⟩, .inl ⟨e.reply, _, (hf k e).mp hk, rfl⟩⟩
      intro j e'
      rw [retained_snoc_other (by rintro ⟨_, _, _, _, _, _, h⟩; cases h), ← hf]
      simp [cleanTimes]
    | none =>
      have hno : ¬ ∃ r t, Retained ttl h k r t := by
        rintro ⟨r, t', hr⟩
        have := (hf k ⟨r, t' + ttl⟩).mpr (by simpa using hr)
        rw [hk] at this; cases this
      obtain ⟨c1, e1, e2⟩ := hm.cleanups mid
      simp only
      rw [e1]
      -- entries of other cookies
      have other : ∀ j e o, j ≠ k → (((f j).filter fun e => mid.all fun t => decide (t ≤ e.etime)) = some e ↔
          Retained ttl (h ++ [(.arrive t k reply mid m g, .executed o)]) j e.reply (e.etime - ttl)) := by
        intro j e o hj
        rw [retained_snoc_other, ← hf]
        · simp only [cleanTimes, Option.filter_eq_some_iff, List.all_eq_true, decide_eq_true_eq]
          constructor
          · rintro ⟨h1, h2⟩; exact ⟨h1, fun u hu => by have := h2 u hu; omega⟩
          · rintro ⟨h1, h2⟩; exact ⟨h1, fun u hu => by have := h2 u hu; omega⟩
        · rintro ⟨_, _, _, _, _, _, hh⟩
          simp only [Prod.mk.injEq, CEv.arrive.injEq] at hh
          exact hj hh.1.2.1.symm
      cases reply with
      | none =>
        refine ⟨c1, .executed none, rfl, ⟨_, e2, ?_⟩, .inr ⟨hno, rfl⟩⟩
        intro j e
        by_cases hj : j = k
        · subst hj
          rw [retained_snoc_exec, hk]
          simp
        · exact other j e none hj
      | some r =>
        obtain ⟨c2, g1, g2⟩ := e2.insert ttl k r t m g
        simp only
        rw [g1]
        refine ⟨c2, .executed (some r), rfl, ⟨_, g2, ?_⟩, .inr ⟨hno, rfl⟩⟩
        intro j e
        by_cases hj : j = k
        · subst hj
          rw [retained_snoc_exec]
          simp only [hk, true_and]
          cases m with
          | false => simp
          | true =>
            simp only [Option.filter_none, and_self, if_true, Option.some.injEq, true_and]
            constructor
            · rintro rfl
              exact ⟨by simp, rfl⟩
            · rintro ⟨h1, h2⟩
              cases e with
              | mk er ee =>
                simp only at h1 h2
                rw [h1, h2]; simp
        · simp only [hj, false_and, if_false]
          exact other j e (some r) hj

theorem crun_ok {hash : Bytes → Nat} {ttl : Int} : ∀ (evs : List CEv) {h : List (CEv × COut)} {c : Cache}, CInv hash ttl h c →
    ∃ c' os, crun hash ttl c evs = .ok (c', os) ∧ os.map (·.1) = evs ∧
      ∀ pre ev o post, os = pre ++ (ev, o) :: post → Right ttl (h ++ pre) ev o := by
  intro evs
  induction evs with
  | nil =>
    intro h c _
    refine ⟨c, [], rfl, rfl, ?_⟩
    intro pre ev o post hh
    exact absurd hh (by simp)
  | cons ev evs ih =>
    intro h c hi
    obtain ⟨c1, o, e1, e2, e3⟩ := cstep_ok hi ev
    obtain ⟨c2, os, f1, f2, f3⟩ := ih e2
    refine ⟨c2, (ev, o) :: os, by rw [crun, e1]; simp only [f1], by simp [f2], ?_⟩
    intro pre ev' o' post hh
    cases pre with
    | nil =>
      simp only [List.nil_append, List.cons.injEq, Prod.mk.injEq] at hh
      rw [List.append_nil, ← hh.1.1, ← hh.1.2]; exact e3
    | cons x pre =>
      rw [List.cons_append, List.cons.injEq] at hh
      have := f3 pre ev' o' post hh.2
      rw [← hh.1]
      simpa using this

theorem cinv_new (hash : Bytes → Nat) (ttl : Int) : CInv hash ttl [] cacheNew := by
  refine ⟨_, maps_new, ?_⟩
  intro k e
  constructor
  · intro h; cases h
  · rintro ⟨pre, mid, g, post, h, _⟩; simp at h

/-! ### Properties -/

/-- A command is dropped, and answered with the reply given before, exactly if that reply is retained; otherwise
it is executed. -/
theorem C20_duplicates (hash : Bytes → Nat) (ttl : Int) (evs : List CEv) :
    ∃ c os, crun hash ttl cacheNew evs = .ok (c, os) ∧ os.map (·.1) = evs ∧
      ∀ pre t k reply mid m g o post, os = pre ++ (.arrive t k reply mid m g, o) :: post →
        (∃ r t', Retained ttl pre k r t' ∧ o = .resent r) ∨
        ((¬ ∃ r t', Retained ttl pre k r t') ∧ o = .executed reply) := by
  obtain ⟨c, os, h1, h2, h3⟩ := crun_ok (hash := hash) (ttl := ttl) evs (cinv_new hash ttl)
  refine ⟨c, os, h1, h2, ?_⟩
  intro pre t k reply mid m g o post he
  simpa [Right] using h3 pre _ o post he

/-- All times of an event. -/
def evTimes : CEv → List Int
  | .cleanup t => [t]
  | .arrive t _ _ mid _ _ => t :: mid

/-- Within the retention time: if a command arrived at time `t`, was executed, answered and its answer stored,
and another one with the same cookie arrives later, no clock having been past `t + ttl` in between, then that
one is not executed. -/
theorem C20_within_ttl (hash : Bytes → Nat) (ttl : Int) (evs : List CEv) (c : Cache) (os pre post post' : List (CEv × COut))
    (t t2 : Int) (k r : Bytes) (mid mid2 m2 g g2 reply2 o2)
    (hrun : crun hash ttl cacheNew evs = .ok (c, os))
    (hos : os = pre ++ (.arrive t k (some r) mid true g, .executed (some r)) :: (post ++
      (.arrive t2 k reply2 mid2 m2 g2, o2) :: post'))
    (ht : ∀ x ∈ post, ∀ u ∈ evTimes x.1, u ≤ t + ttl) : o2 = .resent r := by
  obtain ⟨c', os', h1, _, h3⟩ := C20_duplicates hash ttl evs
  rw [hrun] at h1
  simp only [Except.ok.injEq, Prod.mk.injEq] at h1
  obtain ⟨rfl, rfl⟩ := h1
  have clean_le : ∀ x ∈ post, ∀ u ∈ cleanTimes x, u ≤ t + ttl := by
    intro x hx u hu
    refine ht x hx u ?_
    obtain ⟨ev, o⟩ := x
    cases ev with
    | cleanup t => exact hu
    | arrive t k r mid m g =>
      cases o with
      | executed o => simp only [evTimes, List.mem_cons]; exact .inr hu
      | _ => simp [cleanTimes] at hu
  -- no execution in between: by induction on the part of the history already passed
  have noexec : ∀ n, ∀ a b, post = a ++ b → a.length = n → ∀ x ∈ a, ¬ ExecOf k x := by
    intro n
    induction n with
    | zero =>
      intro a b _ hl x hx
      rw [List.length_eq_zero_iff] at hl; rw [hl] at hx; simp at hx
    | succ n ih =>
      intro a b hab hl x hx
      rcases List.eq_nil_or_concat a with rfl | ⟨a', y, rfl⟩
      · simp at hl
      · rw [List.concat_eq_append] at *
        have hl' : a'.length = n := by simpa using hl
        have ia := ih a' (y :: b) (by rw [hab]; simp) hl'
        rcases List.mem_append.mp hx with hx | hx
        · exact ia x hx
        · rw [List.mem_singleton] at hx
          subst hx
          rintro ⟨t', r', mid', m', g', o', rfl⟩
          have hr : Retained ttl (pre ++ (.arrive t k (some r) mid true g, .executed (some r)) :: a') k r t :=
            ⟨pre, mid, g, a', rfl, ia, fun z hz => clean_le z (by rw [hab]; simp [hz])⟩
          rcases h3 (pre ++ (.arrive t k (some r) mid true g, .executed (some r)) :: a') t' k r' mid' m' g' (.executed o')
              (b ++ (.arrive t2 k reply2 mid2 m2 g2, o2) :: post') (by rw [hos, hab]; simp) with ⟨_, _, _, e⟩ | ⟨e, _⟩
          · cases e
          · exact e ⟨r, t, hr⟩
  have hpost := noexec _ post [] (by simp) rfl
  have hr : Retained ttl (pre ++ (.arrive t k (some r) mid true g, .executed (some r)) :: post) k r t :=
    ⟨pre, mid, g, post, rfl, hpost, clean_le⟩
  rcases h3 (pre ++ (.arrive t k (some r) mid true g, .executed (some r)) :: post) t2 k reply2 mid2 m2 g2 o2 post'
      (by rw [hos]; simp) with ⟨r', t', hr', e⟩ | ⟨e, _⟩
  · obtain ⟨pre1, mid1, g1, post1, e1, n1, _⟩ := hr'
    -- the last execution is unique
    have : r' = r := by
      have e1' : (pre ++ [(CEv.arrive t k (some r) mid true g, COut.executed (some r))]) ++ post =
          (pre1 ++ [(CEv.arrive t' k (some r') mid1 true g1, COut.executed (some r'))]) ++ post1 := by simpa using e1
      rcases List.append_eq_append_iff.mp e1' with ⟨a, b1, b2⟩ | ⟨a, b1, b2⟩
      · rcases List.eq_nil_or_concat a with rfl | ⟨a', y, rfl⟩
        · rw [List.append_nil] at b1
          obtain ⟨_, b3⟩ := List.append_inj' b1 rfl
          simp only [List.cons.injEq, Prod.mk.injEq, CEv.arrive.injEq, Option.some.injEq] at b3
          exact b3.1.1.2.2.1
        · exfalso
          rw [List.concat_eq_append, ← List.append_assoc] at b1
          obtain ⟨_, b3⟩ := List.append_inj' b1 rfl
          simp only [List.cons.injEq, and_true] at b3
          exact hpost y (by rw [b2]; simp) ⟨_, _, _, _, _, _, b3.symm⟩
      · rcases List.eq_nil_or_concat a with rfl | ⟨a', y, rfl⟩
        · rw [List.append_nil] at b1
          obtain ⟨_, b3⟩ := List.append_inj' b1 rfl
          simp only [List.cons.injEq, Prod.mk.injEq, CEv.arrive.injEq, Option.some.injEq] at b3
          exact b3.1.1.2.2.1.symm
        · exfalso
          rw [List.concat_eq_append, ← List.append_assoc] at b1
          obtain ⟨_, b3⟩ := List.append_inj' b1 rfl
          simp only [List.cons.injEq, and_true] at b3
          exact n1 y (by rw [b2]; simp) ⟨_, _, _, _, _, _, b3.symm⟩
    rw [e, this]
  · exact absurd ⟨r, t, hr⟩ e

/-- After a clean-up at time `u`, no reply whose retention time ended before `u` is retained. -/
theorem C20_dropped (ttl : Int) (h : List (CEv × COut)) (k r : Bytes) (t u : Int) (o : COut)
    (hr : Retained ttl (h ++ [(.cleanup u, o)]) k r t) : u ≤ t + ttl := by
  rw [retained_snoc_other (by rintro ⟨_, _, _, _, _, _, h⟩; cases h)] at hr
  exact hr.2 u (by simp [cleanTimes])

/-- Not vacuous: executed, resent, cleaned up in time, resent, cleaned up, executed. -/
example : (match crun (fun _ => 0) 35 cacheNew [.arrive 0 [1] (some [7]) [] true true, .arrive 3 [1] (some [8]) [] true true,
      .cleanup 35, .arrive 40 [1] (some [9]) [] true true, .cleanup 41, .arrive 41 [1] (some [9]) [] true true] with
    | .ok (_, os) => decide (os.map (·.2) = [.executed (some [7]), .resent [7], .none, .resent [7], .none, .executed (some [9])])
    | .error _ => false) = true := by decide +kernel

end Verif.Cmd
