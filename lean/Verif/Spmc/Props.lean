import Verif.Spmc.Spec

/-!
# C56: the lock-free ring is a bounded FIFO
-/

namespace Verif.Spmc

/-- What is known in each of the producer's states. -/
def PInv (s : St) : Prod → Prop
  | .idle => True
  | .refresh _ => True
  | .writing done keys avail acc => s.wIdx + avail ≤ s.rCache + s.cap ∧ acc.length ≤ avail ∧
      (∀ (k v : Nat), acc[k]? = some v → s.slots ((s.wIdx + k) % s.cap) = v) ∧ acc = done.filterMap id ∧
      ((done ++ keys).length ≤ avail ∨ lastRoom s.log = some avail)

/-- What is known in each of a consumer's states. -/
def CInv (s : St) : Cons → Prop
  | .idle => True
  | .loadR _ => True
  | .loadC _ r => r ≤ s.rIdx
  | .loadW _ r => r ≤ s.rIdx
  | .storeC _ r w => r ≤ s.rIdx ∧ r ≤ w ∧ w ≤ s.wIdx
  | .copy n r e acc => r ≤ s.rIdx ∧ r ≤ e ∧ e ≤ s.wIdx ∧ e ≤ r + n ∧ (e = r → n = 0) ∧ acc.length ≤ e - r ∧
      (s.rIdx = r → acc <+: content s.log)

structure Inv (s : St) : Prop where
  pos : 0 < s.cap
  le : s.rIdx ≤ s.wIdx
  full : s.wIdx ≤ s.rCache + s.cap
  rc : s.rCache ≤ s.rIdx
  wc : s.wCache ≤ s.wIdx
  len : (content s.log).length = s.wIdx - s.rIdx
  slots : ∀ (k v : Nat), (content s.log)[k]? = some v → s.slots ((s.rIdx + k) % s.cap) = v
  prod : PInv s s.prod
  cons : ∀ c ∈ s.cons, CInv s c
  good : Good s.cap s.log

theorem Inv.init {cap : Nat} (h : 0 < cap) (threads : Nat) (g : Nat → Nat) : Inv (init cap threads g) := by
  refine ⟨h, Nat.le_refl _, Nat.zero_le _, Nat.le_refl _, Nat.le_refl _, rfl, ?_, trivial, ?_, trivial⟩
  · intro k v hk; simp [Spmc.init, content] at hk
  · intro c hc
    simp only [Spmc.init] at hc
    rw [List.eq_of_mem_replicate hc]; trivial

theorem mod_ne {a b c : Nat} (h1 : a < b) (h2 : b < a + c) : a % c ≠ b % c := by
  intro h
  have h3 : (b - a) % c = 0 := by
    have : b = a + (b - a) := by omega
    rw [this] at h
    have h4 := Nat.sub_mod_eq_zero_of_mod_eq (m := a + (b - a)) (n := a) (k := c) h.symm
    simpa using h4
  rw [Nat.mod_eq_of_lt (by omega)] at h3
  omega

theorem CInv.mono {s s' : St} {c : Cons} (h : CInv s c) (hw : s.wIdx ≤ s'.wIdx) (hr : s'.rIdx = s.rIdx)
    (hc : content s.log <+: content s'.log) : CInv s' c := by
  cases c with
  | idle => trivial
  | loadR n => trivial
  | loadC n r => simpa only [CInv, hr] using h
  | loadW n r => simpa only [CInv, hr] using h
  | storeC n r w =>
    obtain ⟨h1, h2, h3⟩ := h
    exact ⟨by rw [hr]; exact h1, h2, by omega⟩
  | copy n r e acc =>
    obtain ⟨h1, h2, h3, h4, h5, h6, h7⟩ := h
    exact ⟨by rw [hr]; exact h1, h2, by omega, h4, h5, h6, fun h => (h7 (hr ▸ h)).trans hc⟩

theorem CInv.same {s s' : St} {c : Cons} (h : CInv s c) (hw : s'.wIdx = s.wIdx) (hr : s'.rIdx = s.rIdx)
    (hc : s'.log = s.log) : CInv s' c := h.mono (Nat.le_of_eq hw.symm) hr (by rw [hc]; exact List.prefix_refl _)

theorem PInv.mono {s s' : St} {p : Prod} (h : PInv s p) (h1 : s'.wIdx = s.wIdx) (h2 : s'.rCache = s.rCache)
    (h3 : s'.cap = s.cap) (h4 : s'.slots = s.slots) (h5 : lastRoom s'.log = lastRoom s.log) : PInv s' p := by
  cases p with
  | idle => trivial
  | refresh k => trivial
  | writing d k a c => simpa only [PInv, h1, h2, h3, h4, h5] using h

theorem inv_pushStart {s : St} (h : Inv s) (keys : List (Option Nat)) : Inv (pushStart s keys) := by
  have h1 := h.le
  have h2 := h.full
  have h3 := h.rc
  unfold pushStart
  simp only []
  split
  · exact ⟨h.pos, h.le, h.full, h.rc, h.wc, h.len, h.slots, trivial, fun c hc => (h.cons c hc).same rfl rfl rfl, h.good⟩
  · refine ⟨h.pos, h.le, h.full, h.rc, h.wc, h.len, h.slots, ?_, fun c hc => (h.cons c hc).same rfl rfl rfl, h.good⟩
    refine ⟨?_, by simp, by simp, rfl, .inl (by simp only [List.nil_append]; omega)⟩
    simp only []
    omega

theorem inv_publish {s : St} (h : Inv s) {done keys : List (Option Nat)} {avail : Nat} {acc : List Nat}
    (hp : s.prod = .writing done keys avail acc) (hk : keys = [] ∨ acc.length = avail) :
    Inv (publish s done keys acc) := by
  have h1 := h.le
  have h2 := h.full
  have h3 := h.rc
  have h4 := h.wc
  have h5 := h.len
  have hP := h.prod
  rw [hp] at hP
  obtain ⟨p1, p2, p3, p4, p5⟩ := hP
  refine ⟨h.pos, ?_, ?_, h.rc, ?_, ?_, ?_, trivial, ?_, ⟨?_, ?_, ?_, ?_⟩, h.good⟩
  · show s.rIdx ≤ s.wIdx + acc.length; omega
  · show s.wIdx + acc.length ≤ s.rCache + s.cap; omega
  · show s.wCache ≤ s.wIdx + acc.length; omega
  · show (content s.log ++ acc).length = s.wIdx + acc.length - s.rIdx
    rw [List.length_append, h5]; omega
  · intro k v hk
    change (content s.log ++ acc)[k]? = some v at hk
    show s.slots ((s.rIdx + k) % s.cap) = v
    rw [List.getElem?_append] at hk
    split at hk
    · exact h.slots k v hk
    · rename_i hlt
      have := p3 _ _ hk
      rw [h5] at this hlt
      have e : s.wIdx + (k - (s.wIdx - s.rIdx)) = s.rIdx + k := by omega
      rw [e] at this
      exact this
  · intro c hc
    refine (h.cons c hc).mono ?_ rfl ?_
    · show s.wIdx ≤ s.wIdx + acc.length; omega
    · show content s.log <+: content s.log ++ acc; exact List.prefix_append _ _
  · show (content s.log).length + acc.length ≤ s.cap
    omega
  · rw [List.take_left]; exact p4
  · rw [List.length_append]; omega
  · intro hlt
    rcases hk with rfl | hk
    · simp at hlt
    · rcases p5 with p5 | p5
      · have : acc.length ≤ done.length := by rw [p4]; exact List.length_filterMap_le _ _
        omega
      · rw [hk]; exact p5

theorem inv_prod {s : St} (h : Inv s) : (∃ s', prodStep s = .ok s' ∧ Inv s' ∧ s'.cap = s.cap) ∨ prodStep s = .error .disabled := by
  have h1 := h.le
  have h2 := h.full
  have h3 := h.rc
  have h5 := h.len
  have hpos := h.pos
  unfold prodStep
  match hp : s.prod with
  | .idle => exact .inr rfl
  | .refresh keys =>
    refine .inl ⟨_, rfl, ?_, rfl⟩
    refine ⟨h.pos, h.le, ?_, Nat.le_refl _, h.wc, h.len, h.slots, ?_, ?_, ?_, h.good⟩
    · show s.wIdx ≤ s.rIdx + s.cap; omega
    · refine ⟨?_, by simp, by simp, rfl, .inr rfl⟩
      show s.wIdx + (s.cap - (s.wIdx - s.rIdx)) ≤ s.rIdx + s.cap
      omega
    · intro c hc
      exact (h.cons c hc).mono (Nat.le_refl _) rfl (List.prefix_refl _)
    · show (content s.log).length + (s.cap - (s.wIdx - s.rIdx)) = s.cap
      omega
  | .writing done [] avail acc => exact .inl ⟨_, rfl, inv_publish h hp (.inl rfl), rfl⟩
  | .writing done (k :: keys) avail acc =>
    have hP := h.prod
    rw [hp] at hP
    obtain ⟨p1, p2, p3, p4, p5⟩ := hP
    simp only []
    by_cases ha : acc.length = avail
    · rw [if_pos ha]
      exact .inl ⟨_, rfl, inv_publish h hp (.inr ha), rfl⟩
    · rw [if_neg ha]
      cases k with
      | none =>
        refine .inl ⟨_, rfl, ?_, rfl⟩
        exact ⟨h.pos, h.le, h.full, h.rc, h.wc, h.len, h.slots,
          ⟨p1, p2, p3, by simpa using p4, by simpa using p5⟩, fun c hc => (h.cons c hc).same rfl rfl rfl, h.good⟩
      | some v =>
        refine .inl ⟨_, rfl, ?_, rfl⟩
        have hm : (s.wIdx % s.cap + acc.length) % s.cap = (s.wIdx + acc.length) % s.cap := by rw [Nat.mod_add_mod]
        refine ⟨h.pos, h.le, h.full, h.rc, h.wc, h.len, ?_, ⟨p1, ?_, ?_, by simpa using p4, by simpa using p5⟩, fun c hc => (h.cons c hc).same rfl rfl rfl, h.good⟩
        · intro i x hi
          show setS s.slots _ v _ = x
          have hi' : i < (content s.log).length := (List.getElem?_eq_some_iff.1 hi).1
          rw [h5] at hi'
          unfold setS
          rw [if_neg]
          · exact h.slots i x hi
          · rw [hm]
            have q1 : s.rIdx + i < s.wIdx + acc.length := by omega
            have q2 : s.wIdx + acc.length < s.rIdx + i + s.cap := by omega
            exact mod_ne q1 q2
        · rw [List.length_append, List.length_singleton]; omega
        · intro i x hi
          show setS s.slots _ v _ = x
          rw [hm]
          rw [List.getElem?_append] at hi
          unfold setS
          split at hi
          · rename_i hlt
            rw [if_neg]
            · exact p3 i x hi
            · exact mod_ne (show s.wIdx + i < s.wIdx + acc.length by omega) (show s.wIdx + acc.length < s.wIdx + i + s.cap by omega)
          · have hi0 : i - acc.length = 0 := by
              have := (List.getElem?_eq_some_iff.1 hi).1
              simpa using this
            rw [hi0] at hi
            have e : i = acc.length := by omega
            subst e
            simp only [List.getElem?_cons_zero, Option.some.injEq] at hi
            rw [if_pos rfl]; exact hi

/-- Replacing one consumer's state. -/
theorem Inv.setC {s : St} (h : Inv s) (tid : Nat) {c : Cons} (hc : CInv s c) : Inv (setC s tid c) := by
  refine ⟨h.pos, h.le, h.full, h.rc, h.wc, h.len, h.slots, h.prod, ?_, h.good⟩
  intro c' hc'
  rcases List.mem_or_eq_of_mem_set hc' with hm | rfl
  · exact (h.cons c' hm).same rfl rfl rfl
  · exact hc.same rfl rfl rfl

theorem newR_le {n r w : Nat} (h : r ≤ w) : r ≤ newR n r w ∧ newR n r w ≤ w ∧ newR n r w ≤ r + n ∧
    (r < w → newR n r w = r → n = 0) := by
  unfold newR
  split <;> omega

theorem prefix_snoc {a b : List Nat} {v : Nat} (h : a <+: b) (hv : b[a.length]? = some v) : a ++ [v] <+: b := by
  obtain ⟨c, rfl⟩ := h
  rw [List.getElem?_append_right (Nat.le_refl _), Nat.sub_self] at hv
  cases c with
  | nil => simp at hv
  | cons x c =>
    simp at hv
    subst hv
    exact ⟨c, by simp⟩

theorem inv_cons {s : St} (h : Inv s) {tid : Nat} {c : Cons} (hc : s.cons[tid]? = some c) :
    (∃ s', consStep s tid c = .ok s' ∧ Inv s' ∧ s'.cap = s.cap) ∨ consStep s tid c = .error .disabled := by
  have h1 := h.le
  have h2 := h.full
  have h3 := h.rc
  have h4 := h.wc
  have h5 := h.len
  have hC := h.cons c (List.mem_of_getElem? hc)
  cases c with
  | idle => exact .inr rfl
  | loadR n => exact .inl ⟨_, rfl, h.setC tid (Nat.le_refl _), rfl⟩
  | loadC n r =>
    refine .inl ⟨_, rfl, h.setC tid ?_, rfl⟩
    split
    · exact hC
    · rename_i hlt
      have hC' : r ≤ s.rIdx := hC
      obtain ⟨a, b, c, d⟩ := newR_le (n := n) (r := r) (w := s.wCache) (by omega)
      exact ⟨hC, a, by omega, c, d (by omega), by simp, fun _ => List.nil_prefix⟩
  | loadW n r =>
    have hC' : r ≤ s.rIdx := hC
    have base : Inv (setC s tid (.storeC n r s.wIdx)) := h.setC tid ⟨hC', by omega, Nat.le_refl _⟩
    refine .inl ⟨_, rfl, ?_, rfl⟩
    by_cases e : r = s.wIdx
    · simp only [if_pos e]
      refine ⟨base.pos, base.le, base.full, base.rc, base.wc, base.len, base.slots, base.prod.mono rfl rfl rfl rfl rfl, ?_, ?_, base.good⟩
      · intro c' hc'; exact (base.cons c' hc').mono (Nat.le_refl _) rfl (List.prefix_refl _)
      · show content s.log = []
        exact List.length_eq_zero_iff.1 (by omega)
    · simp only [if_neg e]; exact base
  | storeC n r w =>
    obtain ⟨c1, c2, c3⟩ := hC
    have base : Inv { s with wCache := w } :=
      ⟨h.pos, h.le, h.full, h.rc, c3, h.len, h.slots, h.prod, fun c hc => (h.cons c hc).same rfl rfl rfl, h.good⟩
    simp only [consStep]
    by_cases e : r = w
    · rw [if_pos e]
      exact .inl ⟨_, rfl, base.setC tid trivial, rfl⟩
    · rw [if_neg e, if_pos (by omega)]
      obtain ⟨a, b, c, d⟩ := newR_le (n := n) (r := r) (w := w) c2
      exact .inl ⟨_, rfl, base.setC tid ⟨c1, a, Nat.le_trans b c3, c, d (by omega), by simp, fun _ => List.nil_prefix⟩, rfl⟩
  | copy n r e acc =>
    obtain ⟨c1, c2, c3, c4, c5, c6, c7⟩ := hC
    simp only [consStep]
    by_cases hl : acc.length < e - r
    · rw [if_pos hl]
      refine .inl ⟨_, rfl, h.setC tid ⟨c1, c2, c3, c4, c5, ?_, ?_⟩, rfl⟩
      · rw [List.length_append, List.length_singleton]; omega
      · intro hr
        have hlt : acc.length < (content s.log).length := by omega
        have hv : (content s.log)[acc.length]? = some (content s.log)[acc.length] := List.getElem?_eq_getElem hlt
        have := h.slots _ _ hv
        rw [hr] at this
        rw [this]
        exact prefix_snoc (c7 hr) hv
    · rw [if_neg hl]
      have hlen : acc.length = e - r := by omega
      by_cases hr : s.rIdx = r
      · rw [if_pos hr]
        refine .inl ⟨_, rfl, ?_, rfl⟩
        have hpre := c7 hr
        have hlog : content (.pop tid n acc :: s.log) = (content s.log).drop acc.length := rfl
        refine ⟨h.pos, ?_, h.full, ?_, h.wc, ?_, ?_, h.prod.mono rfl rfl rfl rfl rfl, ?_, ?_, h.good⟩
        · show e ≤ s.wIdx; exact c3
        · show s.rCache ≤ e; omega
        · show (content (.pop tid n acc :: s.log)).length = s.wIdx - e
          rw [hlog, List.length_drop]; omega
        · intro k v hk
          change (content (.pop tid n acc :: s.log))[k]? = some v at hk
          show s.slots ((e + k) % s.cap) = v
          rw [hlog, List.getElem?_drop] at hk
          have := h.slots _ _ hk
          rw [← this]
          exact congrArg s.slots (congrArg (· % s.cap) (by omega))
        · intro c' hc'
          have hbig : CInv { setC s tid .idle with rIdx := e, log := .pop tid n acc :: s.log } c' ∨ c' = .idle := by
            rcases List.mem_or_eq_of_mem_set hc' with hm | rfl
            · left
              have hC' := h.cons c' hm
              cases c' with
              | idle => trivial
              | loadR n => trivial
              | loadC n' r' => exact Nat.le_trans hC' (show s.rIdx ≤ e by omega)
              | loadW n' r' => exact Nat.le_trans hC' (show s.rIdx ≤ e by omega)
              | storeC n' r' w' =>
                obtain ⟨d1, d2, d3⟩ := hC'
                exact ⟨Nat.le_trans d1 (show s.rIdx ≤ e by omega), d2, d3⟩
              | copy n' r' e' acc' =>
                obtain ⟨d1, d2, d3, d4, d5, d6, d7⟩ := hC'
                refine ⟨Nat.le_trans d1 (show s.rIdx ≤ e by omega), d2, d3, d4, d5, d6, ?_⟩
                intro he
                change e = r' at he
                -- only a pop of nothing leaves the index
                have hacc : acc.length = 0 := by omega
                have : content (.pop tid n acc :: s.log) = content s.log := by rw [hlog, hacc]; rfl
                rw [this]
                exact d7 (by omega)
            · exact .inr rfl
          rcases hbig with hb | rfl
          · exact hb
          · trivial
        · refine ⟨hpre, by omega, ?_⟩
          intro hnil
          rw [hnil] at hlen
          simp at hlen
          exact c5 (by omega)
      · rw [if_neg hr]
        exact .inl ⟨_, rfl, h.setC tid trivial, rfl⟩

theorem inv_step {s : St} (h : Inv s) (e : Ev) : (∃ s', step s e = .ok s' ∧ Inv s' ∧ s'.cap = s.cap) ∨ step s e = .error .disabled := by
  cases e with
  | push keys =>
    simp only [step]
    split
    · refine .inl ⟨_, rfl, inv_pushStart h keys, ?_⟩
      unfold pushStart; simp only []; split <;> rfl
    · exact .inr rfl
  | prod => exact inv_prod h
  | pop tid n =>
    simp only [step]
    cases hc : s.cons[tid]? with
    | none => exact .inr rfl
    | some c =>
      cases c <;> first | exact .inr rfl | exact .inl ⟨_, rfl, h.setC tid trivial, rfl⟩
  | cons tid =>
    simp only [step]
    cases hc : s.cons[tid]? with
    | none => exact .inr rfl
    | some c => exact inv_cons h hc
  | spurious tid =>
    simp only [step]
    cases hc : s.cons[tid]? with
    | none => exact .inr rfl
    | some c =>
      cases c <;> first | exact .inr rfl | skip
      simp only [casFail]
      split
      · exact .inr rfl
      · exact .inl ⟨_, rfl, h.setC tid trivial, rfl⟩

theorem inv_run : ∀ (es : List Ev) {s s' : St}, Inv s → run s es = .ok s' → Inv s' ∧ s'.cap = s.cap
  | [], s, s', h, e => by cases e; exact ⟨h, rfl⟩
  | ev :: es, s, s', h, e => by
    simp only [run] at e
    rcases inv_step h ev with ⟨s1, e1, h1, hc⟩ | e1
    · rw [e1] at e
      obtain ⟨a, b⟩ := inv_run es h1 e
      exact ⟨a, b.trans hc⟩
    · rw [e1] at e; cases e

/-- **C56.**  However the producer and the consumers interleave, what they observe is what a bounded FIFO would
show them at the moments of publication, of the successful compare-and-swap and of the load of the other side's
index. -/
theorem C56_linearizable (cap threads : Nat) (g : Nat → Nat) (hcap : 0 < cap) (es : List Ev) (s : St)
    (h : run (init cap threads g) es = .ok s) : Good cap s.log := by
  obtain ⟨hi, hc⟩ := inv_run es (Inv.init hcap threads g) h
  have := hi.good
  rw [hc] at this
  exact this

theorem no_fault : ∀ (es : List Ev) {s : St}, Inv s → ∀ f, run s es ≠ .error (.fault f)
  | [], s, h, f => by simp [run]
  | ev :: es, s, h, f => by
    simp only [run]
    rcases inv_step h ev with ⟨s1, e1, h1, -⟩ | e1
    · rw [e1]; exact no_fault es h1 f
    · rw [e1]; simp

/-- The assertions hold. -/
theorem C56_safe (cap threads : Nat) (g : Nat → Nat) (hcap : 0 < cap) (es : List Ev) (f : Fault) :
    run (init cap threads g) es ≠ .error (.fault f) := no_fault es (Inv.init hcap threads g) f

theorem good_conserves {cap : Nat} : ∀ {l : List Obs}, Good cap l → pushed l = popped l ++ content l
  | [], _ => rfl
  | .push a n vs :: l, h => by
    have ih := good_conserves h.2
    simp only [pushed, popped, content, ih, List.append_assoc]
  | .pop tid n vs :: l, h => by
    have ih := good_conserves h.2
    obtain ⟨⟨rest, hr⟩, -⟩ := h.1
    simp only [pushed, popped, content, ih]
    rw [← hr]; simp
  | .room n :: l, h => good_conserves (l := l) h.2
  | .empty t :: l, h => good_conserves (l := l) h.2

theorem good_bound {cap : Nat} : ∀ {l : List Obs}, Good cap l → (content l).length ≤ cap
  | [], _ => Nat.zero_le _
  | .push a n vs :: l, h => by
    have := h.1.1
    simp only [content, List.length_append]; exact this
  | .pop tid n vs :: l, h => by
    have := good_bound h.2
    simp only [content, List.length_drop]; omega
  | .room n :: l, h => good_bound (l := l) h.2
  | .empty t :: l, h => good_bound (l := l) h.2

/-- Items leave in the order in which they came, none is lost, none is handed out twice, and never more than the
capacity are inside. -/
theorem C56_fifo (cap threads : Nat) (g : Nat → Nat) (hcap : 0 < cap) (es : List Ev) (s : St)
    (h : run (init cap threads g) es = .ok s) :
    ∃ inside, pushed s.log = popped s.log ++ inside ∧ inside.length ≤ cap := by
  have hg := C56_linearizable cap threads g hcap es s h
  exact ⟨_, good_conserves hg, good_bound hg⟩

theorem good_split {cap : Nat} : ∀ (a : List Obs) {o : Obs} {c : List Obs}, Good cap (a ++ o :: c) → Legit cap c o ∧ Good cap c
  | [], _, _, h => h
  | _ :: a, _, _, h => good_split a h.2

/-- A consumer that is told there is nothing was told so at a moment when everything pushed had been handed out. -/
theorem C56_empty_only_when_empty (cap threads : Nat) (g : Nat → Nat) (hcap : 0 < cap) (es : List Ev) (s : St)
    (h : run (init cap threads g) es = .ok s) (a c : List Obs) (tid : Nat) (hl : s.log = a ++ .empty tid :: c) :
    pushed c = popped c := by
  have hg := C56_linearizable cap threads g hcap es s h
  rw [hl] at hg
  obtain ⟨h1, h2⟩ := good_split a hg
  have := good_conserves h2
  rw [show content c = [] from h1, List.append_nil] at this
  exact this

/-- A push that does not take all it is given has filled the queue: looking at the other side's index during the call,
the producer saw exactly as much room as it then used. -/
theorem C56_short_push_only_when_full (cap threads : Nat) (g : Nat → Nat) (hcap : 0 < cap) (es : List Ev) (s : St)
    (h : run (init cap threads g) es = .ok s) (a c : List Obs) (asked : List (Option Nat)) (consumed : Nat)
    (vs : List Nat) (hl : s.log = a ++ .push asked consumed vs :: c) (hs : consumed < asked.length) :
    lastRoom c = some vs.length := by
  have hg := C56_linearizable cap threads g hcap es s h
  rw [hl] at hg
  exact (good_split a hg).1.2.2.2 hs

/-- One producer and two consumers on two slots: the second consumer gets in between the first one's copy and its
compare-and-swap, the indices wrap, the third push finds no room. -/
def demo : List Ev :=
  [.push [some 10, none, some 11, some 12], .prod, .prod, .prod, .prod, .prod,
   .pop 0 1, .cons 0, .cons 0, .cons 0, .cons 0, .cons 0,
   .pop 1 2, .cons 1, .cons 1, .cons 1, .cons 1, .cons 1,
   .cons 0,
   .push [some 12], .prod, .prod, .prod,
   .cons 0, .cons 0, .cons 0, .cons 0, .cons 0, .cons 0,
   .pop 1 2, .cons 1, .cons 1, .cons 1, .cons 1]

example : (run (init 2 2 fun _ => 99) demo).toOption.map (·.log) = some
    [.empty 1, .pop 0 1 [12], .push [some 12] 1 [12], .room 2, .pop 1 2 [10, 11],
     .push [some 10, none, some 11, some 12] 3 [10, 11], .room 2] := by decide

/-! ## Progress -/

/-- The steps of another round, if the compare-and-swap is going to fail. -/
def again (now r n : Nat) : Nat := if now = r then 0 else n + 5

/-- An upper bound of the steps a consumer still has to make if no other thread moves. -/
def todo (s : St) : Cons → Nat
  | .idle => 0
  | .loadR n => n + 5
  | .loadC n r => again s.rIdx r n + (n + 4)
  | .loadW n r => again s.rIdx r n + (n + 3)
  | .storeC n r _ => again s.rIdx r n + (n + 2)
  | .copy n r e acc => again s.rIdx r n + (e - r - acc.length) + 1

theorem step_todo {s : St} (h : Inv s) {tid : Nat} {c : Cons} (hc : s.cons[tid]? = some c) (hi : c ≠ .idle) :
    ∃ s' c', step s (.cons tid) = .ok s' ∧ Inv s' ∧ s'.cons[tid]? = some c' ∧ todo s' c' < todo s c := by
  have hlt : tid < s.cons.length := (List.getElem?_eq_some_iff.1 hc).1
  have hC := h.cons c (List.mem_of_getElem? hc)
  have key : ∀ s', consStep s tid c = .ok s' → Inv s' := by
    intro s' he
    rcases inv_cons h hc with ⟨s1, e1, h1, -⟩ | e1
    · rw [e1] at he; cases he; exact h1
    · rw [e1] at he; cases he
  have hset : ∀ c', (s.cons.set tid c')[tid]? = some c' := fun c' => by simp [hlt]
  simp only [step, hc]
  cases c with
  | idle => exact absurd rfl hi
  | loadR n =>
    refine ⟨setC s tid (.loadC n s.rIdx), .loadC n s.rIdx, rfl, key _ rfl, hset _, ?_⟩
    simp only [todo, setC, again]; simp
  | loadC n r =>
    by_cases e : r ≥ s.wCache
    · refine ⟨setC s tid (.loadW n r), .loadW n r, by simp only [consStep, if_pos e], key _ (by simp only [consStep, if_pos e]), hset _, ?_⟩
      simp only [todo, setC]; omega
    · refine ⟨setC s tid (.copy n r (newR n r s.wCache) []), .copy n r (newR n r s.wCache) [], by simp only [consStep, if_neg e], key _ (by simp only [consStep, if_neg e]), hset _, ?_⟩
      obtain ⟨a, b, c, d⟩ := newR_le (n := n) (r := r) (w := s.wCache) (by omega)
      simp only [todo, setC, List.length_nil]; omega
  | loadW n r =>
    refine ⟨_, .storeC n r s.wIdx, rfl, key _ rfl, hset _, ?_⟩
    simp only [todo, setC]; omega
  | storeC n r w =>
    obtain ⟨c1, c2, c3⟩ := hC
    by_cases e : r = w
    · refine ⟨setC { s with wCache := w } tid .idle, .idle, by simp only [consStep, if_pos e], key _ (by simp only [consStep, if_pos e]), hset _, ?_⟩
      simp only [todo]; omega
    · have e2 : r < w := by omega
      refine ⟨setC { s with wCache := w } tid (.copy n r (newR n r w) []), .copy n r (newR n r w) [], by simp only [consStep, if_neg e, if_pos e2], key _ (by simp only [consStep, if_neg e, if_pos e2]), hset _, ?_⟩
      obtain ⟨a, b, c, d⟩ := newR_le (n := n) (r := r) (w := w) c2
      simp only [todo, setC, List.length_nil]; omega
  | copy n r e acc =>
    obtain ⟨c1, c2, c3, c4, c5, c6, c7⟩ := hC
    by_cases hl : acc.length < e - r
    · refine ⟨setC s tid (.copy n r e (acc ++ [s.slots ((r + acc.length) % s.cap)])), .copy n r e (acc ++ [s.slots ((r + acc.length) % s.cap)]), by simp only [consStep, if_pos hl], key _ (by simp only [consStep, if_pos hl]), hset _, ?_⟩
      simp only [todo, setC, List.length_append, List.length_singleton]; omega
    · by_cases hr : s.rIdx = r
      · refine ⟨{ setC s tid .idle with rIdx := e, log := .pop tid n acc :: s.log }, .idle, by simp only [consStep, if_neg hl, if_pos hr], key _ (by simp only [consStep, if_neg hl, if_pos hr]), hset _, ?_⟩
        simp only [todo]; omega
      · refine ⟨setC s tid (.loadR n), .loadR n, by simp only [consStep, if_neg hl, if_neg hr], key _ (by simp only [consStep, if_neg hl, if_neg hr]), hset _, ?_⟩
        simp only [todo, again, if_neg hr]; omega

theorem solo_aux : ∀ (m : Nat) {s : St}, Inv s → ∀ {tid : Nat} {c : Cons}, s.cons[tid]? = some c → todo s c ≤ m →
    ∃ k s', k ≤ m ∧ run s (List.replicate k (.cons tid)) = .ok s' ∧ s'.cons[tid]? = some .idle
  | 0, s, h, tid, c, hc, hm => by
    refine ⟨0, s, Nat.le_refl _, rfl, ?_⟩
    by_cases hi : c = .idle
    · rw [hc, hi]
    · obtain ⟨s', c', -, -, -, hlt⟩ := step_todo h hc hi
      omega
  | m + 1, s, h, tid, c, hc, hm => by
    by_cases hi : c = .idle
    · exact ⟨0, s, Nat.zero_le _, rfl, by rw [hc, hi]⟩
    · obtain ⟨s', c', e, h', hc', hlt⟩ := step_todo h hc hi
      obtain ⟨k, s'', hk, hrun, hid⟩ := solo_aux m h' hc' (by omega)
      refine ⟨k + 1, s'', by omega, ?_, hid⟩
      rw [List.replicate_succ]
      simp only [run, e]
      exact hrun

/-- No thread can keep a consumer from finishing by being stopped in the middle of its work: whatever the others were
doing, a consumer in the midst of a pop comes to an end when left alone. -/
theorem C56_consumer_never_waits (cap threads : Nat) (g : Nat → Nat) (hcap : 0 < cap) (es : List Ev) (s : St)
    (h : run (init cap threads g) es = .ok s) (tid : Nat) (ht : tid < s.cons.length) :
    ∃ k s', run s (List.replicate k (.cons tid)) = .ok s' ∧ s'.cons[tid]? = some .idle := by
  obtain ⟨hi, -⟩ := inv_run es (Inv.init hcap threads g) h
  obtain ⟨k, s', -, h1, h2⟩ := solo_aux _ hi (List.getElem?_eq_getElem ht) (Nat.le_refl _)
  exact ⟨k, s', h1, h2⟩

/-- The producer never waits at all: it is done after as many of its own steps as there are keys, and two more. -/
theorem C56_producer_never_waits (s : St) (hp : s.prod ≠ .idle) : ∃ s', step s .prod = .ok s' ∧
    (match s.prod, s'.prod with
      | .refresh keys, .writing _ keys' _ _ => keys' = keys
      | .writing _ (_ :: keys) _ _, .writing _ keys' _ _ => keys' = keys
      | .writing _ _ _ _, .idle => True
      | _, _ => False) := by
  simp only [step, prodStep]
  match h : s.prod with
  | .idle => exact absurd h hp
  | .refresh keys => exact ⟨_, rfl, rfl⟩
  | .writing done [] avail acc => exact ⟨_, rfl, trivial⟩
  | .writing done (none :: keys) avail acc =>
    simp only []
    split
    · exact ⟨_, rfl, trivial⟩
    · exact ⟨_, rfl, rfl⟩
  | .writing done (some v :: keys) avail acc =>
    simp only []
    split
    · exact ⟨_, rfl, trivial⟩
    · exact ⟨_, rfl, rfl⟩

end Verif.Spmc
