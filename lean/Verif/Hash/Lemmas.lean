import Verif.Hash.Spec

set_option linter.unusedSectionVars false
set_option linter.unusedSimpArgs false

/-! Helper lemmas for the hash-table refinement. -/

namespace Verif.Hash

variable {K V : Type} [DecidableEq K]

def toItem (e : Entry K V) : Spec.Item K V := ⟨e.id, e.key, e.val⟩

/-- Chain entries carrying key `k`. -/
def view (cfg : Cfg K) (l : L1 K V) (k : K) : List (Entry K V) :=
  (l.bkt (slot l (cfg.hash k))).filter (fun e => decide (e.key = k))

structure WF (cfg : Cfg K) (l : L1 K V) : Prop where
  pow : ∃ n, l.len = 2 ^ n
  home : ∀ i e, e ∈ l.bkt i → e.hash = cfg.hash e.key ∧ slot l e.hash = i

omit [DecidableEq K] in
theorem slot_lt {cfg : Cfg K} {l : L1 K V} (h : WF cfg l) (x : Nat) : slot l x < l.len := by
  obtain ⟨n, hn⟩ := h.pow
  unfold slot
  rw [hn, Nat.and_two_pow_sub_one_eq_mod]
  exact Nat.mod_lt _ (Nat.two_pow_pos n)

omit [DecidableEq K] in
theorem slot_setBkt (l : L1 K V) (i : Nat) (c) (n x : Nat) :
    slot { setBkt l i c with num := n } x = slot l x := rfl

omit [DecidableEq K] in
theorem mem_flat {cfg : Cfg K} {l : L1 K V} (h : WF cfg l) (e : Entry K V) :
    e ∈ flat l ↔ e ∈ l.bkt (slot l (cfg.hash e.key)) := by
  unfold flat
  rw [List.mem_flatMap]
  constructor
  · rintro ⟨i, _, he⟩
    have := h.home i e he
    rw [← this.1, this.2]; exact he
  · intro he
    exact ⟨_, List.mem_range.2 (slot_lt h _), he⟩

theorem mem_view {cfg : Cfg K} {l : L1 K V} (h : WF cfg l) (e : Entry K V) (k : K) :
    e ∈ view cfg l k ↔ e ∈ flat l ∧ e.key = k := by
  rw [mem_flat h]
  unfold view
  rw [List.mem_filter]
  constructor
  · rintro ⟨a, b⟩
    have b' : e.key = k := by simpa using b
    exact ⟨by rw [b']; exact a, b'⟩
  · rintro ⟨a, b⟩
    exact ⟨by rw [← b]; exact a, by simpa using b⟩

theorem cmpkey2_eq {cfg : Cfg K} {a b : Entry K V} (ha : a.hash = cfg.hash a.key)
    (hb : b.hash = cfg.hash b.key) : cmpkey2 cfg a b = decide (b.key = a.key) := by
  unfold cmpkey2
  by_cases h : a.key = b.key
  · simp [ha, hb, h]
  · have h' : ¬ b.key = a.key := fun x => h x.symm
    simp [h, h']

theorem cmpkey_eq {cfg : Cfg K} {e : Entry K V} {k : K} (he : e.hash = cfg.hash e.key) :
    cmpkey cfg e k = decide (e.key = k) := by
  unfold cmpkey
  by_cases h : e.key = k
  · simp [he, h]
  · simp [h]

/-- Result of an insertion that is not refused. -/
def inserted (l : L1 K V) (sp : Entry K V) : L1 K V :=
  { setBkt l (slot l sp.hash) (l.bkt (slot l sp.hash) ++ [sp]) with num := l.num + 1 }

theorem any_cmp {cfg : Cfg K} {l : L1 K V} (h : WF cfg l) {sp : Entry K V}
    (hs : sp.hash = cfg.hash sp.key) :
    (l.bkt (slot l sp.hash)).any (cmpkey2 cfg sp) = true ↔ view cfg l sp.key ≠ [] := by
  rw [List.any_eq_true]
  constructor
  · rintro ⟨e, he, hc⟩
    rw [cmpkey2_eq hs (h.home _ _ he).1] at hc
    have : e ∈ view cfg l sp.key := by
      unfold view; rw [List.mem_filter]; rw [← hs]; exact ⟨he, hc⟩
    exact List.ne_nil_of_mem this
  · intro hv
    obtain ⟨e, he⟩ := List.exists_mem_of_ne_nil _ hv
    unfold view at he
    rw [List.mem_filter, ← hs] at he
    refine ⟨e, he.1, ?_⟩
    rw [cmpkey2_eq hs (h.home _ _ he.1).1]; exact he.2

theorem insertLocked_eq {cfg : Cfg K} {l : L1 K V} (h : WF cfg l) {sp : Entry K V}
    (hs : sp.hash = cfg.hash sp.key) :
    insertLocked cfg l sp =
      if cfg.nodups = true ∧ view cfg l sp.key ≠ [] then
        (if cfg.dupAbrt then .aborted else .rejected)
      else .inserted (inserted l sp) := by
  have ha := any_cmp h hs
  unfold insertLocked inserted
  simp only []
  cases hb : l.bkt (slot l sp.hash) with
  | nil =>
    have : view cfg l sp.key = [] := by unfold view; rw [← hs, hb]; rfl
    simp [this]
  | cons e c =>
    rw [hb] at ha
    by_cases hv : view cfg l sp.key = []
    · have : (e :: c).any (cmpkey2 cfg sp) = false := by
        cases hq : (e :: c).any (cmpkey2 cfg sp) with
        | false => rfl
        | true => exact absurd hv (ha.1 hq)
      simp only [this, Bool.and_false, Bool.false_eq_true, if_false, hv]
      simp
    · have : (e :: c).any (cmpkey2 cfg sp) = true := ha.2 hv
      simp only [this, Bool.and_true]
      by_cases hn : cfg.nodups = true
      · simp [hn, hv]
      · simp [hn]

omit [DecidableEq K] in
theorem inserted_WF {cfg : Cfg K} {l : L1 K V} (h : WF cfg l) {sp : Entry K V}
    (hs : sp.hash = cfg.hash sp.key) : WF cfg (inserted l sp) := by
  refine ⟨h.pow, ?_⟩
  intro i e he
  simp only [inserted, setBkt] at he
  have hslot : ∀ x, slot (inserted l sp) x = slot l x := fun _ => rfl
  rw [hslot]
  split at he
  · next hi =>
    rw [List.mem_append, List.mem_singleton] at he
    rcases he with he | he
    · have := h.home _ _ he; rw [hi]; exact this
    · subst he; exact ⟨hs, hi.symm⟩
  · exact h.home _ _ he

theorem view_inserted {cfg : Cfg K} {l : L1 K V} {sp : Entry K V}
    (hs : sp.hash = cfg.hash sp.key) (k : K) :
    view cfg (inserted l sp) k =
      view cfg l k ++ [sp].filter (fun e => decide (e.key = k)) := by
  unfold view
  have hslot : ∀ x, slot (inserted l sp) x = slot l x := fun _ => rfl
  rw [hslot]
  simp only [inserted, setBkt]
  by_cases hk : sp.key = k
  · subst hk; rw [hs]; simp
  · split
    · next hi => rw [hi]; simp [hk]
    · simp [hk]

omit [DecidableEq K] in
theorem emptyL1_WF (cfg : Cfg K) (n : Nat) : WF cfg (emptyL1 (K := K) (V := V) (2 ^ n)) :=
  ⟨⟨n, rfl⟩, by intro i e he; simp [emptyL1] at he⟩

/-- Re-insertion loop of a resize. -/
theorem resizeFold {cfg : Cfg K} : ∀ (es : List (Entry K V)) (n : L1 K V), WF cfg n →
    (∀ e ∈ es, e.hash = cfg.hash e.key) →
    (cfg.nodups = true → ∀ k, ((view cfg n k) ++ es.filter (fun e => decide (e.key = k))).length ≤ 1) →
    ∃ n', es.foldlM (init := n) (fun n sp =>
        match insertLocked cfg n sp with
        | .inserted n' => Except.ok n'
        | .rejected => .ok n
        | .aborted => .error Fault.abort) = .ok n' ∧ WF cfg n' ∧ n'.len = n.len ∧
      n'.num = n.num + es.length ∧
      ∀ k, view cfg n' k = view cfg n k ++ es.filter (fun e => decide (e.key = k))
  | [], n, hw, _, _ => ⟨n, rfl, hw, rfl, rfl, by simp⟩
  | sp :: es, n, hw, hh, hd => by
    have hs : sp.hash = cfg.hash sp.key := hh sp (by simp)
    have hno : ¬ (cfg.nodups = true ∧ view cfg n sp.key ≠ []) := by
      rintro ⟨h1, h2⟩
      have := hd h1 sp.key
      have h3 : 0 < (view cfg n sp.key).length := List.length_pos_iff.2 h2
      simp at this
      omega
    have hins := insertLocked_eq hw hs
    rw [if_neg hno] at hins
    have ih := resizeFold es (inserted n sp) (inserted_WF hw hs)
      (fun e he => hh e (List.mem_cons_of_mem _ he)) (by
        intro h1 k
        have := hd h1 k
        rw [view_inserted hs, List.append_assoc]
        rw [show sp :: es = [sp] ++ es from rfl, List.filter_append] at this
        exact this)
    obtain ⟨n', e1, e2, e3, e4, e5⟩ := ih
    refine ⟨n', ?_, e2, e3, ?_, ?_⟩
    · rw [List.foldlM_cons, hins]
      exact e1
    · rw [e4]; simp [inserted]; omega
    · intro k
      rw [e5, view_inserted hs, List.append_assoc]
      rw [show sp :: es = [sp] ++ es from rfl, List.filter_append]

omit [DecidableEq K] in
theorem filter_flatMap_range (f : Nat → List (Entry K V)) (p : Entry K V → Bool) (j : Nat)
    (hf : ∀ i, i ≠ j → (f i).filter p = []) :
    ∀ n, ((List.range n).flatMap f).filter p = if j < n then (f j).filter p else [] := by
  intro n
  induction n with
  | zero => simp
  | succ n ih =>
    rw [List.range_succ, List.flatMap_append, List.filter_append, ih]
    simp only [List.flatMap_cons, List.flatMap_nil, List.append_nil]
    by_cases h1 : j < n
    · have h2 : n ≠ j := by omega
      rw [if_pos h1, hf n h2, if_pos (by omega)]; simp
    · rw [if_neg h1]
      by_cases h2 : n = j
      · subst h2; simp
      · rw [hf n h2, if_neg (by omega)]; rfl

theorem flat_filter {cfg : Cfg K} {l : L1 K V} (h : WF cfg l) (k : K) :
    (flat l).filter (fun e => decide (e.key = k)) = view cfg l k := by
  unfold flat view
  rw [filter_flatMap_range l.bkt _ (slot l (cfg.hash k)), if_pos (slot_lt h _)]
  intro i hi
  rw [List.filter_eq_nil_iff]
  intro e he hk
  have := h.home _ _ he
  have hk' : e.key = k := by simpa using hk
  rw [this.1, hk'] at this
  exact hi this.2.symm

theorem resizeLocked_ok {cfg : Cfg K} {l : L1 K V} (h : WF cfg l) (n : Nat)
    (hd : cfg.nodups = true → ∀ k, (view cfg l k).length ≤ 1) (hnum : l.num = (flat l).length) :
    ∃ l', resizeLocked cfg l (2 ^ n) = .ok l' ∧ WF cfg l' ∧ l'.len = 2 ^ n ∧ l'.num = l.num ∧
      ∀ k, view cfg l' k = view cfg l k := by
  have hv : ∀ k, view cfg (emptyL1 (K := K) (V := V) (2 ^ n)) k = [] := fun k => rfl
  obtain ⟨l', e1, e2, e3, e4, e5⟩ := resizeFold (cfg := cfg) (flat l) (emptyL1 (2 ^ n))
    (emptyL1_WF cfg n)
    (fun e he => (h.home _ _ ((mem_flat h e).1 he)).1)
    (by intro h1 k; rw [hv, List.nil_append, flat_filter h]; exact hd h1 k)
  refine ⟨l', e1, e2, e3, ?_, ?_⟩
  · rw [e4, hnum]; simp [emptyL1]
  · intro k; rw [e5, hv, List.nil_append, flat_filter h]

/-! ### Refinement relation -/

structure R (cfg : Cfg K) (t : Table K V) (m : Spec.MM K V) : Prop where
  wf : WF cfg t.l1
  next : t.nextId = m.next
  views : ∀ k, (view cfg t.l1 k).map toItem = m.items.filter (fun x => decide (x.key = k))
  idlt : ∀ x ∈ m.items, x.id < m.next
  nodupIds : (m.items.map (·.id)).Nodup
  num : t.l1.num = m.items.length
  keys : cfg.nodups = true → (m.items.map (·.key)).Nodup

theorem perm_of_filters {α : Type} {key : α → K} :
    ∀ (as bs : List α),
      (∀ k, as.filter (fun x => decide (key x = k)) = bs.filter (fun x => decide (key x = k))) →
      as.Perm bs := by
  classical
  intro as bs h
  rw [List.perm_iff_count]
  intro a
  have ha := congrArg (List.count a) (h (key a))
  rw [List.count_filter (by simp), List.count_filter (by simp)] at ha
  exact ha

theorem R.flatPerm {cfg : Cfg K} {t : Table K V} {m : Spec.MM K V} (h : R cfg t m) :
    ((flat t.l1).map toItem).Perm m.items := by
  apply perm_of_filters (key := fun x : Spec.Item K V => x.key)
  intro k
  rw [List.filter_map]
  have : ((fun x : Spec.Item K V => decide (x.key = k)) ∘ toItem) =
      (fun e : Entry K V => decide (e.key = k)) := rfl
  rw [this, flat_filter h.wf]
  exact h.views k

theorem R.flatLen {cfg : Cfg K} {t : Table K V} {m : Spec.MM K V} (h : R cfg t m) :
    t.l1.num = (flat t.l1).length := by
  have := h.flatPerm.length_eq
  rw [List.length_map] at this
  rw [h.num, this]

theorem R.init (cfg : Cfg K) : R cfg (init (K := K) (V := V)) Spec.empty where
  wf := emptyL1_WF cfg 8
  next := rfl
  views := fun _ => rfl
  idlt := by simp [Spec.empty]
  nodupIds := by simp [Spec.empty]
  num := rfl
  keys := by simp [Spec.empty]

theorem any_key_iff {cfg : Cfg K} {t : Table K V} {m : Spec.MM K V} (h : R cfg t m) (k : K) :
    m.items.any (fun x => decide (x.key = k)) = true ↔ view cfg t.l1 k ≠ [] := by
  have hv := h.views k
  rw [List.any_eq_true]
  constructor
  · rintro ⟨x, hx, hk⟩ hn
    rw [hn] at hv
    have : x ∈ m.items.filter (fun x => decide (x.key = k)) := List.mem_filter.2 ⟨hx, hk⟩
    rw [← hv] at this
    simp at this
  · intro hn
    have : m.items.filter (fun x => decide (x.key = k)) ≠ [] := by
      rw [← hv]; simpa using hn
    obtain ⟨x, hx⟩ := List.exists_mem_of_ne_nil _ this
    rw [List.mem_filter] at hx
    exact ⟨x, hx.1, hx.2⟩

theorem nodup_view_le {cfg : Cfg K} {t : Table K V} {m : Spec.MM K V} (h : R cfg t m)
    (hn : cfg.nodups = true) (k : K) : (view cfg t.l1 k).length ≤ 1 := by
  have hv := congrArg List.length (h.views k)
  rw [List.length_map] at hv
  rw [hv]
  have hk := h.keys hn
  have h2 : (m.items.filter (fun x => decide (x.key = k))).length =
      (m.items.map (·.key)).count k := by
    rw [List.count, List.countP_map, List.countP_eq_length_filter]
    congr 1
  rw [h2]
  exact (List.nodup_iff_count.1 hk) k

/-- Relation after adding one item (before any resize). -/
theorem R.insert {cfg : Cfg K} {t : Table K V} {m : Spec.MM K V} (h : R cfg t m) (k : K) (v : V)
    (hno : ¬ (cfg.nodups = true ∧ view cfg t.l1 k ≠ [])) :
    R cfg ⟨inserted t.l1 ⟨t.nextId, k, v, cfg.hash k⟩, t.nextId + 1⟩
      ⟨m.items ++ [⟨m.next, k, v⟩], m.next + 1⟩ where
  wf := inserted_WF h.wf rfl
  next := by simp [h.next]
  views := by
    intro k'
    have hvi := view_inserted (cfg := cfg) (l := t.l1) (sp := ⟨t.nextId, k, v, cfg.hash k⟩) rfl k'
    simp only [hvi, List.map_append, List.filter_append, h.views k']
    by_cases hk : k = k' <;> simp [hk, toItem, h.next]
  idlt := by
    intro x hx
    simp only [List.mem_append, List.mem_singleton] at hx
    rcases hx with hx | hx
    · have := h.idlt x hx; simp only; omega
    · subst hx; simp
  nodupIds := by
    simp only [List.map_append, List.map_cons, List.map_nil]
    rw [List.nodup_append]
    refine ⟨h.nodupIds, by simp, ?_⟩
    intro a ha b hb
    simp only [List.mem_singleton] at hb
    rw [List.mem_map] at ha
    obtain ⟨x, hx, rfl⟩ := ha
    have := h.idlt x hx
    omega
  num := by simp [inserted, h.num]
  keys := by
    intro hn
    simp only [List.map_append, List.map_cons, List.map_nil]
    rw [List.nodup_append]
    refine ⟨h.keys hn, by simp, ?_⟩
    intro a ha b hb
    simp only [List.mem_singleton] at hb
    rw [List.mem_map] at ha
    obtain ⟨x, hx, rfl⟩ := ha
    subst hb
    intro heq
    apply hno
    refine ⟨hn, (any_key_iff h _).1 ?_⟩
    rw [List.any_eq_true]
    exact ⟨x, hx, by simpa using heq⟩

omit [DecidableEq K] in
theorem pow_double {l : L1 K V} {cfg : Cfg K} (h : WF cfg l) : ∃ n, l.len * 2 = 2 ^ n := by
  obtain ⟨n, hn⟩ := h.pow
  exact ⟨n + 1, by rw [hn, Nat.pow_succ]⟩

theorem append_refines {cfg : Cfg K} {t : Table K V} {m : Spec.MM K V} (h : R cfg t m)
    (k : K) (v : V) (memOk : Bool) :
    match Spec.step cfg.nodups cfg.dupAbrt m (.append k v memOk) with
    | .error e => e = .abort ∧ append cfg t k v memOk = .error .abort
    | .ok (m', o) => ∃ t' hd first, append cfg t k v memOk = .ok (t', hd, first) ∧
        o = .handle hd first ∧ R cfg t' m' := by
  have hins := insertLocked_eq h.wf (sp := (⟨t.nextId, k, v, cfg.hash k⟩ : Entry K V)) rfl
  have hany := any_key_iff h k
  unfold Spec.step append insert
  simp only [hins]
  by_cases hno : cfg.nodups = true ∧ view cfg t.l1 k ≠ []
  · have h2 := hany.2 hno.2
    rw [if_pos hno]
    simp only [hno.1, h2, Bool.and_self, if_true]
    by_cases hb : cfg.dupAbrt = true
    · simp [hb]
    · simp only [hb]
      exact ⟨t, none, false, rfl, rfl, h⟩
  · rw [if_neg hno]
    have h2 : (cfg.nodups && m.items.any (fun x => decide (x.key = k))) = false := by
      cases hn : cfg.nodups with
      | false => rfl
      | true =>
        cases ha : m.items.any (fun x => decide (x.key = k)) with
        | false => rfl
        | true => exact absurd ⟨hn, hany.1 ha⟩ hno
    simp only [h2, Bool.false_eq_true, if_false]
    have hR := h.insert k v hno
    have hfirst : ∀ n : Nat, n = m.items.length + 1 → (n == 1) = decide (m.items = []) := by
      intro n hn
      cases hm : m.items with
      | nil => rw [hm] at hn; simp [hn]
      | cons a b => rw [hm] at hn; simp [hn]
    have hnum1 : (inserted t.l1 (⟨t.nextId, k, v, cfg.hash k⟩ : Entry K V)).num =
        m.items.length + 1 := by have := hR.num; simpa using this
    split
    · obtain ⟨n, hn⟩ := pow_double (cfg := cfg) hR.wf
      rw [hn]
      obtain ⟨l', e1, e2, e3, e4, e5⟩ := resizeLocked_ok hR.wf n
        (fun hn k => nodup_view_le hR hn k) hR.flatLen
      rw [e1]
      refine ⟨⟨l', t.nextId + 1⟩, some t.nextId, l'.num == 1, rfl, ?_, ?_⟩
      · rw [hfirst l'.num (by rw [e4]; exact hnum1), h.next]
      · refine ⟨e2, hR.next, ?_, hR.idlt, hR.nodupIds, ?_, hR.keys⟩
        · intro k'; rw [e5]; exact hR.views k'
        · rw [e4]; exact hR.num
    · refine ⟨_, _, _, rfl, ?_, hR⟩
      rw [hfirst _ hnum1, h.next]

/-! ### Removal -/

theorem R.id_inj {cfg : Cfg K} {t : Table K V} {m : Spec.MM K V} (h : R cfg t m)
    {x y : Spec.Item K V} (hx : x ∈ m.items) (hy : y ∈ m.items) (hid : x.id = y.id) : x = y := by
  have hp : m.items.Pairwise (fun a b => a.id ≠ b.id) := List.pairwise_map.1 h.nodupIds
  have key : ∀ l : List (Spec.Item K V), l.Pairwise (fun a b => a.id ≠ b.id) →
      ∀ x ∈ l, ∀ y ∈ l, x.id = y.id → x = y := by
    intro l
    induction l with
    | nil => intro _ x hx; simp at hx
    | cons a l ih =>
      intro hp x hx y hy hxy
      rw [List.pairwise_cons] at hp
      rw [List.mem_cons] at hx hy
      rcases hx with rfl | hx <;> rcases hy with rfl | hy
      · rfl
      · exact absurd hxy (hp.1 y hy)
      · exact absurd hxy.symm (hp.1 x hx)
      · exact ih hp.2 x hx y hy hxy
  exact key _ hp x hx y hy hid

theorem R.mem_flat_item {cfg : Cfg K} {t : Table K V} {m : Spec.MM K V} (h : R cfg t m)
    {e : Entry K V} (he : e ∈ flat t.l1) : toItem e ∈ m.items :=
  h.flatPerm.subset (List.mem_map_of_mem he)

theorem entry_ext_of_item {cfg : Cfg K} {l : L1 K V} (h : WF cfg l) {a b : Entry K V}
    (ha : a ∈ flat l) (hb : b ∈ flat l) (hab : toItem a = toItem b) : a = b := by
  have h1 := (h.home _ _ ((mem_flat h a).1 ha)).1
  have h2 := (h.home _ _ ((mem_flat h b).1 hb)).1
  cases a; cases b
  simp only [toItem, Spec.Item.mk.injEq] at hab
  obtain ⟨r1, r2, r3⟩ := hab
  subst r1 r2 r3
  simp only at h1 h2
  rw [h1, h2]

theorem R.flat_id_inj {cfg : Cfg K} {t : Table K V} {m : Spec.MM K V} (h : R cfg t m)
    {a b : Entry K V} (ha : a ∈ flat t.l1) (hb : b ∈ flat t.l1) (hid : a.id = b.id) : a = b :=
  entry_ext_of_item h.wf ha hb (h.id_inj (h.mem_flat_item ha) (h.mem_flat_item hb) hid)

theorem mem_bkt_flat {cfg : Cfg K} {l : L1 K V} (h : WF cfg l) {i : Nat} {e : Entry K V}
    (he : e ∈ l.bkt i) : e ∈ flat l := by
  rw [mem_flat h]
  have := h.home _ _ he
  rw [← this.1, this.2]; exact he

omit [DecidableEq K] in
theorem eraseP_eq_filter_of_nodup {p : Entry K V → Bool} : ∀ (c : List (Entry K V)),
    c.Pairwise (fun a b => ¬ (p a = true ∧ p b = true)) → c.eraseP p = c.filter (fun x => !p x)
  | [], _ => rfl
  | a :: c, h => by
    rw [List.pairwise_cons] at h
    cases hp : p a with
    | true =>
      rw [List.eraseP_cons_of_pos hp]
      rw [List.filter_cons_of_neg (by simp [hp])]
      symm
      rw [List.filter_eq_self]
      intro b hb
      have := h.1 b hb
      cases hb2 : p b with
      | false => rfl
      | true => exact absurd ⟨hp, hb2⟩ this
    | false =>
      rw [List.eraseP_cons_of_neg (by simp [hp]), List.filter_cons_of_pos (by simp [hp]),
        eraseP_eq_filter_of_nodup c h.2]

/-- Entry identifiers are distinct within the whole table. -/
theorem R.flat_nodup {cfg : Cfg K} {t : Table K V} {m : Spec.MM K V} (h : R cfg t m) :
    ((flat t.l1).map (·.id)).Nodup := by
  have hp := h.flatPerm.map (fun x : Spec.Item K V => x.id)
  rw [List.map_map] at hp
  exact hp.nodup_iff.2 h.nodupIds

omit [DecidableEq K] in
theorem bkt_sublist_flat (f : Nat → List (Entry K V)) (i n : Nat) (hi : i < n) :
    (f i).Sublist ((List.range n).flatMap f) := by
  induction n with
  | zero => omega
  | succ n ih =>
    rw [List.range_succ, List.flatMap_append]
    simp only [List.flatMap_cons, List.flatMap_nil, List.append_nil]
    by_cases h : i < n
    · exact (ih h).trans (List.sublist_append_left _ _)
    · have : i = n := by omega
      subst this
      exact List.sublist_append_right _ _

theorem R.bkt_ids {cfg : Cfg K} {t : Table K V} {m : Spec.MM K V} (h : R cfg t m) (i : Nat) (id : Nat) :
    (t.l1.bkt i).Pairwise
      (fun a b => ¬ ((a.id == id) = true ∧ (b.id == id) = true)) := by
  by_cases hi : i < t.l1.len
  · have hsub := (bkt_sublist_flat t.l1.bkt i t.l1.len hi).map (fun e : Entry K V => e.id)
    have hnd := hsub.nodup h.flat_nodup
    have := List.pairwise_map.1 hnd
    apply this.imp
    intro a b hab hc
    simp only [beq_iff_eq] at hc
    exact hab (hc.1.trans hc.2.symm)
  · have : t.l1.bkt i = [] := by
      rw [List.eq_nil_iff_forall_not_mem]
      intro e he
      have h1 := (h.wf.home _ _ he).2
      have h2 := slot_lt h.wf e.hash
      omega
    rw [this]; exact List.Pairwise.nil

/-- Table after unlinking the entry with identifier `id` from chain `i`. -/
def unlinked (l : L1 K V) (i id : Nat) : L1 K V :=
  { setBkt l i ((l.bkt i).eraseP (fun x => x.id == id)) with num := l.num - 1 }

theorem removeLocked_eq {cfg : Cfg K} {l : L1 K V} (h : WF cfg l) {sp : Entry K V}
    (hm : sp ∈ flat l) (hash : Nat) (hh : slot l hash = slot l sp.hash) :
    removeLocked l (slot l sp.hash) sp hash =
      .ok (unlinked l (slot l sp.hash) sp.id, (unlinked l (slot l sp.hash) sp.id).num == 0) := by
  have hin : sp ∈ l.bkt (slot l sp.hash) := by
    have := (mem_flat h sp).1 hm
    rw [← (h.home _ _ this).1] at this; exact this
  unfold removeLocked unlinked
  simp only []
  cases hb : l.bkt (slot l sp.hash) with
  | nil => rw [hb] at hin; simp at hin
  | cons e c =>
    simp only []
    rw [if_neg (by rintro ⟨_, h2⟩; exact h2 hh)]

theorem R.unlink {cfg : Cfg K} {t : Table K V} {m : Spec.MM K V} (h : R cfg t m)
    {sp : Entry K V} (hm : sp ∈ flat t.l1) :
    R cfg { t with l1 := unlinked t.l1 (slot t.l1 sp.hash) sp.id } (Spec.erase m sp.id) := by
  have hslot : ∀ i id x, slot (unlinked t.l1 i id) x = slot t.l1 x := fun _ _ _ => rfl
  have hmem : toItem sp ∈ m.items := h.mem_flat_item hm
  have hsp := (mem_flat h.wf sp).1 hm
  have hsph := (h.wf.home _ _ hsp).1
  refine ⟨⟨h.wf.pow, ?_⟩, h.next, ?_, ?_, ?_, ?_, ?_⟩
  · intro i e he
    rw [hslot]
    simp only [unlinked, setBkt] at he
    split at he
    · next hi => rw [hi]; exact h.wf.home _ _ (List.mem_of_mem_eraseP he)
    · exact h.wf.home _ _ he
  · intro k
    have hv := h.views k
    have goalL : view cfg (unlinked t.l1 (slot t.l1 sp.hash) sp.id) k =
        (view cfg t.l1 k).filter (fun e => !(e.id == sp.id)) := by
      unfold view
      rw [hslot]
      simp only [unlinked, setBkt]
      split
      · next hi =>
        rw [eraseP_eq_filter_of_nodup _ (h.bkt_ids _ sp.id), hi, List.filter_filter,
          List.filter_filter]
        congr 1; funext e; exact Bool.and_comm _ _
      · next hi =>
        symm
        rw [List.filter_eq_self]
        intro e he
        cases hid : e.id == sp.id with
        | false => rfl
        | true =>
          exfalso
          have he2 : e ∈ view cfg t.l1 k := he
          rw [mem_view h.wf] at he2
          have := h.flat_id_inj he2.1 hm (by simpa using hid)
          subst this
          apply hi
          rw [hsph, he2.2]
    simp only [goalL, Spec.erase]
    rw [List.filter_filter]
    have : (view cfg t.l1 k).filter (fun e => !(e.id == sp.id)) =
        (view cfg t.l1 k).filter ((fun x : Spec.Item K V => x.id != sp.id) ∘ toItem) := rfl
    rw [this, ← List.filter_map, hv, List.filter_filter]
    congr 1; funext e; exact Bool.and_comm _ _
  · intro x hx
    simp only [Spec.erase, List.mem_filter] at hx
    exact h.idlt x hx.1
  · simp only [Spec.erase]
    exact (List.filter_sublist.map _).nodup h.nodupIds
  · simp only [unlinked, Spec.erase]
    rw [h.num]
    have hp : m.items.Pairwise (fun a b => a.id ≠ b.id) := List.pairwise_map.1 h.nodupIds
    have key : ∀ (l : List (Spec.Item K V)), l.Pairwise (fun a b => a.id ≠ b.id) →
        ∀ y ∈ l, (l.filter (fun x => x.id != y.id)).length = l.length - 1 := by
      intro l
      induction l with
      | nil => intro _ y hy; simp at hy
      | cons a l ih =>
        intro hp y hy
        rw [List.pairwise_cons] at hp
        rw [List.mem_cons] at hy
        rcases hy with rfl | hy
        · rw [List.filter_cons_of_neg (by simp)]
          have : l.filter (fun x => x.id != y.id) = l := by
            rw [List.filter_eq_self]
            intro b hb
            have := hp.1 b hb
            simpa using fun hh => this hh.symm
          rw [this]; simp
        · have hay := hp.1 y hy
          rw [List.filter_cons_of_pos (by simpa using hay)]
          have := ih hp.2 y hy
          have hpos : 0 < l.length := List.length_pos_of_mem hy
          simp only [List.length_cons]
          omega
    exact (key m.items hp _ hmem).symm
  · intro hn
    simp only [Spec.erase]
    exact (List.filter_sublist.map _).nodup (h.keys hn)

theorem find_cmpkey {cfg : Cfg K} {l : L1 K V} (h : WF cfg l) (k : K) :
    (l.bkt (slot l (cfg.hash k))).find? (fun e => cmpkey cfg e k) = (view cfg l k).head? := by
  unfold view
  rw [List.head?_filter]
  have : ∀ c : List (Entry K V), (∀ e ∈ c, e.hash = cfg.hash e.key) →
      c.find? (fun e => cmpkey cfg e k) = c.find? (fun e => decide (e.key = k)) := by
    intro c
    induction c with
    | nil => intro _; rfl
    | cons a c ih =>
      intro hc
      rw [List.find?_cons, List.find?_cons, cmpkey_eq (hc a (by simp)),
        ih (fun e he => hc e (List.mem_cons_of_mem _ he))]
  exact this _ (fun e he => (h.home _ _ he).1)

theorem filter_cmpkey {cfg : Cfg K} {l : L1 K V} (h : WF cfg l) (k : K) :
    (l.bkt (slot l (cfg.hash k))).filter (fun e => cmpkey cfg e k) = view cfg l k := by
  unfold view
  apply List.filter_congr
  intro e he
  exact cmpkey_eq (h.home _ _ he).1

theorem R.spec_find {cfg : Cfg K} {t : Table K V} {m : Spec.MM K V} (h : R cfg t m) (k : K) :
    m.items.find? (fun x => decide (x.key = k)) = (view cfg t.l1 k).head?.map toItem := by
  rw [← List.head?_filter, ← h.views k, List.head?_map]

theorem remove_refines {cfg : Cfg K} {t : Table K V} {m : Spec.MM K V} (h : R cfg t m)
    (k : K) (id : Nat)
    (hv : m.items.any (fun x => x.id == id && decide (x.key = k)) = true) :
    ∃ t', remove cfg t k id = .ok t' ∧ R cfg t' (Spec.erase m id) := by
  rw [List.any_eq_true] at hv
  obtain ⟨x, hx, hc⟩ := hv
  simp only [Bool.and_eq_true, beq_iff_eq, decide_eq_true_eq] at hc
  have hx2 : x ∈ (flat t.l1).map toItem := h.flatPerm.symm.subset hx
  rw [List.mem_map] at hx2
  obtain ⟨e, he, rfl⟩ := hx2
  have hid : e.id = id := hc.1
  have hkey : e.key = k := hc.2
  subst hid
  subst hkey
  have hfind : (flat t.l1).find? (fun a => a.id == e.id) = some e := by
    cases hf : (flat t.l1).find? (fun a => a.id == e.id) with
    | none =>
      rw [List.find?_eq_none] at hf
      have := hf e he
      simp at this
    | some a =>
      have h1 := List.find?_some hf
      have h2 := List.mem_of_find?_eq_some hf
      rw [h.flat_id_inj h2 he (by simpa using h1)]
  have heh := (h.wf.home _ _ ((mem_flat h.wf e).1 he)).1
  unfold remove
  rw [hfind]
  simp only [removeLocked_eq h.wf he (cfg.hash e.key) (by rw [heh])]
  exact ⟨_, rfl, h.unlink he⟩

theorem removeByKeyRaw_refines {cfg : Cfg K} {t : Table K V} {m : Spec.MM K V} (h : R cfg t m)
    (k : K) :
    ∃ t' sp last m', removeByKeyRaw cfg t k = .ok (t', sp, last) ∧
      (∀ e, sp = some e → e.key = k ∧ e.hash = cfg.hash k) ∧
      Spec.step cfg.nodups cfg.dupAbrt m (.removeByKey k) = .ok (m', .removed (sp.map (·.val)) last) ∧
      R cfg t' m' := by
  unfold removeByKeyRaw Spec.step
  simp only [find_cmpkey h.wf, h.spec_find]
  cases hv : (view cfg t.l1 k).head? with
  | none => exact ⟨t, none, false, m, rfl, by simp, rfl, h⟩
  | some sp =>
    have hmem : sp ∈ view cfg t.l1 k := List.mem_of_head? hv
    rw [mem_view h.wf] at hmem
    have hsh := (h.wf.home _ _ ((mem_flat h.wf sp).1 hmem.1)).1
    have hk : cfg.hash k = sp.hash := by rw [hsh, hmem.2]
    simp only [Option.map_some]
    rw [hk, removeLocked_eq h.wf hmem.1 sp.hash rfl]
    have hR := h.unlink hmem.1
    refine ⟨_, _, _, _, rfl, ?_, ?_, hR⟩
    · intro e he; cases he; exact ⟨hmem.2, rfl⟩
    have hn := hR.num
    simp only at hn
    rw [hn]
    congr 3
    show _ = _
    have : ∀ l : List (Spec.Item K V), decide (l = []) = (l.length == 0) := by
      intro l; cases l <;> rfl
    exact this _

theorem removeByKey_refines {cfg : Cfg K} {t : Table K V} {m : Spec.MM K V} (h : R cfg t m) (k : K) :
    ∃ t' v last m', removeByKey cfg t k = .ok (t', v, last) ∧
      Spec.step cfg.nodups cfg.dupAbrt m (.removeByKey k) = .ok (m', .removed v last) ∧
      R cfg t' m' := by
  obtain ⟨t', sp, last, m', h1, _, h2, h3⟩ := removeByKeyRaw_refines h k
  exact ⟨t', _, last, m', by simp [removeByKey, h1], h2, h3⟩

/-! ### Iteration -/

theorem iterate_refines {S : Type} {cfg : Cfg K} (f : V → S → S × MVal) :
    ∀ (es : List (Entry K V)) (t : Table K V) (m : Spec.MM K V) (last : Bool) (s : S),
      R cfg t m → (∀ e ∈ es, e ∈ flat t.l1) → (es.map (·.id)).Nodup →
      ∃ l1 last', iterate f t.l1 last s es = .ok (l1, last', (Spec.visit f m s (es.map toItem)).2) ∧
        R cfg { t with l1 := l1 } (Spec.visit f m s (es.map toItem)).1
  | [], t, m, last, s, h, _, _ => ⟨t.l1, last, rfl, h⟩
  | sp :: es, t, m, last, s, h, hm, hnd => by
    have hsp := hm sp (by simp)
    rw [List.map_cons, List.nodup_cons] at hnd
    unfold iterate
    simp only [List.map_cons, Spec.visit]
    have hval : (toItem sp).val = sp.val := rfl
    have hidd : (toItem sp).id = sp.id := rfl
    rw [hval, hidd]
    cases hd : (f sp.val s).2.del with
    | false =>
      simp only [hd, Bool.false_eq_true, if_false]
      cases hb : (f sp.val s).2.brk with
      | true => simp only [if_true]; exact ⟨t.l1, last, rfl, h⟩
      | false =>
        simp only [Bool.false_eq_true, if_false]
        exact iterate_refines f es t m last _ h (fun e he => hm e (List.mem_cons_of_mem _ he)) hnd.2
    | true =>
      simp only [hd, if_true]
      rw [removeLocked_eq h.wf hsp sp.hash rfl]
      simp only []
      have hR := h.unlink hsp
      cases hb : (f sp.val s).2.brk with
      | true => simp only [if_true]; exact ⟨_, _, rfl, hR⟩
      | false =>
        simp only [Bool.false_eq_true, if_false]
        have hm' : ∀ e ∈ es, e ∈ flat (unlinked t.l1 (slot t.l1 sp.hash) sp.id) := by
          intro e he
          have he1 := hm e (List.mem_cons_of_mem _ he)
          have hne : e.id ≠ sp.id := by
            intro hh
            apply hnd.1
            rw [← hh]
            exact List.mem_map_of_mem he
          rw [mem_flat hR.wf]
          have he2 := (mem_flat h.wf e).1 he1
          show e ∈ (unlinked t.l1 (slot t.l1 sp.hash) sp.id).bkt (slot t.l1 (cfg.hash e.key))
          simp only [unlinked, setBkt]
          split
          · next hi =>
            rw [List.mem_eraseP_of_neg (by simpa using hne)]
            rw [hi] at he2; exact he2
          · exact he2
        exact iterate_refines f es { t with l1 := unlinked t.l1 (slot t.l1 sp.hash) sp.id } _
          _ _ hR hm' hnd.2

theorem foreachKey_refines {S : Type} {cfg : Cfg K} {t : Table K V} {m : Spec.MM K V} (h : R cfg t m)
    (k : K) (f : V → S → S × MVal) (s : S) :
    ∃ t', foreachKey cfg t k f s =
        .ok (t', (Spec.visit f m s (m.items.filter (fun x => decide (x.key = k)))).2) ∧
      R cfg t' (Spec.visit f m s (m.items.filter (fun x => decide (x.key = k)))).1 := by
  unfold foreachKey
  split
  · next h0 =>
    have : m.items = [] := by
      have := h.num; rw [h0] at this; exact List.length_eq_zero_iff.1 this.symm
    rw [this]
    exact ⟨t, rfl, h⟩
  · rw [filter_cmpkey h.wf, ← h.views k]
    have hm : ∀ e ∈ view cfg t.l1 k, e ∈ flat t.l1 := fun e he => ((mem_view h.wf e k).1 he).1
    have hnd : ((view cfg t.l1 k).map (·.id)).Nodup := by
      rw [← flat_filter h.wf]
      exact (List.filter_sublist.map _).nodup h.flat_nodup
    obtain ⟨l1, last, e1, e2⟩ := iterate_refines f (view cfg t.l1 k) t m false s h hm hnd
    rw [e1]
    exact ⟨_, rfl, e2⟩

theorem foreach_refines {S : Type} {cfg : Cfg K} {t : Table K V} {m : Spec.MM K V} (h : R cfg t m)
    (f : V → S → S × MVal) (s : S) :
    ∃ t' last order, order.Perm m.items ∧
      foreach t f s = .ok (t', last, (Spec.visit f m s order).2) ∧
      R cfg t' (Spec.visit f m s order).1 := by
  unfold foreach
  split
  · next h0 =>
    have : m.items = [] := by
      have := h.num; rw [h0] at this; exact List.length_eq_zero_iff.1 this.symm
    exact ⟨t, false, [], by rw [this], rfl, h⟩
  · obtain ⟨l1, last, e1, e2⟩ := iterate_refines f (flat t.l1) t m false s h (fun e he => he)
      h.flat_nodup
    rw [e1]
    exact ⟨_, _, _, h.flatPerm, rfl, e2⟩

theorem step_refines {cfg : Cfg K} {t : Table K V} {m : Spec.MM K V} (h : R cfg t m) (op : Op K V) :
    match Spec.step cfg.nodups cfg.dupAbrt m op with
    | .error .ub => True
    | .error .abort => step cfg t op = .error .abort
    | .ok (m', o) => ∃ t', step cfg t op = .ok (t', o) ∧ R cfg t' m' := by
  cases op with
  | append k v b =>
    have := append_refines h k v b
    cases hs : Spec.step cfg.nodups cfg.dupAbrt m (.append k v b) with
    | error e =>
      rw [hs] at this
      obtain ⟨rfl, h2⟩ := this
      simp [step, h2]
    | ok r =>
      rw [hs] at this
      obtain ⟨t', hd, first, h1, h2, h3⟩ := this
      exact ⟨t', by simp [step, h1, h2], h3⟩
  | remove k id =>
    simp only [Spec.step]
    split
    · next hq =>
      split at hq
      · cases hq
      · trivial
    · next hq => split at hq <;> cases hq
    · next m' o hq =>
      split at hq
      · next hv =>
        cases hq
        obtain ⟨t', h1, h2⟩ := remove_refines h k id hv
        exact ⟨t', by simp [step, h1], h2⟩
      · cases hq
  | removeByKey k =>
    obtain ⟨t', v, last, m', h1, h2, h3⟩ := removeByKey_refines h k
    rw [h2]
    exact ⟨t', by simp [step, h1], h3⟩
  | find k =>
    simp only [Spec.step]
    refine ⟨t, ?_, h⟩
    simp only [step, find, find_cmpkey h.wf, Spec.vals]
    rw [← h.views k, List.head?_map, List.head?_map]
    cases (view cfg t.l1 k).head? <;> rfl
  | length =>
    simp only [Spec.step]
    exact ⟨t, by simp [step, getLength, h.num], h⟩
  | foreachKey k f =>
    simp only [Spec.step]
    obtain ⟨t', h1, h2⟩ := foreachKey_refines h k f []
    exact ⟨t', by simp [step, h1], h2⟩

theorem run_refines {cfg : Cfg K} : ∀ (ops : List (Op K V)) (t : Table K V) (m : Spec.MM K V),
    R cfg t m →
    match Spec.run cfg.nodups cfg.dupAbrt m ops with
    | .error .ub => True
    | .error .abort => run cfg t ops = .error .abort
    | .ok (m', os) => ∃ t', run cfg t ops = .ok (t', os) ∧ R cfg t' m'
  | [], t, m, h => ⟨t, rfl, h⟩
  | op :: ops, t, m, h => by
    have hs := step_refines h op
    unfold Spec.run run
    cases h1 : Spec.step cfg.nodups cfg.dupAbrt m op with
    | error e =>
      rw [h1] at hs
      cases e with
      | ub => trivial
      | abort => simp only at hs; simp only [hs]
    | ok r =>
      obtain ⟨m', o⟩ := r
      rw [h1] at hs
      obtain ⟨t', h2, h3⟩ := hs
      have ih := run_refines ops t' m' h3
      simp only [h2]
      cases h4 : Spec.run cfg.nodups cfg.dupAbrt m' ops with
      | error e =>
        rw [h4] at ih
        cases e with
        | ub => trivial
        | abort => simp only at ih; simp only [ih]
      | ok r2 =>
        rw [h4] at ih
        obtain ⟨t'', h5, h6⟩ := ih
        exact ⟨t'', by simp only [h5], h6⟩

end Verif.Hash
