import Verif.Modman.Load
import Mathlib.Data.List.Induction

/-! The properties of the loading of modules. -/

namespace Verif.Modman

/-- The module at place `j` is the `nth` of those with its number. -/
def nth (ds : List Desc) (j : Nat) (id : Nat) : Nat := (ds.take j).countP (fun d => d.id == id) + 1

/-- What the loading has made of `ds`. -/
structure Made' (ds : List Desc) (m : Mgr) : Prop where
  len : m.all.length = ds.length
  get : ∀ (j : Nat) (d : Desc), ds[j]? = some d → m.all[j]? = some ⟨d, nth ds j d.id, j⟩
  total : m.total = ds.length
  acct : m.sessAcct = ds.countP (·.acct)

theorem made_all {ds : List Desc} {m : Mgr} (h : Made' ds m) : m.all.map (·.d) = ds := by
  apply List.ext_getElem?
  intro j
  rw [List.getElem?_map]
  match hd : ds[j]? with
  | some d => rw [h.get j d hd]; rfl
  | none =>
    have : m.all[j]? = none := by
      rw [List.getElem?_eq_none_iff] at *
      rw [h.len]; exact hd
    rw [this]; rfl

theorem foldl_count (l : List Lm) (id n : Nat) :
    l.foldl (fun ri t => if t.d.id ≠ id then ri else ri + 1) n = n + (l.map (·.d)).countP (fun d => d.id == id) := by
  induction l generalizing n with
  | nil => rfl
  | cons a l ih =>
    rw [List.foldl_cons, ih, List.map_cons, List.countP_cons]
    by_cases h : a.d.id = id
    · simp [h]; omega
    · simp [h]

theorem nextId_eq {ds : List Desc} {m : Mgr} (h : Made' ds m) (id : Nat) :
    m.nextId id = ds.countP (fun d => d.id == id) + 1 := by
  unfold Mgr.nextId
  rw [foldl_count, made_all h]; omega

theorem made_insert {ds : List Desc} {m : Mgr} (h : Made' ds m) (d : Desc) :
    Made' (ds ++ [d]) (m.insert d (m.nextId d.id)) := by
  refine ⟨by simp [Mgr.insert, h.len], fun j d' hj => ?_, by simp [Mgr.insert, h.total], ?_⟩
  · have hl : j < ds.length ∨ j = ds.length := by
      have := (List.getElem?_eq_some_iff.mp hj).1
      simp at this; omega
    rcases hl with hl | hl
    · rw [List.getElem?_append_left hl] at hj
      have h1 := h.get j d' hj
      show (m.all ++ _)[j]? = _
      rw [List.getElem?_append_left (by rw [h.len]; exact hl), h1]
      unfold nth
      rw [List.take_append_of_le_length (by omega)]
    · subst hl
      simp at hj
      subst hj
      show (m.all ++ _)[ds.length]? = _
      rw [← h.len, List.getElem?_concat_length, nextId_eq h, h.total, ← h.len]
      unfold nth
      rw [h.len, List.take_append_of_le_length (Nat.le_refl _), List.take_length]
  · simp only [Mgr.insert, List.countP_append, h.acct, List.countP_cons, List.countP_nil]
    cases d.acct <;> simp

theorem made_empty : Made' [] Mgr.empty := ⟨rfl, nofun, rfl, rfl⟩

theorem parse_made {b : Bool} : ∀ (ds ds0 : List Desc) (m m' : Mgr), Made' ds0 m → parse m ds = .ok (m', b) →
    ∃ ds1, ds1 <+: ds ∧ Made' (ds0 ++ ds1) m' ∧ (b = true → ds1 = ds)
  | [], ds0, m, m', h, hp => by
    cases hp
    exact ⟨[], List.prefix_refl _, by rw [List.append_nil]; exact h, fun _ => rfl⟩
  | d :: ds, ds0, m, m', h, hp => by
    simp only [parse] at hp
    split at hp
    · cases hp
      exact ⟨[], List.nil_prefix, by rw [List.append_nil]; exact h, nofun⟩
    · split at hp
      · cases hp
      · split at hp
        · cases hp
        · obtain ⟨ds1, h1, h2, h3⟩ := parse_made ds (ds0 ++ [d]) _ m' (made_insert h d) hp
          refine ⟨d :: ds1, List.cons_prefix_cons.mpr ⟨rfl, h1⟩, by simpa using h2, fun e => by rw [h3 e]⟩

/-- **C73.** When the modules have been loaded, the module at each place has that place for its number, and is known as the
first, second, … of those with its identifier. -/
theorem C73_numbers {ds : List Desc} {m : Mgr} (h : parse .empty ds = .ok (m, true)) :
    m.total = ds.length ∧ m.sessAcct = ds.countP (·.acct) ∧ m.all.length = ds.length ∧
    ∀ (j : Nat) (d : Desc), ds[j]? = some d →
      m.all[j]? = some ⟨d, (ds.take j).countP (fun x => x.id == d.id) + 1, j⟩ := by
  obtain ⟨ds1, _, h2, h3⟩ := parse_made ds [] _ m made_empty h
  rw [h3 rfl] at h2
  exact ⟨h2.total, h2.acct, h2.len, h2.get⟩

theorem countP_lt {ds : List Desc} {j k : Nat} {d : Desc} (hjk : j < k) (hj : ds[j]? = some d) :
    (ds.take j).countP (fun x => x.id == d.id) < (ds.take k).countP (fun x => x.id == d.id) := by
  have h1 : (ds.take (j + 1)) = ds.take j ++ [d] := by
    rw [List.take_add_one, hj]; rfl
  have h2 : (ds.take (j + 1)).countP (fun x => x.id == d.id) ≤ (ds.take k).countP (fun x => x.id == d.id) := by
    apply List.Sublist.countP_le
    exact (List.take_prefix_take_left (by omega)).sublist
  rw [h1, List.countP_append] at h2
  simp at h2
  omega

/-- **C73.** No two modules are known by the same pair of numbers. -/
theorem C73_distinct {ds : List Desc} {m : Mgr} (h : parse .empty ds = .ok (m, true)) {j k : Nat} {x y : Lm}
    (hj : m.all[j]? = some x) (hk : m.all[k]? = some y) (hid : x.d.id = y.d.id) (hin : x.inst = y.inst) : j = k := by
  obtain ⟨_, _, hl, hget⟩ := C73_numbers h
  have hj2 := (List.getElem?_eq_some_iff.mp hj).1
  have hk2 := (List.getElem?_eq_some_iff.mp hk).1
  rw [hl] at hj2 hk2
  have h1 := hget j _ (List.getElem?_eq_getElem hj2)
  have h2 := hget k _ (List.getElem?_eq_getElem hk2)
  rw [hj] at h1; rw [hk] at h2
  cases h1; cases h2
  simp only at hid hin
  rcases Nat.lt_trichotomy j k with hlt | he | hlt
  · have := countP_lt hlt (List.getElem?_eq_getElem hj2)
    rw [hid] at this hin
    omega
  · exact he
  · have := countP_lt hlt (List.getElem?_eq_getElem hk2)
    rw [hid] at hin
    omega

theorem ulLoop_some {id inst n : Nat} : ∀ {l : List Lm}, ulLoop id inst l = some n →
    ∃ t ∈ l, t.d.id = id ∧ t.inst = inst ∧ t.d.ul = true ∧ t.idx = n
  | [], h => by cases h
  | t :: l, h => by
    simp only [ulLoop] at h
    split at h
    · obtain ⟨x, h1, h2⟩ := ulLoop_some h
      exact ⟨x, List.mem_cons_of_mem _ h1, h2⟩
    case isFalse hc =>
      split at h
      · cases h
      case isFalse hu =>
        cases h
        exact ⟨t, List.mem_cons_self, by omega, by omega, by simpa using hu, rfl⟩

theorem ulLoop_find {id inst : Nat} : ∀ {l : List Lm} {t : Lm}, t ∈ l → t.d.id = id → t.inst = inst → t.d.ul = true →
    (∀ x ∈ l, x.d.id = id → x.inst = inst → x = t) → ulLoop id inst l = some t.idx
  | a :: l, t, h, h1, h2, h3, hu => by
    simp only [ulLoop]
    split
    case isTrue hc =>
      rcases List.mem_cons.mp h with e | h
      · subst e; omega
      · exact ulLoop_find h h1 h2 h3 (fun x hx => hu x (List.mem_cons_of_mem _ hx))
    case isFalse hc =>
      have : a = t := hu a List.mem_cons_self (by omega) (by omega)
      subst this
      simp [h3]

/-- **C73.** A command that names an identifier and a number finds the module with that identifier that was loaded at that
place among those with the same identifier, if it can handle commands, and nothing else. -/
theorem C73_lookup {ds : List Desc} {m : Mgr} (h : parse .empty ds = .ok (m, true)) (id inst j : Nat) :
    m.getUl id inst = some j ↔ ∃ d, ds[j]? = some d ∧ d.id = id ∧ d.ul = true ∧
      inst = (ds.take j).countP (fun x => x.id == id) + 1 := by
  obtain ⟨_, _, hl, hget⟩ := C73_numbers h
  constructor
  · intro hs
    obtain ⟨t, h1, h2, h3, h4, h5⟩ := ulLoop_some hs
    obtain ⟨k, hk⟩ := List.mem_iff_getElem?.mp h1
    have hk2 := (List.getElem?_eq_some_iff.mp hk).1
    rw [hl] at hk2
    have h6 := hget k _ (List.getElem?_eq_getElem hk2)
    rw [hk] at h6
    cases h6
    subst h5
    exact ⟨_, List.getElem?_eq_getElem hk2, h2, h4, by rw [← h3, ← h2]⟩
  · rintro ⟨d, h1, h2, h3, h4⟩
    have h5 := hget j d h1
    subst h2
    refine ulLoop_find (t := ⟨d, _, j⟩) (List.mem_of_getElem? h5) rfl h4.symm h3 (fun x hx hx1 hx2 => ?_)
    obtain ⟨k, hk⟩ := List.mem_iff_getElem?.mp hx
    have : k = j := C73_distinct h hk h5 hx1 (by rw [hx2, h4])
    subst this
    rw [hk] at h5; cases h5; rfl

/-- A module that cannot be loaded makes the configuration be refused. -/
def Refuses (p : Except Fault (Mgr × Bool)) : Prop := ∃ m, p = .ok (m, false)

/-- **C73 (partial).** Reading the list of modules succeeds when each can be loaded and configured, and does nothing undefined
if the first that cannot is one there is no memory for. -/
theorem C73_parse_partial : ∀ (ds : List Desc) (m : Mgr), (∀ d ∈ ds, d.loads = true ∧ d.conf = true) →
    ∃ m', parse m ds = .ok (m', ds.all (·.made))
  | [], m, _ => ⟨m, rfl⟩
  | d :: ds, m, h => by
    simp only [parse]
    obtain ⟨h1, h2⟩ := h d List.mem_cons_self
    cases hm : d.made with
    | false => exact ⟨m, by simp [hm]⟩
    | true =>
      obtain ⟨m', h3⟩ := C73_parse_partial ds (m.insert d (m.nextId d.id)) (fun x hx => h x (List.mem_cons_of_mem _ hx))
      exact ⟨m', by simp [h1, h2, hm, h3]⟩

/-- **C73.** A module named in the configuration that cannot be loaded, or whose parameters are wrong, is not refused: the
object is freed and used after that. -/
theorem C73_bad_module_counterexample :
    (∃ ds, parse .empty ds = .error .ub ∧ ¬ Refuses (parse .empty ds)) ∧
    ∀ ds d ds', (∀ x ∈ ds, x.made = true ∧ x.loads = true ∧ x.conf = true) → d.made = true → d.loads = false ∨ d.conf = false →
      ∀ m, parse m (ds ++ d :: ds') = .error .ub := by
  refine ⟨⟨[⟨7, true, false, true, false, true⟩], rfl, fun ⟨m, h⟩ => nomatch h⟩, ?_⟩
  intro ds
  induction ds with
  | nil =>
    intro d ds' _ hm hb m
    rcases hb with hb | hb
    · simp [parse, hm, hb]
    · simp only [List.nil_append, parse, hm, hb]
      cases d.loads <;> rfl
  | cons a ds ih =>
    intro d ds' h hm hb m
    obtain ⟨h1, h2, h3⟩ := h a List.mem_cons_self
    simp only [List.cons_append, parse, h1, h2, h3]
    exact ih d ds' (fun x hx => h x (List.mem_cons_of_mem _ hx)) hm hb _

end Verif.Modman
