import Verif.Dtmf.Ring
import Mathlib.Data.List.Induction
import Mathlib.Data.List.Nodup

/-!
# What the packets of a stream amount to

The packets of a telephone event carry the time stamp of its beginning (RFC 4733).
-/

namespace Verif.Dtmf

/-- The worker knows the event. -/
def Known (x : Tel) : Prop := x.ev < 18

instance (x : Tel) : Decidable (Known x) := inferInstanceAs (Decidable (_ < _))

/-- Time stamps of the events begun so far, latest first: a packet begins an event unless its time stamp is that of one of
the four latest. -/
def begun (xs : List Tel) : List Nat :=
  xs.foldl (fun l x => if Known x ∧ x.ts ∉ l.take 4 then x.ts :: l else l) []

/-- Packet `a` begins an event. -/
def Opens (xs : List Tel) (a : Nat) : Prop :=
  ∃ x, xs[a]? = some x ∧ Known x ∧ x.ts ∉ (begun (xs.take a)).take 4

/-- Packet `k` belongs to the event of `x`. -/
def Same (xs : List Tel) (k : Nat) (x : Tel) : Prop :=
  ∃ y, xs[k]? = some y ∧ y.ts = x.ts ∧ y.ev = x.ev

/-- `d` is the largest duration in the packets `a`, …, `n - 1` of the event of `x`. -/
def Longest (xs : List Tel) (a n : Nat) (x : Tel) (d : Nat) : Prop :=
  (∃ k y, a ≤ k ∧ k < n ∧ xs[k]? = some y ∧ y.ts = x.ts ∧ y.ev = x.ev ∧ y.dur = d) ∧
  ∀ k y, a ≤ k → k < n → xs[k]? = some y → y.ts = x.ts → y.ev = x.ev → y.dur ≤ d

/-- Packet `i` completes the event begun by packet `a`: it has the end bit, is the first of the event to have it after `a`, and the
event is still among the four latest. -/
structure Completes (xs : List Tel) (a i : Nat) (x : Tel) : Prop where
  opens : Opens xs a
  lt : a < i
  pkt : xs[i]? = some x
  fin : x.fin = true
  same : Same xs a x
  recent : x.ts ∈ (begun (xs.take i)).take 4
  latest : ∀ k, a < k → k < i → ∀ y, xs[k]? = some y → y.ts = x.ts → ¬ Opens xs k
  first : ∀ k, a < k → k < i → ∀ y, xs[k]? = some y → y.ts = x.ts → y.ev = x.ev → y.fin = false

/-! ### The four latest -/

theorem begun_snoc (xs : List Tel) (x : Tel) : begun (xs ++ [x]) =
    if Known x ∧ x.ts ∉ (begun xs).take 4 then x.ts :: begun xs else begun xs := by
  unfold begun; rw [List.foldl_append]; rfl

theorem take_snoc_lt {α : Type} {xs : List α} {x : α} {a : Nat} (h : a ≤ xs.length) : (xs ++ [x]).take a = xs.take a := by
  rw [List.take_append_of_le_length h]

theorem opens_lt {xs : List Tel} {a : Nat} (h : Opens xs a) : a < xs.length := by
  obtain ⟨x, hx, _⟩ := h
  exact (List.getElem?_eq_some_iff.mp hx).1

theorem opens_snoc {xs : List Tel} {x : Tel} {a : Nat} (h : a < xs.length) : Opens (xs ++ [x]) a ↔ Opens xs a := by
  unfold Opens
  rw [List.getElem?_append_left h, take_snoc_lt (by omega)]

theorem opens_last {xs : List Tel} {x : Tel} : Opens (xs ++ [x]) xs.length ↔ Known x ∧ x.ts ∉ (begun xs).take 4 := by
  unfold Opens
  rw [List.getElem?_append_right (le_refl _), take_snoc_lt (le_refl _), List.take_length]
  simp

theorem opens_take {xs : List Tel} {a b : Nat} (h : a < b) : Opens (xs.take b) a ↔ Opens xs a := by
  unfold Opens
  rw [List.getElem?_take_of_lt h, List.take_take, Nat.min_eq_left (by omega)]

/-- Any five consecutive ones are different. -/
theorem begun_window (xs : List Tel) : ∀ m, ((begun xs).drop m |>.take 5).Nodup := by
  induction xs using List.reverseRecOn with
  | nil => intro m; simp [begun]
  | append_singleton xs x ih =>
    intro m
    rw [begun_snoc]
    split
    case isFalse => exact ih m
    case isTrue h =>
      cases m with
      | succ m => exact ih m
      | zero =>
        rw [List.drop_zero, show (5 : Nat) = 4 + 1 from rfl, List.take_succ_cons, List.nodup_cons]
        refine ⟨h.2, ?_⟩
        have := ih 0
        rw [List.drop_zero] at this
        exact this.sublist (List.take_sublist_take_left (by omega))

theorem begun_nodup (xs : List Tel) : ((begun xs).take 4).Nodup := by
  have := begun_window xs 0
  rw [List.drop_zero] at this
  exact this.sublist (List.take_sublist_take_left (by omega))

/-- What was begun after packet `a`. -/
theorem begun_since (xs : List Tel) (a : Nat) : ∃ l, begun xs = l ++ begun (xs.take a) ∧
    ∀ u ∈ l, ∃ k y, a ≤ k ∧ xs[k]? = some y ∧ Known y ∧ y.ts = u := by
  induction xs using List.reverseRecOn with
  | nil => exact ⟨[], by simp, by simp⟩
  | append_singleton xs x ih =>
    by_cases ha : a ≤ xs.length
    · obtain ⟨l, h1, h2⟩ := ih
      rw [begun_snoc, take_snoc_lt ha]
      have up : ∀ u ∈ l, ∃ k y, a ≤ k ∧ (xs ++ [x])[k]? = some y ∧ Known y ∧ y.ts = u := by
        intro u hu
        obtain ⟨k, y, g1, g2, g3⟩ := h2 u hu
        exact ⟨k, y, g1, by rw [List.getElem?_append_left (List.getElem?_eq_some_iff.mp g2).1]; exact g2, g3⟩
      split
      case isTrue h =>
        refine ⟨x.ts :: l, by rw [h1]; rfl, ?_⟩
        intro u hu
        rcases List.mem_cons.mp hu with rfl | hu
        · exact ⟨xs.length, x, ha, by simp, h.1, rfl⟩
        · exact up u hu
      case isFalse => exact ⟨l, h1, up⟩
    · exact ⟨[], by rw [List.take_of_length_le (by simp; omega)]; rfl, by simp⟩

theorem begun_opens {xs : List Tel} {a : Nat} {x : Tel} (h : Opens xs a) (hx : xs[a]? = some x) :
    begun (xs.take (a + 1)) = x.ts :: begun (xs.take a) := by
  obtain ⟨y, hy, h1, h2⟩ := h
  rw [hx, Option.some.injEq] at hy; subst hy
  rw [List.take_add_one, hx, Option.toList, begun_snoc, if_pos ⟨h1, h2⟩]

theorem begun_mem {xs : List Tel} {u : Nat} (h : u ∈ begun xs) : ∃ x ∈ xs, Known x ∧ x.ts = u := by
  obtain ⟨l, h1, h2⟩ := begun_since xs 0
  rw [List.take_zero, show begun [] = [] from rfl, List.append_nil] at h1
  obtain ⟨k, y, _, g2, g3, g4⟩ := h2 u (h1 ▸ h)
  exact ⟨y, List.mem_of_getElem? g2, g3, g4⟩

/-! ### The list of remembered events -/

def arun (r : List EI) : List Tel → List EI × List (Option Note)
  | [] => (r, [])
  | x :: xs => ((arun (astep r x).1 xs).1, (astep r x).2 :: (arun (astep r x).1 xs).2)

theorem arun_snoc (xs : List Tel) (x : Tel) : ∀ r, arun r (xs ++ [x]) =
    ((astep (arun r xs).1 x).1, (arun r xs).2 ++ [(astep (arun r xs).1 x).2]) := by
  induction xs with
  | nil => intro r; rfl
  | cons y ys ih => intro r; simp only [List.cons_append, arun, ih]

theorem arun_length (xs : List Tel) : ∀ r, (arun r xs).2.length = xs.length := by
  induction xs with
  | nil => intro r; rfl
  | cons y ys ih => intro r; simp only [arun, List.length_cons, ih]

theorem table_known {x : Tel} {d : UInt8} (h : table[x.ev]? = some d) : Known x :=
  (List.getElem?_eq_some_iff.mp h).1

theorem table_of_known {x : Tel} (h : Known x) : ∃ d, table[x.ev]? = some d :=
  ⟨_, List.getElem?_eq_getElem h⟩

theorem table_inj {i j : Nat} {d : UInt8} (h : table[i]? = some d) (g : table[j]? = some d) : i = j := by
  obtain ⟨h1, h2⟩ := List.getElem?_eq_some_iff.mp h
  obtain ⟨g1, g2⟩ := List.getElem?_eq_some_iff.mp g
  have nd : table.Nodup := by decide
  exact (nd.getElem_inj_iff (hi := h1) (hj := g1)).mp (h2.trans g2.symm)

/-- A remembered event begun by packet `a`. -/
structure Ent (xs : List Tel) (a : Nat) (e : EI) : Prop where
  opens : Opens xs a
  start : ∃ y, xs[a]? = some y ∧ y.ts = e.ts ∧ table[y.ev]? = e.digit
  latest : ∀ k, a < k → ∀ y, xs[k]? = some y → y.ts = e.ts → ¬ Opens xs k
  wait : e.pending = true → ∀ k, a < k → ∀ y, xs[k]? = some y → y.ts = e.ts → table[y.ev]? = e.digit → y.fin = false
  done : e.pending = false → ∃ k, a < k ∧ ∃ y, xs[k]? = some y ∧ y.ts = e.ts ∧ table[y.ev]? = e.digit ∧ y.fin = true
  some' : e.pending = true → ∃ k y, a ≤ k ∧ k < xs.length ∧ xs[k]? = some y ∧ y.ts = e.ts ∧ table[y.ev]? = e.digit ∧ y.dur = e.dur
  upper : e.pending = true → ∀ k y, a ≤ k → xs[k]? = some y → y.ts = e.ts → table[y.ev]? = e.digit → y.dur ≤ e.dur

theorem get_snoc {α : Type} {xs : List α} {x y : α} {k : Nat} (h : (xs ++ [x])[k]? = some y) :
    xs[k]? = some y ∨ (k = xs.length ∧ y = x) := by
  rcases Nat.lt_trichotomy k xs.length with h' | h' | h'
  · rw [List.getElem?_append_left h'] at h; exact .inl h
  · subst h'; rw [List.getElem?_append_right (le_refl _)] at h; simp at h; exact .inr ⟨rfl, h.symm⟩
  · rw [List.getElem?_append_right (by omega), List.getElem?_eq_none (by simp; omega)] at h; simp at h

theorem get_left {α : Type} {xs : List α} {x y : α} {k : Nat} (h : xs[k]? = some y) : (xs ++ [x])[k]? = some y := by
  rw [List.getElem?_append_left (List.getElem?_eq_some_iff.mp h).1]; exact h

/-- A packet that neither begins an event nor belongs to `e` as far as it matters. -/
theorem Ent.skip {xs : List Tel} {a : Nat} {e : EI} (h : Ent xs a e) {x : Tel} (ho : x.ts = e.ts → ¬ Opens (xs ++ [x]) xs.length)
    (hx : e.pending = true → x.ts = e.ts → table[x.ev]? ≠ e.digit) : Ent (xs ++ [x]) a e where
  opens := (opens_snoc (opens_lt h.opens)).2 h.opens
  start := by obtain ⟨y, h1, h2⟩ := h.start; exact ⟨y, get_left h1, h2⟩
  latest := by
    intro k hk y hy ht
    rcases get_snoc hy with hy | ⟨rfl, rfl⟩
    · rw [opens_snoc (List.getElem?_eq_some_iff.mp hy).1]; exact h.latest k hk y hy ht
    · exact ho ht
  wait := by
    intro hp k hk y hy ht hd
    rcases get_snoc hy with hy | ⟨rfl, rfl⟩
    · exact h.wait hp k hk y hy ht hd
    · exact absurd hd (hx hp ht)
  done := by
    intro hp
    obtain ⟨k, hk, y, hy, r⟩ := h.done hp
    exact ⟨k, hk, y, get_left hy, r⟩
  some' := by
    intro hp
    obtain ⟨k, y, h1, h2, h3, r⟩ := h.some' hp
    exact ⟨k, y, h1, by simp; omega, get_left h3, r⟩
  upper := by
    intro hp k y hk hy ht hd
    rcases get_snoc hy with hy | ⟨rfl, rfl⟩
    · exact h.upper hp k y hk hy ht hd
    · exact absurd hd (hx hp ht)

/-- A packet of the event. -/
theorem Ent.more {xs : List Tel} {a : Nat} {e : EI} (h : Ent xs a e) {x : Tel} (ho : ¬ Opens (xs ++ [x]) xs.length)
    (hp : e.pending = true) (ht : x.ts = e.ts) (hd : table[x.ev]? = e.digit) :
    Ent (xs ++ [x]) a (e.fed x) where
  opens := (opens_snoc (opens_lt h.opens)).2 h.opens
  start := by obtain ⟨y, h1, h2⟩ := h.start; exact ⟨y, get_left h1, h2⟩
  latest := by
    intro k hk y hy ht
    rcases get_snoc hy with hy | ⟨rfl, rfl⟩
    · rw [opens_snoc (List.getElem?_eq_some_iff.mp hy).1]; exact h.latest k hk y hy ht
    · exact ho
  wait := by
    intro hf k hk y hy ht hd
    rcases get_snoc hy with hy | ⟨rfl, rfl⟩
    · exact h.wait hp k hk y hy ht hd
    · simpa [EI.fed] using hf
  done := by
    intro hf
    exact ⟨xs.length, opens_lt h.opens, x, by simp, ht, hd, by simpa [EI.fed] using hf⟩
  some' := by
    intro _
    obtain ⟨k, y, h1, h2, h3, h4, h5, h6⟩ := h.some' hp
    by_cases hm : x.dur ≤ e.dur
    · exact ⟨k, y, h1, by simp; omega, get_left h3, h4, h5, by change _ = max e.dur x.dur; rw [Nat.max_eq_left hm]; exact h6⟩
    · refine ⟨xs.length, x, Nat.le_of_lt (opens_lt h.opens), by simp, by simp, ht, hd, ?_⟩
      change _ = max e.dur x.dur
      rw [Nat.max_eq_right (by omega)]
  upper := by
    intro _ k y hk hy ht hd
    change _ ≤ max e.dur x.dur
    rcases get_snoc hy with hy | ⟨rfl, rfl⟩
    · exact Nat.le_trans (h.upper hp k y hk hy ht hd) (Nat.le_max_left _ _)
    · exact Nat.le_max_right _ _

/-- What is remembered after the packets `xs`. -/
def Mem (xs : List Tel) (r : List EI) : Prop :=
  ∃ g : List (Nat × EI), g.map (·.2) = r ∧ g.map (fun p => p.2.ts) = (begun xs).take 4 ∧ ∀ p ∈ g, Ent xs p.1 p.2

theorem find_of {g : List (Nat × EI)} {t : Nat} (h : ((g.map (·.2)).find? fun e => decide (e.ts = t)) = none) :
    t ∉ g.map (fun p => p.2.ts) := by
  intro hm
  obtain ⟨p, hp, rfl⟩ := List.mem_map.mp hm
  have := List.find?_eq_none.mp h p.2 (List.mem_map.mpr ⟨p, hp, rfl⟩)
  simp at this

theorem amod_map (t : Nat) (f : EI → EI) : ∀ g : List (Nat × EI), (g.map (fun p => p.2.ts)).Nodup →
    (g.map fun p => (p.1, if p.2.ts = t then f p.2 else p.2)).map (·.2) = amod t f (g.map (·.2))
  | [], _ => rfl
  | p :: g, h => by
    rw [List.map_cons, List.nodup_cons] at h
    simp only [List.map_cons, amod]
    by_cases ht : p.2.ts = t
    · rw [if_pos ht, if_pos ht]
      congr 1
      rw [List.map_map]
      apply List.map_congr_left
      intro q hq
      have : q.2.ts ≠ t := fun hh => h.1 (by rw [ht, ← hh]; exact List.mem_map.mpr ⟨q, hq, rfl⟩)
      simp [this]
    · rw [if_neg ht, if_neg ht]
      congr 1
      exact amod_map t f g h.2

theorem mem_step {xs : List Tel} {r : List EI} (h : Mem xs r) (x : Tel) : Mem (xs ++ [x]) (astep r x).1 := by
  obtain ⟨g, h1, h2, h3⟩ := h
  unfold astep
  rcases hd : table[x.ev]? with _ | d
  · have hk : ¬ Known x := fun hk => by obtain ⟨d, h⟩ := table_of_known hk; rw [hd] at h; cases h
    refine ⟨g, h1, by rw [begun_snoc, if_neg (fun h => hk h.1)]; exact h2, fun p hp => ?_⟩
    refine (h3 p hp).skip (fun _ ho => hk (opens_last.mp ho).1) (fun _ _ => ?_)
    rw [hd]
    obtain ⟨y, e1, e2, e3⟩ := (h3 p hp).start
    obtain ⟨z, e4, e5, e6⟩ := (h3 p hp).opens
    rw [e1, Option.some.injEq] at e4; subst e4
    obtain ⟨d, h⟩ := table_of_known e5
    rw [← e3, h]; simp
  simp only
  rcases hf : r.find? (fun e => decide (e.ts = x.ts)) with _ | e
  · rw [hf]
    have hn : x.ts ∉ (begun xs).take 4 := by
      rw [← h2]; exact find_of (by rw [h1]; exact hf)
    have ho : Opens (xs ++ [x]) xs.length := opens_last.mpr ⟨table_known hd, hn⟩
    refine ⟨((xs.length, ⟨true, some d, x.ts, x.dur⟩) :: g).take 4, by rw [List.map_take, List.map_cons, h1], ?_, ?_⟩
    · rw [List.map_take, List.map_cons, h2, begun_snoc, if_pos ⟨table_known hd, hn⟩]
      change x.ts :: (((begun xs).take 4).take 3) = x.ts :: ((begun xs).take 3)
      rw [List.take_take]; rfl
    · intro p hp
      rcases List.mem_cons.mp (List.mem_of_mem_take hp) with rfl | hp'
      · have hl : (xs ++ [x])[xs.length]? = some x := by simp
        have hx : ∀ k y, xs.length ≤ k → (xs ++ [x])[k]? = some y → y = x ∧ k = xs.length := by
          intro k y hk hy
          rcases get_snoc hy with hy | ⟨rfl, rfl⟩
          · have := (List.getElem?_eq_some_iff.mp hy).1; omega
          · exact ⟨rfl, rfl⟩
        exact {
          opens := ho
          start := ⟨x, hl, rfl, hd⟩
          latest := fun k hk y hy => by have := (hx k y (by change xs.length < k at hk; omega) hy).2; change xs.length < k at hk; omega
          wait := fun _ k hk y hy => by have := (hx k y (by change xs.length < k at hk; omega) hy).2; change xs.length < k at hk; omega
          done := fun h => by cases h
          some' := fun _ => ⟨xs.length, x, le_refl _, by simp, hl, rfl, hd, rfl⟩
          upper := fun _ k y hk hy _ _ => by rw [(hx k y hk hy).1] }
      · refine (h3 p hp').skip (fun ht => ?_) (fun _ ht => ?_)
        · exact absurd (by rw [ht, ← h2]; exact List.mem_map.mpr ⟨p, hp', rfl⟩) hn
        · exact absurd (by rw [ht, ← h2]; exact List.mem_map.mpr ⟨p, hp', rfl⟩) hn
  · rw [hf]
    simp only
    obtain ⟨f1, f2⟩ : e ∈ r ∧ e.ts = x.ts := ⟨List.mem_of_find?_eq_some hf, by simpa using List.find?_some hf⟩
    obtain ⟨p, hp, rfl⟩ : ∃ p ∈ g, p.2 = e := by rw [← h1] at f1; obtain ⟨p, a, b⟩ := List.mem_map.mp f1; exact ⟨p, a, b⟩
    have hin : x.ts ∈ (begun xs).take 4 := by rw [← h2, ← f2]; exact List.mem_map.mpr ⟨p, hp, rfl⟩
    have ho : ¬ Opens (xs ++ [x]) xs.length := fun h => (opens_last.mp h).2 hin
    have nd : (g.map (fun p => p.2.ts)).Nodup := by rw [h2]; exact begun_nodup xs
    have uniq : ∀ q ∈ g, q.2.ts = x.ts → q = p := by
      intro q hq ht
      exact List.inj_on_of_nodup_map nd hq hp (ht.trans f2.symm)
    have hb : begun (xs ++ [x]) = begun xs := by rw [begun_snoc, if_neg (fun h => h.2 hin)]
    by_cases hc : p.2.pending = false ∨ p.2.digit ≠ some d
    · rw [if_pos hc]
      refine ⟨g, h1, by rw [hb]; exact h2, fun q hq => (h3 q hq).skip (fun _ => ho) (fun hp' ht => ?_)⟩
      have := uniq q hq ht.symm
      subst this
      rcases hc with hc | hc
      · rw [hc] at hp'; cases hp'
      · rw [hd]; exact fun hh => hc hh.symm
    · rw [if_neg hc]
      have hp1 : p.2.pending = true := by
        cases hpp : p.2.pending with
        | true => rfl
        | false => exact absurd (.inl hpp) hc
      have hd1 : p.2.digit = some d := by
        by_contra hh; exact hc (.inr hh)
      refine ⟨g.map fun q => (q.1, if q.2.ts = x.ts then q.2.fed x else q.2), ?_, ?_, ?_⟩
      · rw [← h1]; exact amod_map _ _ g nd
      · rw [hb, ← h2, List.map_map]
        apply List.map_congr_left
        intro q _
        simp only [Function.comp]
        split <;> rfl
      · intro q hq
        obtain ⟨q', hq', rfl⟩ := List.mem_map.mp hq
        by_cases ht : q'.2.ts = x.ts
        · have := uniq q' hq' ht
          subst this
          rw [if_pos ht]
          exact (h3 q' hq').more ho hp1 f2.symm (by rw [hd, hd1])
        · rw [if_neg ht]
          exact (h3 q' hq').skip (fun hh => absurd hh.symm ht) (fun _ hh => absurd hh.symm ht)

theorem mem_run (xs : List Tel) : Mem xs (arun [] xs).1 := by
  induction xs using List.reverseRecOn with
  | nil => exact ⟨[], rfl, rfl, by simp⟩
  | append_singleton xs x ih => rw [arun_snoc]; exact mem_step ih x

/-! ### Notes -/

theorem arun_append (ys zs : List Tel) : ∀ r, (arun r (ys ++ zs)).2 = (arun r ys).2 ++ (arun (arun r ys).1 zs).2 := by
  induction ys with
  | nil => intro r; rfl
  | cons y ys ih => intro r; simp only [List.cons_append, arun, ih]

theorem note_at {xs : List Tel} {i : Nat} {x : Tel} (h : xs[i]? = some x) :
    (arun [] xs).2[i]? = some (astep (arun [] (xs.take i)).1 x).2 := by
  obtain ⟨hi, hx⟩ := List.getElem?_eq_some_iff.mp h
  have e : xs = xs.take i ++ x :: xs.drop (i + 1) := by
    rw [← hx, List.getElem_cons_drop, List.take_append_drop]
  conv => lhs; rw [e]
  rw [arun_append, List.getElem?_append_right (by rw [arun_length]; simp), arun_length]
  simp only [List.length_take, Nat.min_eq_left (Nat.le_of_lt hi), Nat.sub_self, arun, List.getElem?_cons_zero]

theorem longest_unique {xs : List Tel} {a n : Nat} {x : Tel} {d e : Nat} (h : Longest xs a n x d) (g : Longest xs a n x e) : d = e := by
  obtain ⟨⟨k, y, h1, h2, h3, h4, h5, h6⟩, hu⟩ := h
  obtain ⟨⟨k', y', g1, g2, g3, g4, g5, g6⟩, gu⟩ := g
  have := gu k y h1 h2 h3 h4 h5
  have := hu k' y' g1 g2 g3 g4 g5
  omega

theorem get_take {xs : List Tel} {i k : Nat} {y : Tel} (h : (xs.take i)[k]? = some y) : k < i ∧ xs[k]? = some y := by
  have hk : k < i := by
    by_contra hc
    rw [List.getElem?_eq_none (by simp; omega)] at h; cases h
  rw [List.getElem?_take_of_lt hk] at h
  exact ⟨hk, h⟩

theorem take_get {xs : List Tel} {i k : Nat} {y : Tel} (hk : k < i) (h : xs[k]? = some y) : (xs.take i)[k]? = some y := by
  rw [List.getElem?_take_of_lt hk]; exact h

/-- The duration after packet `i` of a pending event. -/
theorem Ent.longest {xs : List Tel} {a i : Nat} {e : EI} {x : Tel} (h : Ent (xs.take i) a e) (hx : xs[i]? = some x)
    (hp : e.pending = true) (ht : e.ts = x.ts) (hd : table[x.ev]? = e.digit) : Longest xs a (i + 1) x (max e.dur x.dur) := by
  have ha : a < i := by have := opens_lt h.opens; simp at this; omega
  obtain ⟨d, hd'⟩ : ∃ d, e.digit = some d := by
    obtain ⟨y, e1, e2, e3⟩ := h.start
    obtain ⟨z, e4, e5, e6⟩ := h.opens
    rw [e1, Option.some.injEq] at e4; subst e4
    obtain ⟨d, h⟩ := table_of_known e5
    exact ⟨d, by rw [← e3, h]⟩
  have ev : ∀ {y : Tel}, table[y.ev]? = e.digit ↔ y.ev = x.ev := by
    intro y
    constructor
    · intro hy; rw [hd'] at hy hd; exact table_inj hy hd
    · intro hy; rw [hy]; exact hd
  constructor
  · by_cases hm : x.dur ≤ e.dur
    · obtain ⟨k, y, h1, h2, h3, h4, h5, h6⟩ := h.some' hp
      obtain ⟨k1, k2⟩ := get_take h3
      exact ⟨k, y, h1, by omega, k2, h4.trans ht, ev.mp h5, by rw [Nat.max_eq_left hm]; exact h6⟩
    · exact ⟨i, x, by omega, by omega, hx, rfl, rfl, by rw [Nat.max_eq_right (by omega)]⟩
  · intro k y h1 h2 h3 h4 h5
    rcases Nat.lt_or_ge k i with hk | hk
    · exact Nat.le_trans (h.upper hp k y h1 (take_get hk h3) (h4.trans ht.symm) (ev.mpr h5)) (Nat.le_max_left _ _)
    · have : k = i := by omega
      subst this
      rw [hx, Option.some.injEq] at h3; subst h3
      exact Nat.le_max_right _ _

/-- What is reported, and when. -/
theorem exact (xs : List Tel) (i : Nat) (nt : Note) : (arun [] xs).2[i]? = some (some nt) ↔
    ∃ a x, Completes xs a i x ∧ table[x.ev]? = some nt.digit ∧ nt.vol = x.vol ∧ Longest xs a (i + 1) x nt.dur := by
  constructor
  · intro h
    have hi : i < xs.length := by
      have := (List.getElem?_eq_some_iff.mp h).1; rwa [arun_length] at this
    have hx : xs[i]? = some xs[i] := List.getElem?_eq_getElem hi
    generalize xs[i] = x at hx
    rw [note_at hx, Option.some.injEq] at h
    obtain ⟨g, h1, h2, h3⟩ := mem_run (xs.take i)
    generalize (arun [] (xs.take i)).1 = r at h h1
    unfold astep at h
    rcases hd : table[x.ev]? with _ | d
    · rw [hd] at h; cases h
    rw [hd] at h
    simp only at h
    rcases hf : r.find? (fun e => decide (e.ts = x.ts)) with _ | e
    · rw [hf] at h; cases h
    rw [hf] at h
    simp only at h
    by_cases hc : e.pending = false ∨ e.digit ≠ some d
    · rw [if_pos hc] at h; cases h
    rw [if_neg hc] at h
    by_cases hfin : x.fin = true
    · simp only [hfin, if_true, Option.some.injEq] at h
      subst h
      obtain ⟨f1, f2⟩ : e ∈ r ∧ e.ts = x.ts := ⟨List.mem_of_find?_eq_some hf, by simpa using List.find?_some hf⟩
      obtain ⟨p, hp, rfl⟩ : ∃ p ∈ g, p.2 = e := by rw [← h1] at f1; obtain ⟨p, a, b⟩ := List.mem_map.mp f1; exact ⟨p, a, b⟩
      have hE := h3 p hp
      have ha : p.1 < i := by have := opens_lt hE.opens; simp at this; omega
      have hp1 : p.2.pending = true := by
        cases hpp : p.2.pending with
        | true => rfl
        | false => exact absurd (.inl hpp) hc
      have hd1 : p.2.digit = some d := by
        by_contra hh; exact hc (.inr hh)
      refine ⟨p.1, x, ?_, hd, rfl, hE.longest hx hp1 f2 (by rw [hd, hd1])⟩
      exact {
        opens := (opens_take ha).mp hE.opens
        lt := ha
        pkt := hx
        fin := hfin
        same := by
          obtain ⟨y, e1, e2, e3⟩ := hE.start
          exact ⟨y, (get_take e1).2, e2.trans f2, table_inj (e3.trans hd1) hd⟩
        recent := by rw [← h2, ← f2]; exact List.mem_map.mpr ⟨p, hp, rfl⟩
        latest := fun k h1 h2 y h3 h4 ho =>
          hE.latest k h1 y (take_get h2 h3) (h4.trans f2.symm) ((opens_take h2).mpr ho)
        first := fun k h1 h2 y h3 h4 h5 =>
          hE.wait hp1 k h1 y (take_get h2 h3) (h4.trans f2.symm) (by rw [h5, hd, hd1]) }
    · rw [if_neg hfin] at h; cases h
  · rintro ⟨a, x, hc, hd, hv, hl⟩
    rw [note_at hc.pkt, Option.some.injEq]
    obtain ⟨g, h1, h2, h3⟩ := mem_run (xs.take i)
    generalize (arun [] (xs.take i)).1 = r at h1
    unfold astep
    rw [hd]
    simp only
    rcases hf : r.find? (fun e => decide (e.ts = x.ts)) with _ | e
    · exfalso
      have := find_of (g := g) (t := x.ts) (by rw [h1]; exact hf)
      rw [h2] at this
      exact this hc.recent
    rw [hf]; simp only
    obtain ⟨f1, f2⟩ : e ∈ r ∧ e.ts = x.ts := ⟨List.mem_of_find?_eq_some hf, by simpa using List.find?_some hf⟩
    obtain ⟨p, hp, rfl⟩ : ∃ p ∈ g, p.2 = e := by rw [← h1] at f1; obtain ⟨p, a, b⟩ := List.mem_map.mp f1; exact ⟨p, a, b⟩
    have hE := h3 p hp
    have ha : p.1 < i := by have := opens_lt hE.opens; simp at this; omega
    obtain ⟨y, e1, e2, e3⟩ := hE.start
    obtain ⟨y', s1, s2, s3⟩ := hc.same
    have hpa : p.1 = a := by
      rcases Nat.lt_trichotomy p.1 a with hh | hh | hh
      · exact absurd ((opens_take hc.lt).mpr hc.opens) (hE.latest a hh y' (take_get hc.lt s1) (s2.trans f2.symm))
      · exact hh
      · exact absurd ((opens_take ha).mp hE.opens) (hc.latest p.1 hh ha y (get_take e1).2 (e2.trans f2))
    have hdg : p.2.digit = some nt.digit := by
      have := (get_take e1).2
      rw [hpa, s1, Option.some.injEq] at this
      subst this
      rw [← e3, s3, hd]
    have hpe : p.2.pending = true := by
      cases hpp : p.2.pending with
      | true => rfl
      | false =>
        obtain ⟨k, hk, z, z1, z2, z3, z4⟩ := hE.done hpp
        obtain ⟨k1, k2⟩ := get_take z1
        have := hc.first k (by omega) k1 z k2 (z2.trans f2) (table_inj (z3.trans hdg) hd)
        rw [z4] at this; cases this
    rw [if_neg (by rintro (h | h); · rw [hpe] at h; cases h
                   · exact h hdg)]
    simp only [hc.fin, if_true]
    have := longest_unique hl (hpa ▸ hE.longest hc.pkt hpe f2 (by rw [hd, hdg]))
    rw [← this, ← hv]

end Verif.Dtmf
