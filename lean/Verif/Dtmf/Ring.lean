import Verif.Dtmf.Model

/-!
# The ring of remembered events is a list of the four latest
-/

namespace Verif.Dtmf

/-- Change the first event with the time stamp. -/
def amod (t : Nat) (f : EI → EI) : List EI → List EI
  | [] => []
  | e :: r => if e.ts = t then f e :: r else e :: amod t f r

/-- The event after one more of its packets. -/
def EI.fed (x : Tel) (e : EI) : EI := ⟨!x.fin, e.digit, e.ts, max e.dur x.dur⟩

/-- One packet, on a list of remembered events, latest first. -/
def astep (r : List EI) (x : Tel) : List EI × Option Note :=
  match table[x.ev]? with
  | none => (r, none)
  | some d =>
    match r.find? (fun e => decide (e.ts = x.ts)) with
    | none => ((⟨true, some d, x.ts, x.dur⟩ :: r).take 4, none)
    | some e =>
      if e.pending = false ∨ e.digit ≠ some d then (r, none)
      else
        (amod x.ts (EI.fed x) r,
          if x.fin then some ⟨d, x.vol, max e.dur x.dur⟩ else none)

/-- The remembered events, latest first: `hst[next - 1]`, `hst[next - 2]`, … without the unused ones. -/
def order (s : St) : List EI :=
  match s with
  | ⟨[a, b, c, d], 0⟩ => [d, c, b, a]
  | ⟨[a, b, c, d], 1⟩ => [a, d, c, b]
  | ⟨[a, b, c, d], 2⟩ => [b, a, d, c]
  | ⟨[a, b, c, d], 3⟩ => [c, b, a, d]
  | _ => []

def used (e : EI) : Bool := e.digit.isSome

def rep (s : St) : List EI := (order s).takeWhile used

/-- Unused slots are the oldest. -/
def Packed : List EI → Prop
  | [a, b, c, d] => (used a = false → used b = false) ∧ (used b = false → used c = false) ∧ (used c = false → used d = false)
  | _ => False

def RInv (s : St) : Prop := s.hst.length = 4 ∧ s.next < 4 ∧ Packed (order s)

theorem rinv_init : RInv St.init := ⟨rfl, by decide, by simp [St.init, depth, order, Packed, used, List.replicate]⟩

theorem rep_init : rep St.init = [] := rfl

theorem shape {s : St} (h : RInv s) : ∃ a b c d, s.hst = [a, b, c, d] ∧ (s.next = 0 ∨ s.next = 1 ∨ s.next = 2 ∨ s.next = 3) := by
  obtain ⟨h, hn, _⟩ := h
  rcases hh : s.hst with _ | ⟨a, _ | ⟨b, _ | ⟨c, _ | ⟨d, _ | ⟨e, r⟩⟩⟩⟩⟩ <;> rw [hh] at h <;> simp at h
  exact ⟨a, b, c, d, rfl, by omega⟩

theorem search_unfold (s : St) (t : Nat) : search s t 1 =
    match at' s.hst (slot s.next 1) with
    | .error e => .error e
    | .ok e1 => if e1.ts = t ∧ e1.digit ≠ none then .ok (some (slot s.next 1)) else
      match at' s.hst (slot s.next 2) with
      | .error e => .error e
      | .ok e2 => if e2.ts = t ∧ e2.digit ≠ none then .ok (some (slot s.next 2)) else
        match at' s.hst (slot s.next 3) with
        | .error e => .error e
        | .ok e3 => if e3.ts = t ∧ e3.digit ≠ none then .ok (some (slot s.next 3)) else
          match at' s.hst (slot s.next 4) with
          | .error e => .error e
          | .ok e4 => if e4.ts = t ∧ e4.digit ≠ none then .ok (some (slot s.next 4)) else .ok none := by
  rw [search, dif_pos (by decide), search, dif_pos (by decide), search, dif_pos (by decide), search, dif_pos (by decide), search,
    dif_neg (by decide)]
  rfl

/-- Search in a list of four, latest first. -/
theorem find4 (a b c d : EI) (t : Nat) (hp : Packed [a, b, c, d]) :
    ([a, b, c, d].takeWhile used).find? (fun e => decide (e.ts = t)) =
      if a.ts = t ∧ a.digit ≠ none then some a else
      if b.ts = t ∧ b.digit ≠ none then some b else
      if c.ts = t ∧ c.digit ≠ none then some c else
      if d.ts = t ∧ d.digit ≠ none then some d else none := by
  obtain ⟨h1, h2, h3⟩ := hp
  have hu : ∀ e : EI, used e = false ↔ e.digit = none := by
    intro e; unfold used; cases e.digit <;> simp
  rw [hu, hu] at h1 h2 h3
  have hu' : ∀ e : EI, used e = true ↔ e.digit ≠ none := by
    intro e; unfold used; cases e.digit <;> simp
  by_cases ha : a.digit = none
  · have hb := h1 ha; have hc := h2 hb; have hd := h3 hc
    simp [List.takeWhile, (hu a).2 ha, ha, hb, hc, hd]
  by_cases hb : b.digit = none
  · have hc := h2 hb; have hd := h3 hc
    simp [List.takeWhile, (hu' a).2 ha, (hu b).2 hb, ha, hb, hc, hd]
  by_cases hc : c.digit = none
  · have hd := h3 hc
    simp [List.takeWhile, (hu' a).2 ha, (hu' b).2 hb, (hu c).2 hc, ha, hb, hc, hd, List.find?]
    by_cases h : a.ts = t <;> by_cases h' : b.ts = t <;> simp [h, h']
  by_cases hd : d.digit = none
  · simp [List.takeWhile, (hu' a).2 ha, (hu' b).2 hb, (hu' c).2 hc, (hu d).2 hd, ha, hb, hc, hd, List.find?]
    by_cases h : a.ts = t <;> by_cases h' : b.ts = t <;> by_cases h'' : c.ts = t <;> simp [h, h', h'']
  · simp [List.takeWhile, (hu' a).2 ha, (hu' b).2 hb, (hu' c).2 hc, (hu' d).2 hd, ha, hb, hc, hd, List.find?]
    by_cases h : a.ts = t <;> by_cases h' : b.ts = t <;> by_cases h'' : c.ts = t <;> by_cases h3 : d.ts = t <;>
      simp [h, h', h'', h3]

/-- The position of an event in the ring. -/
theorem order_slots {s : St} (h : RInv s) : ∃ a b c d, order s = [a, b, c, d] ∧
    at' s.hst (slot s.next 1) = .ok a ∧ at' s.hst (slot s.next 2) = .ok b ∧
    at' s.hst (slot s.next 3) = .ok c ∧ at' s.hst (slot s.next 4) = .ok d ∧
    (∀ e, order { s with hst := s.hst.set (slot s.next 1) e } = [e, b, c, d]) ∧
    (∀ e, order { s with hst := s.hst.set (slot s.next 2) e } = [a, e, c, d]) ∧
    (∀ e, order { s with hst := s.hst.set (slot s.next 3) e } = [a, b, e, d]) ∧
    (∀ e, order { s with hst := s.hst.set (slot s.next 4) e } = [a, b, c, e]) ∧
    (∀ e, order ⟨s.hst.set s.next e, if s.next + 1 = depth then 0 else s.next + 1⟩ = [e, a, b, c]) := by
  obtain ⟨a, b, c, d, e1, e2⟩ := shape h
  rcases s with ⟨hst, next⟩
  simp only at e1 e2
  subst e1
  rcases e2 with rfl | rfl | rfl | rfl
  · exact ⟨d, c, b, a, rfl, rfl, rfl, rfl, rfl, fun _ => rfl, fun _ => rfl, fun _ => rfl, fun _ => rfl, fun _ => rfl⟩
  · exact ⟨a, d, c, b, rfl, rfl, rfl, rfl, rfl, fun _ => rfl, fun _ => rfl, fun _ => rfl, fun _ => rfl, fun _ => rfl⟩
  · exact ⟨b, a, d, c, rfl, rfl, rfl, rfl, rfl, fun _ => rfl, fun _ => rfl, fun _ => rfl, fun _ => rfl, fun _ => rfl⟩
  · exact ⟨c, b, a, d, rfl, rfl, rfl, rfl, rfl, fun _ => rfl, fun _ => rfl, fun _ => rfl, fun _ => rfl, fun _ => rfl⟩

theorem used_iff (e : EI) : used e = true ↔ e.digit ≠ none := by
  unfold used; cases e.digit <;> simp

/-- A packet of a remembered event. -/
theorem carryOn_spec {s : St} (h : RInv s) {j : Nat} {e : EI} {d : UInt8} {x : Tel}
    (hj : at' s.hst j = .ok e) (hm : e.ts = x.ts)
    (hset : ∀ e', used e' = true → Packed (order { s with hst := s.hst.set j e' }) ∧ ∀ f : EI → EI, e' = f e →
      rep { s with hst := s.hst.set j e' } = amod x.ts f (rep s))
    (hn : ((order s).takeWhile used).find? (fun e => decide (e.ts = x.ts)) = some e) (hd : table[x.ev]? = some d) :
    RInv (carryOn s j e d x).1 ∧ (rep (carryOn s j e d x).1, (carryOn s j e d x).2) = astep (rep s) x := by
  unfold astep
  rw [hd]
  change _ ∧ _ = match (rep s).find? _ with | none => _ | some e => _
  rw [show (rep s).find? (fun e => decide (e.ts = x.ts)) = some e from hn]
  simp only
  unfold carryOn
  by_cases hp : e.pending = false
  · rw [if_pos (by simp [hp]), if_pos (.inl hp)]; exact ⟨h, rfl⟩
  rw [if_neg (by simpa using hp)]
  by_cases hg : some d = e.digit
  · have hg' : ¬ (e.pending = false ∨ e.digit ≠ some d) := by
      rintro (h' | h')
      · exact hp h'
      · exact h' hg.symm
    have hmax : (if e.dur < x.dur then x.dur else e.dur) = max e.dur x.dur := by
      split
      · rw [Nat.max_eq_right (by omega)]
      · rw [Nat.max_eq_left (by omega)]
    rw [if_neg (by simpa using hg), if_neg hg']
    simp only [hmax]
    cases hf : x.fin with
    | true =>
      simp only [Bool.not_true, Bool.false_eq_true, if_false, if_true]
      obtain ⟨k1, k2⟩ := hset { e with dur := max e.dur x.dur, pending := false }
        (by rw [used_iff]; change e.digit ≠ none; rw [← hg]; simp)
      refine ⟨⟨by simpa using h.1, h.2.1, k1⟩, ?_⟩
      rw [Prod.mk.injEq]
      refine ⟨k2 _ ?_, rfl⟩
      unfold EI.fed; rw [hf]; rfl
    | false =>
      simp only [Bool.not_false, Bool.false_eq_true, if_false, if_true]
      obtain ⟨k1, k2⟩ := hset { e with dur := max e.dur x.dur }
        (by rw [used_iff]; change e.digit ≠ none; rw [← hg]; simp)
      refine ⟨⟨by simpa using h.1, h.2.1, k1⟩, ?_⟩
      rw [Prod.mk.injEq]
      refine ⟨k2 _ ?_, rfl⟩
      have : e.pending = true := by simpa using hp
      unfold EI.fed; cases e; simp_all
  · rw [if_pos (by simpa using hg), if_pos (.inr (fun hh => hg hh.symm))]; exact ⟨h, rfl⟩

theorem step_spec {s : St} (h : RInv s) (x : Tel) : ∃ s' n, step s x = .ok (s', n) ∧ RInv s' ∧ (rep s', n) = astep (rep s) x := by
  unfold step
  by_cases hv : x.ev > table.length - 1
  · refine ⟨s, none, by rw [if_pos hv], h, ?_⟩
    unfold astep
    rw [List.getElem?_eq_none (by have : table.length = 18 := rfl; omega)]
  rw [if_neg hv]
  have hlt : x.ev < table.length := by have : table.length = 18 := rfl; omega
  rw [List.getElem?_eq_getElem hlt]
  simp only
  generalize hd : table[x.ev] = d
  have hd' : table[x.ev]? = some d := by rw [List.getElem?_eq_getElem hlt, hd]
  obtain ⟨a, b, c, e, ho, g1, g2, g3, g4, w1, w2, w3, w4, w5⟩ := order_slots h
  have hp : Packed [a, b, c, e] := ho ▸ h.2.2
  have hf := find4 a b c e x.ts hp
  have hs := search_unfold s x.ts
  rw [g1, g2, g3, g4] at hs
  simp only at hs
  have hrep : rep s = [a, b, c, e].takeWhile used := by unfold rep; rw [ho]
  obtain ⟨p1, p2, p3⟩ := hp
  have tr : ∀ {u v : EI}, used u = true → (used v = false → used u = false) → used v = true := by
    intro u v hu hv
    cases hh : used v with
    | true => rfl
    | false => exact absurd (hv hh) (by simp [hu])
  by_cases m1 : a.ts = x.ts ∧ a.digit ≠ none
  · rw [if_pos m1] at hs hf
    rw [hs]; simp only; rw [g1]; simp only
    refine ⟨_, _, rfl, carryOn_spec h g1 m1.1 ?_ (ho ▸ hf) hd'⟩
    intro e' he'
    have ua := (used_iff a).2 m1.2
    refine ⟨by rw [w1]; exact ⟨fun h => absurd h (by simp [he']), p2, p3⟩, fun f hff => ?_⟩
    rw [hrep]; unfold rep; rw [w1]; subst hff
    simp only [List.takeWhile, he', ua, amod, m1.1, if_true]
  rw [if_neg m1] at hs hf
  by_cases m2 : b.ts = x.ts ∧ b.digit ≠ none
  · rw [if_pos m2] at hs hf
    rw [hs]; simp only; rw [g2]; simp only
    refine ⟨_, _, rfl, carryOn_spec h g2 m2.1 ?_ (ho ▸ hf) hd'⟩
    intro e' he'
    have ub := (used_iff b).2 m2.2
    have ua := tr ub p1
    have na : a.ts ≠ x.ts := fun hh => m1 ⟨hh, (used_iff a).1 ua⟩
    refine ⟨by rw [w2]; exact ⟨fun h => absurd h (by simp [ua]), fun h => absurd h (by simp [he']), p3⟩, fun f hff => ?_⟩
    rw [hrep]; unfold rep; rw [w2]; subst hff
    simp only [List.takeWhile, he', ua, ub, amod, m2.1, na, if_true, if_false]
  rw [if_neg m2] at hs hf
  by_cases m3 : c.ts = x.ts ∧ c.digit ≠ none
  · rw [if_pos m3] at hs hf
    rw [hs]; simp only; rw [g3]; simp only
    refine ⟨_, _, rfl, carryOn_spec h g3 m3.1 ?_ (ho ▸ hf) hd'⟩
    intro e' he'
    have uc := (used_iff c).2 m3.2
    have ub := tr uc p2
    have ua := tr ub p1
    have na : a.ts ≠ x.ts := fun hh => m1 ⟨hh, (used_iff a).1 ua⟩
    have nb : b.ts ≠ x.ts := fun hh => m2 ⟨hh, (used_iff b).1 ub⟩
    refine ⟨by rw [w3]; exact ⟨p1, fun h => absurd h (by simp [ub]), fun h => absurd h (by simp [he'])⟩, fun f hff => ?_⟩
    rw [hrep]; unfold rep; rw [w3]; subst hff
    simp only [List.takeWhile, he', ua, ub, uc, amod, m3.1, na, nb, if_true, if_false]
  rw [if_neg m3] at hs hf
  by_cases m4 : e.ts = x.ts ∧ e.digit ≠ none
  · rw [if_pos m4] at hs hf
    rw [hs]; simp only; rw [g4]; simp only
    refine ⟨_, _, rfl, carryOn_spec h g4 m4.1 ?_ (ho ▸ hf) hd'⟩
    intro e' he'
    have ue := (used_iff e).2 m4.2
    have uc := tr ue p3
    have ub := tr uc p2
    have ua := tr ub p1
    have na : a.ts ≠ x.ts := fun hh => m1 ⟨hh, (used_iff a).1 ua⟩
    have nb : b.ts ≠ x.ts := fun hh => m2 ⟨hh, (used_iff b).1 ub⟩
    have nc : c.ts ≠ x.ts := fun hh => m3 ⟨hh, (used_iff c).1 uc⟩
    refine ⟨by rw [w4]; exact ⟨p1, p2, fun h => absurd h (by simp [uc])⟩, fun f hff => ?_⟩
    rw [hrep]; unfold rep; rw [w4]; subst hff
    simp only [List.takeWhile, he', ua, ub, uc, ue, amod, m4.1, na, nb, nc, if_true, if_false]
  rw [if_neg m4] at hs hf
  rw [hs]
  simp only
  unfold remember
  rw [if_pos (by rw [h.1]; exact h.2.1)]
  simp only
  refine ⟨_, _, rfl, ⟨by simpa using h.1, ?_, ?_⟩, ?_⟩
  · have := h.2.1; change (if s.next + 1 = 4 then 0 else s.next + 1) < 4; split <;> omega
  · rw [w5]; exact ⟨fun h => absurd h (by simp [used]), p1, p2⟩
  · unfold astep
    rw [hd']
    simp only
    rw [show (rep s).find? (fun e => decide (e.ts = x.ts)) = none from by rw [hrep]; exact hf]
    simp only
    rw [Prod.mk.injEq]
    refine ⟨?_, rfl⟩
    rw [hrep]; unfold rep; rw [w5]
    have un : used ⟨true, some d, x.ts, x.dur⟩ = true := rfl
    simp only [List.takeWhile, un]
    rcases ua : used a with _ | _
    · simp
    rcases ub : used b with _ | _
    · simp
    rcases uc : used c with _ | _
    · simp
    rcases ue : used e with _ | _ <;> simp

end Verif.Dtmf
