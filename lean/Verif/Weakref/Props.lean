import Verif.Hash.Purge
import Verif.Weakref.Model

set_option linter.unusedSimpArgs false

/-!
# C53: the registry is a finite map with exact empty/non-empty notifications
-/

namespace Verif.Weakref

/-! ### Specification: a list of identifier/object pairs -/

namespace Spec

variable {V : Type}

/-- Object registered under an identifier. -/
def lookup (m : List (Nat × V)) (i : Nat) : Option V :=
  (m.find? (fun p => p.1 == i)).map Prod.snd

/-- One call.  Registering an identifier twice aborts the process. A callback fires iff
it is installed and the map changed from empty to non-empty (`first`) or from non-empty
to empty (`last`).  Purging reports the number of batches of 64. -/
def step (m : List (Nat × V)) :
    Op V → Except Fault (List (Nat × V) × Out V)
  | .reg i v _ => if (lookup m i).isSome then .error .abort else .ok (m ++ [(i, v)], .ok true)
  | .unreg i => .ok (m.filter (fun p => p.1 != i), .value (lookup m i))
  | .get i => .ok (m, .value (lookup m i))
  | .length => .ok (m, .count m.length)
  | .purge => .ok ([], .count ((m.length + 63) / 64))

/-- Callbacks due for a change of contents from `m` to `m'`. -/
def events (onFirst onLast : Bool) (m m' : List (Nat × V)) : List Ev :=
  (if onFirst && m.isEmpty && !m'.isEmpty then [.first] else []) ++
  (if onLast && !m.isEmpty && m'.isEmpty then [.last] else [])

def run (onFirst onLast : Bool) (m : List (Nat × V)) :
    List (Op V) → Except Fault (List (Nat × V) × List (Out V × List Ev))
  | [] => .ok (m, [])
  | op :: ops =>
    match step m op with
    | .error e => .error e
    | .ok (m', o) =>
      match run onFirst onLast m' ops with
      | .error e => .error e
      | .ok (m'', os) => .ok (m'', (o, events onFirst onLast m m') :: os)

end Spec

/-! ### Helper lemmas -/

open Verif.Hash

variable {V : Type}

/-- Correspondence between a registry and a list of pairs. -/
def RR (hash : Nat → Nat) (w : Reg V) (m : List (Nat × V)) : Prop :=
  ∃ mm : Hash.Spec.MM Nat V, R (cfg hash) w.tbl mm ∧ m = mm.items.map (fun x => (x.key, x.val))

theorem lookup_map (l : List (Hash.Spec.Item Nat V)) (i : Nat) :
    Spec.lookup (l.map (fun x => (x.key, x.val))) i =
      (l.find? (fun x => decide (x.key = i))).map (·.val) := by
  unfold Spec.lookup
  rw [List.find?_map, Option.map_map]
  have : ((fun p : Nat × V => p.1 == i) ∘ fun x : Hash.Spec.Item Nat V => (x.key, x.val)) =
      fun x => decide (x.key = i) := by
    funext x; simp only [Function.comp]; exact (by by_cases h : x.key = i <;> simp [h])
  rw [this]
  rfl

theorem erase_map {mm : Hash.Spec.MM Nat V} (hk : (mm.items.map (·.key)).Nodup)
    (hid : (mm.items.map (·.id)).Nodup)
    {x : Hash.Spec.Item Nat V} (hx : x ∈ mm.items) :
    (Hash.Spec.erase mm x.id).items.map (fun y => (y.key, y.val)) =
      (mm.items.map (fun y => (y.key, y.val))).filter (fun p => p.1 != x.key) := by
  rw [List.filter_map]
  congr 1
  simp only [Hash.Spec.erase]
  apply List.filter_congr
  intro y hy
  simp only [Function.comp]
  have key : ∀ (g : Hash.Spec.Item Nat V → Nat) (l : List (Hash.Spec.Item Nat V)),
      (l.map g).Nodup → ∀ x ∈ l, ∀ y ∈ l, g x = g y → x = y := by
    intro g l
    induction l with
    | nil => intro _ x hx; simp at hx
    | cons a l ih =>
      intro hp x hx y hy hxy
      rw [List.map_cons, List.nodup_cons] at hp
      rw [List.mem_cons] at hx hy
      rcases hx with rfl | hx <;> rcases hy with rfl | hy
      · rfl
      · exact absurd (hxy ▸ List.mem_map_of_mem hy) hp.1
      · exact absurd (hxy.symm ▸ List.mem_map_of_mem hx) hp.1
      · exact ih hp.2 x hx y hy hxy
  by_cases h : y.key = x.key
  · have := key (·.key) _ hk y hy x hx h
    subst this; simp
  · have : y.id ≠ x.id := fun hh => h (by rw [key (·.id) _ hid y hy x hx hh])
    have e1 : (y.id != x.id) = true := by simpa using this
    have e2 : (y.key != x.key) = true := by simpa using h
    exact e1.trans e2.symm

theorem step_refines {hash : Nat → Nat} {w : Reg V} {m : List (Nat × V)} (h : RR hash w m)
    (op : Op V) :
    match Spec.step m op with
    | .error e => e = .abort ∧ step hash w op = .error .abort
    | .ok (m', o) => ∃ w', step hash w op =
        .ok (w', o, Spec.events w.onFirst w.onLast m m') ∧ RR hash w' m' ∧
        w'.onFirst = w.onFirst ∧ w'.onLast = w.onLast := by
  obtain ⟨mm, hR, rfl⟩ := h
  have hnd := hR.keys rfl
  have hsame : ∀ l : List (Nat × V), Spec.events w.onFirst w.onLast l l = [] := by
    intro l; simp only [Spec.events]; cases l.isEmpty <;> simp
  cases op with
  | reg i v memOk =>
    simp only [Spec.step, lookup_map]
    have ha := append_refines hR i v memOk
    simp only [Hash.Spec.step, cfg, Bool.true_and, if_true] at ha
    have hany : mm.items.any (fun x => decide (x.key = i)) =
        ((mm.items.find? (fun x => decide (x.key = i))).map (·.val)).isSome := by
      rw [Option.isSome_map, Bool.eq_iff_iff, List.find?_isSome, List.any_eq_true]
    cases hq : ((mm.items.find? (fun x => decide (x.key = i))).map (·.val)).isSome with
    | true =>
      rw [hq] at hany
      simp only [hany, if_true] at ha ⊢
      exact ⟨by trivial, by simp only [step, reg, cfg, ha.2]⟩
    | false =>
      rw [hq] at hany
      simp only [hany, Bool.false_eq_true, if_false] at ha ⊢
      obtain ⟨t', hd, first, a1, a2, a3⟩ := ha
      cases a2
      refine ⟨{ w with tbl := t' }, ?_, ⟨_, a3, by simp⟩, rfl, rfl⟩
      simp only [step, reg, cfg, a1, Option.isSome_some]
      congr 3
      simp only [Spec.events]
      cases hm : mm.items with
      | nil => simp
      | cons a b => simp
  | unreg i =>
    simp only [Spec.step, lookup_map]
    obtain ⟨t', v, last, mm', a1, a2, a3⟩ := removeByKey_refines hR i
    simp only [Hash.Spec.step] at a2
    cases hf : mm.items.find? (fun x => decide (x.key = i)) with
    | none =>
      rw [hf] at a2
      simp only [Except.ok.injEq, Prod.mk.injEq, Hash.Out.removed.injEq] at a2
      obtain ⟨rfl, rfl, rfl⟩ := a2
      have hfil : (mm.items.map (fun x => (x.key, x.val))).filter (fun p => p.1 != i) =
          mm.items.map (fun x => (x.key, x.val)) := by
        rw [List.filter_eq_self]
        intro p hp
        rw [List.mem_map] at hp
        obtain ⟨x, hx, rfl⟩ := hp
        rw [List.find?_eq_none] at hf
        have := hf x hx
        simpa using this
      rw [hfil]
      refine ⟨{ w with tbl := t' }, ?_, ⟨mm, a3, rfl⟩, rfl, rfl⟩
      simp only [step, unreg, a1, hsame]
      simp
    | some x =>
      rw [hf] at a2
      simp only [Except.ok.injEq, Prod.mk.injEq, Hash.Out.removed.injEq] at a2
      obtain ⟨rfl, rfl, rfl⟩ := a2
      have hx := List.mem_of_find?_eq_some hf
      have hxk : x.key = i := by simpa using List.find?_some hf
      subst hxk
      have her := erase_map hnd hR.nodupIds hx
      rw [← her]
      refine ⟨{ w with tbl := t' }, ?_, ⟨_, a3, rfl⟩, rfl, rfl⟩
      simp only [step, unreg, a1]
      congr 3
      simp only [Spec.events]
      have hne : (mm.items.map (fun x => (x.key, x.val))).isEmpty = false := by
        cases hm : mm.items with
        | nil => rw [hm] at hx; simp at hx
        | cons a b => rfl
      rw [hne]
      cases hm : (Hash.Spec.erase mm x.id).items <;> simp
  | get i =>
    simp only [Spec.step, lookup_map]
    refine ⟨w, ?_, ⟨mm, hR, rfl⟩, rfl, rfl⟩
    have := Hash.step_refines hR (.find i)
    simp only [Hash.Spec.step, Hash.step] at this
    obtain ⟨t'', e, _⟩ := this
    have e' := Except.ok.inj e
    rw [Prod.mk.injEq] at e'
    have e2 := Hash.Out.value.inj e'.2
    simp only [step, getByIdx, e2, hsame, Hash.Spec.vals]
    rw [List.head?_map, List.head?_filter]
  | length =>
    simp only [Spec.step]
    refine ⟨w, ?_, ⟨mm, hR, rfl⟩, rfl, rfl⟩
    simp only [step, length, getLength, hR.num, List.length_map, hsame]
  | purge =>
    simp only [Spec.step]
    obtain ⟨t', vs, a1, a2, a3⟩ := purge_refines (w.tbl.l1.num + 1) w.tbl mm hR
      (by rw [hR.num]; omega)
    refine ⟨{ w with tbl := t' }, ?_, ⟨_, a2, rfl⟩, rfl, rfl⟩
    simp only [step, purge, a1, List.length_map]
    congr 3
    simp only [Spec.events, purgeBatch]
    cases hm : mm.items with
    | nil => simp
    | cons a b =>
      have : (0 : Nat) < ((a :: b).length + (64 - 1)) / 64 := by
        simp only [List.length_cons]; omega
      simp [this, -List.length_cons]

theorem run_refines {hash : Nat → Nat} : ∀ (ops : List (Op V)) (w : Reg V) (m : List (Nat × V)),
    RR hash w m →
    match Spec.run w.onFirst w.onLast m ops with
    | .error e => e = .abort ∧ run hash w ops = .error .abort
    | .ok (m', os) => ∃ w', run hash w ops = .ok (w', os) ∧ RR hash w' m' ∧
        w'.onFirst = w.onFirst ∧ w'.onLast = w.onLast
  | [], w, m, h => ⟨w, rfl, h, rfl, rfl⟩
  | op :: ops, w, m, h => by
    have hs := step_refines h op
    unfold Spec.run run
    cases h1 : Spec.step m op with
    | error e =>
      rw [h1] at hs
      exact ⟨hs.1, by simp only [hs.2]⟩
    | ok r =>
      obtain ⟨m', o⟩ := r
      rw [h1] at hs
      obtain ⟨w', h2, h3, hf, hl⟩ := hs
      have ih := run_refines ops w' m' h3
      rw [hf, hl] at ih
      simp only [h2]
      cases h4 : Spec.run w.onFirst w.onLast m' ops with
      | error e =>
        rw [h4] at ih
        exact ⟨ih.1, by simp only [ih.2]⟩
      | ok r2 =>
        rw [h4] at ih
        obtain ⟨w'', h5, h6, h7, h8⟩ := ih
        exact ⟨w'', by simp only [h5], h6, h7, h8⟩

theorem RR.init (hash : Nat → Nat) (a b : Bool) : RR hash (init (V := V) a b) [] :=
  ⟨Hash.Spec.empty, R.init _, rfl⟩

/-! ### Property theorems -/

/-- **C53** For every hash function and every history of registrations, removals,
look-ups, length queries and purges, the results *and the callbacks fired* are those of
the plain map; the only abnormal end is the abort on a double registration. -/
theorem C53_registry_refines_map (hash : Nat → Nat) (onFirst onLast : Bool) (ops : List (Op V)) :
    (run hash (init onFirst onLast) ops).map Prod.snd =
      (Spec.run onFirst onLast [] ops).map Prod.snd := by
  have h := run_refines ops (init onFirst onLast) [] (RR.init hash onFirst onLast)
  have e1 : (init (V := V) onFirst onLast).onFirst = onFirst := rfl
  have e2 : (init (V := V) onFirst onLast).onLast = onLast := rfl
  rw [e1, e2] at h
  cases hs : Spec.run onFirst onLast [] ops with
  | error e => rw [hs] at h; rw [h.1, h.2]; rfl
  | ok r =>
    rw [hs] at h
    obtain ⟨w', h1, _⟩ := h
    rw [h1]; rfl

theorem reach (hash : Nat → Nat) (onFirst onLast : Bool) (ops : List (Op V)) {w : Reg V} {os}
    (hr : run hash (init onFirst onLast) ops = .ok (w, os)) :
    ∃ m, Spec.run onFirst onLast [] ops = .ok (m, os) ∧ RR hash w m ∧ w.onFirst = onFirst ∧
      w.onLast = onLast := by
  have h := run_refines ops (init onFirst onLast) [] (RR.init hash onFirst onLast)
  have e1 : (init (V := V) onFirst onLast).onFirst = onFirst := rfl
  have e2 : (init (V := V) onFirst onLast).onLast = onLast := rfl
  rw [e1, e2] at h
  cases hs : Spec.run onFirst onLast [] ops with
  | error e => rw [hs] at h; rw [h.2] at hr; cases hr
  | ok r =>
    obtain ⟨m, os'⟩ := r
    rw [hs] at h
    obtain ⟨w', h1, h2, h3, h4⟩ := h
    rw [h1] at hr
    cases hr
    exact ⟨m, rfl, h2, h3, h4⟩

/-- **C53** A purge releases every registered object exactly once and leaves the registry
empty. -/
theorem C53_purge_releases_each_once (hash : Nat → Nat) (onFirst onLast : Bool)
    (ops : List (Op V)) {w : Reg V} {os} (hr : run hash (init onFirst onLast) ops = .ok (w, os)) :
    ∃ m w' n vs ev, Spec.run onFirst onLast [] ops = .ok (m, os) ∧
      purge w = .ok (w', n, vs, ev) ∧ vs.Perm (m.map Prod.snd) ∧ length w' = 0 ∧
      ∀ i, getByIdx hash w' i = none := by
  obtain ⟨m, hs, ⟨mm, hR, rfl⟩, _, _⟩ := reach hash onFirst onLast ops hr
  obtain ⟨t', vs, a1, a2, a3⟩ := purge_refines (w.tbl.l1.num + 1) w.tbl mm hR
    (by rw [hR.num]; omega)
  refine ⟨_, { w with tbl := t' }, _, vs, _, hs, by simp only [purge, a1]; rfl, ?_, ?_, ?_⟩
  · simpa [List.map_map, Function.comp_def] using a3
  · simp only [length, getLength, a2.num]; rfl
  · intro i
    have := Hash.step_refines a2 (.find i)
    simp only [Hash.Spec.step, Hash.step] at this
    obtain ⟨t'', e, _⟩ := this
    have e' := Except.ok.inj e
    rw [Prod.mk.injEq] at e'
    exact Hash.Out.value.inj e'.2

/-- **C53** Moving an object between two registries that share the seed transfers exactly
that object: it is found in the destination and no longer in the source, every other
identifier is unaffected in both, and the callbacks fire on the corresponding transitions.
(The destination must not already hold the identifier; otherwise the process aborts.) -/
theorem C53_move_transfers (hash : Nat → Nat) (f1 l1 f2 l2 : Bool) (ops1 ops2 : List (Op V))
    {w o : Reg V} {os1 os2} (h1 : run hash (init f1 l1) ops1 = .ok (w, os1))
    (h2 : run hash (init f2 l2) ops2 = .ok (o, os2)) (suid : Nat) (memOk : Bool)
    (hfree : getByIdx hash o suid = none) :
    ∃ w' o' ev1 ev2, move hash hash w o suid memOk =
        .ok (w', o', getByIdx hash w suid, ev1, ev2) ∧
      getByIdx hash w' suid = none ∧ getByIdx hash o' suid = getByIdx hash w suid ∧
      (∀ i, i ≠ suid → getByIdx hash w' i = getByIdx hash w i ∧
        getByIdx hash o' i = getByIdx hash o i) ∧
      (ev1 = if l1 ∧ length w ≠ 0 ∧ length w' = 0 then [.last] else []) ∧
      (ev2 = if f2 ∧ length o = 0 ∧ length o' ≠ 0 then [.first] else []) := by
  obtain ⟨m, hs1, ⟨mm, hR, rfl⟩, hf1, hl1⟩ := reach hash f1 l1 ops1 h1
  obtain ⟨n, hs2, ⟨nn, hS, rfl⟩, hf2, hl2⟩ := reach hash f2 l2 ops2 h2
  have hget : ∀ (w : Reg V) (mm : Hash.Spec.MM Nat V), R (cfg hash) w.tbl mm → ∀ i,
      getByIdx hash w i = (mm.items.find? (fun x => decide (x.key = i))).map (·.val) := by
    intro w mm hR i
    have := Hash.step_refines hR (.find i)
    simp only [Hash.Spec.step, Hash.step] at this
    obtain ⟨t'', e, _⟩ := this
    have e' := Except.ok.inj e
    rw [Prod.mk.injEq] at e'
    have e2 := Hash.Out.value.inj e'.2
    simp only [getByIdx, e2, Hash.Spec.vals]
    rw [List.head?_map, List.head?_filter]
  have htr := transfer_refines hR hS rfl suid memOk
  rw [hget o nn hS] at hfree
  have hfn : nn.items.find? (fun x => decide (x.key = suid)) = none := by simpa using hfree
  have hany : nn.items.any (fun x => decide (x.key = suid)) = false := by
    rw [List.any_eq_false]
    rw [List.find?_eq_none] at hfn
    exact hfn
  cases hf : mm.items.find? (fun x => decide (x.key = suid)) with
  | none =>
    rw [hf] at htr
    refine ⟨w, o, [], [], ?_, ?_, ?_, ?_, ?_, ?_⟩
    · simp only [move, htr, hget w mm hR, hf]; simp
    · rw [hget w mm hR, hf]; rfl
    · rw [hget o nn hS, hget w mm hR, hf, hfn]
    · intro i _; exact ⟨rfl, rfl⟩
    · rw [if_neg]; rintro ⟨_, h3, h4⟩; exact h3 h4
    · rw [if_neg]; rintro ⟨_, h3, h4⟩; exact h4 h3
  | some x =>
    rw [hf] at htr
    simp only [Hash.Spec.step, cfg, Bool.true_and, hany, Bool.false_eq_true, if_false] at htr
    obtain ⟨t', u', hd, first, a1, a2, a3, a4⟩ := htr
    have hx := List.mem_of_find?_eq_some hf
    have hxk : x.key = suid := by simpa using List.find?_some hf
    subst hxk
    simp only [Hash.Out.handle.injEq] at a1
    refine ⟨{ w with tbl := t' }, { o with tbl := u' },
      if w.onLast && decide ((Hash.Spec.erase mm x.id).items = []) then [.last] else [],
      if o.onFirst && first then [.first] else [], ?_, ?_, ?_, ?_, ?_, ?_⟩
    · simp only [move, cfg, a2, hget w mm hR, hf]; simp
    · rw [hget { w with tbl := t' } _ a3]
      simp only [Option.map_eq_none_iff, List.find?_eq_none]
      intro y hy
      have hmap := erase_map (hR.keys rfl) hR.nodupIds hx
      have hy2 : (y.key, y.val) ∈ (Hash.Spec.erase mm x.id).items.map (fun y => (y.key, y.val)) :=
        List.mem_map_of_mem (f := fun y : Hash.Spec.Item Nat V => (y.key, y.val)) hy
      rw [hmap, List.mem_filter] at hy2
      simpa using hy2.2
    · rw [hget { o with tbl := u' } _ a4, hget w mm hR, hf, List.find?_append, hfn]
      simp
    · intro i hi
      rw [hget { w with tbl := t' } _ a3, hget w mm hR, hget { o with tbl := u' } _ a4, hget o nn hS]
      constructor
      · rw [← lookup_map, ← lookup_map, erase_map (hR.keys rfl) hR.nodupIds hx]
        unfold Spec.lookup
        rw [List.find?_filter]
        congr 1
        congr 1
        funext p
        by_cases hp : p.1 = i
        · simp [hp, hi]
        · simp [hp]
      · rw [List.find?_append]
        have : ¬ x.key = i := fun h => hi h.symm
        simp [this]
    · simp only [hl1, Option.isSome_some, length, getLength, hR.num, a3.num]
      have : mm.items.length ≠ 0 := by
        intro h0; rw [List.length_eq_zero_iff.1 h0] at hx; simp at hx
      cases l1 <;> simp [this]
    · simp only [hf2, Option.isSome_some, length, getLength, hS.num, a4.num, ← a1.2]
      cases f2 <;> simp

/-- The precondition of a shared seed is needed: an object moved between registries with
different seeds can no longer be found (the entry keeps its old hash). -/
theorem C53_move_needs_shared_seed :
    (do
      let (w, _, _) ← reg (fun i => i) (init false false) 5 50 true
      let (_, o, v, _, _) ← move (fun i => i) (fun i => i + 1) w (init false false) 5 true
      pure (v, getByIdx (fun i => i + 1) o 5, length o) : Except Fault _).toOption =
      some (some 50, none, 1) := by
  decide

set_option maxRecDepth 20000 in
/-- Non-vacuity: callbacks on transitions, look-up, purge. -/
example : (run (V := Nat) (fun _ => 3) (init true true)
    [.reg 1 10 true, .reg 2 20 true, .get 2, .unreg 1, .unreg 1, .purge, .length]).toOption.map
      Prod.snd =
    some [(.ok true, [.first]), (.ok true, []), (.value (some 20), []), (.value (some 10), []),
      (.value none, []), (.count 1, [.last]), (.count 0, [])] := by decide

end Verif.Weakref
