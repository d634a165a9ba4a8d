import Verif.Bindaddr.Model

/-!
# C41: local listening addresses are shared, not duplicated; C60: set-up of the listening addresses
-/

namespace Verif.Bindaddr

/-! ## Invariant -/

/-- The label as it is compared. -/
def Entry.key (e : Entry) : Addr × List UInt8 := (e.addr, e.params.label.getD [])

structure Inv (r : Reg) : Prop where
  ids : ∀ e ∈ r.list, e.id < r.next
  nodup : (r.list.map (·.id)).Nodup
  keys : (r.list.map Entry.key).Nodup

theorem inv_init : Inv .init := ⟨by simp [Reg.init], by simp [Reg.init], by simp [Reg.init]⟩

theorem wanted_some {a : Addr} {p : Params} {e : Entry} : wanted a (some p) e = true ↔ e.key = (a, p.label.getD []) := by
  simp only [wanted, strMatch, Entry.key, Bool.and_eq_true, beq_iff_eq, Prod.mk.injEq]
  exact and_congr Iff.rfl eq_comm

theorem wanted_addr {a : Addr} {p : Option Params} {e : Entry} (h : wanted a p e = true) : e.addr = a := by
  simp only [wanted, Bool.and_eq_true, beq_iff_eq] at h; exact h.1

/-- What a request does: it finds an object, fails for lack of memory, or adds one. -/
theorem get_cases (r : Reg) (a : Addr) (p : Option Params) (oom : Bool) :
    (∃ e ∈ r.list, wanted a p e = true ∧ get r a p oom = (r, some e.id)) ∨
    (∀ e ∈ r.list, wanted a p e = false) ∧
      (get r a p oom = (r, none) ∧ oom = true ∨
       get r a p oom = (⟨⟨r.next, a, p.getD ⟨none, none⟩⟩ :: r.list, r.next + 1⟩, some r.next) ∧ oom = false) := by
  unfold get
  cases h : r.list.find? (wanted a p) with
  | some e =>
    exact .inl ⟨e, List.mem_of_find?_eq_some h, List.find?_some h, rfl⟩
  | none =>
    right
    refine ⟨fun e he => by simpa using List.find?_eq_none.1 h e he, ?_⟩
    cases oom
    · exact .inr ⟨rfl, rfl⟩
    · exact .inl ⟨rfl, rfl⟩

theorem get_inv {r : Reg} (h : Inv r) (a : Addr) (p : Option Params) (oom : Bool) : Inv (get r a p oom).1 := by
  rcases get_cases r a p oom with ⟨e, -, -, hg⟩ | ⟨hn, ⟨hg, -⟩ | ⟨hg, -⟩⟩
  · rw [hg]; exact h
  · rw [hg]; exact h
  · rw [hg]
    refine ⟨?_, ?_, ?_⟩
    · intro e he
      rcases List.mem_cons.1 he with rfl | he
      · exact Nat.lt_succ_self _
      · exact Nat.lt_succ_of_lt (h.ids e he)
    · simp only [List.map_cons, List.nodup_cons]
      refine ⟨?_, h.nodup⟩
      intro hm
      obtain ⟨e, he, hi⟩ := List.mem_map.1 hm
      have := h.ids e he
      omega
    · simp only [List.map_cons, List.nodup_cons]
      refine ⟨?_, h.keys⟩
      intro hm
      obtain ⟨e, he, hk⟩ := List.mem_map.1 hm
      have hf := hn e he
      cases p with
      | none =>
        simp only [Entry.key, Prod.mk.injEq] at hk
        simp [wanted, hk.1] at hf
      | some p =>
        have : wanted a (some p) e = true := wanted_some.2 (by rw [hk]; rfl)
        rw [this] at hf; cases hf

/-- The registry only grows, at its front. -/
def Grows (r r' : Reg) : Prop := ∃ new, r'.list = new ++ r.list

theorem Grows.refl (r : Reg) : Grows r r := ⟨[], rfl⟩
theorem Grows.trans {a b c : Reg} (h : Grows a b) (h' : Grows b c) : Grows a c := by
  obtain ⟨x, hx⟩ := h; obtain ⟨y, hy⟩ := h'
  exact ⟨y ++ x, by rw [hy, hx, List.append_assoc]⟩

theorem get_grows (r : Reg) (a : Addr) (p : Option Params) (oom : Bool) : Grows r (get r a p oom).1 := by
  rcases get_cases r a p oom with ⟨e, -, -, hg⟩ | ⟨hn, ⟨hg, -⟩ | ⟨hg, -⟩⟩
  · rw [hg]; exact .refl r
  · rw [hg]; exact .refl r
  · rw [hg]; exact ⟨[_], rfl⟩

/-! ## C41 -/

structure SInv (s : St) : Prop where
  reg : Inv s.reg
  /-- every answer is an object with the address asked for, and with the label asked for -/
  log : ∀ x ∈ s.log, ∃ e ∈ s.reg.list, e.id = x.2.2 ∧ wanted x.1 x.2.1 e = true

theorem answer_inv {s : St} (h : SInv s) (a : Addr) (p : Option Params) (oom : Bool) : SInv (answer s a p oom) := by
  obtain ⟨new, hg⟩ := get_grows s.reg a p oom
  have hold : ∀ x ∈ s.log, ∃ e ∈ (get s.reg a p oom).1.list, e.id = x.2.2 ∧ wanted x.1 x.2.1 e = true := by
    intro x hx
    obtain ⟨e, he, h1, h2⟩ := h.log x hx
    exact ⟨e, by rw [hg]; simp [he], h1, h2⟩
  refine ⟨get_inv h.reg a p oom, ?_⟩
  unfold answer
  simp only
  rcases get_cases s.reg a p oom with ⟨e, he, hw, hq⟩ | ⟨hn, ⟨hq, -⟩ | ⟨hq, -⟩⟩
  · rw [hq] at hold ⊢
    simp only
    intro x hx
    rcases List.mem_cons.1 hx with rfl | hx
    · exact ⟨e, he, rfl, hw⟩
    · exact hold x hx
  · rw [hq] at hold ⊢
    exact hold
  · rw [hq] at hold ⊢
    simp only
    intro x hx
    rcases List.mem_cons.1 hx with rfl | hx
    · refine ⟨_, List.mem_cons_self, rfl, ?_⟩
      cases p with
      | none => simp [wanted]
      | some p => simp [wanted, strMatch]
    · exact hold x hx

theorem step_inv {s : St} (h : SInv s) (ev : Ev) : SInv (step s ev) := by
  cases ev with
  | addr2 a oom => exact answer_inv h a none oom
  | check t p =>
    simp only [step]
    split
    · exact h
    · exact ⟨h.reg, h.log⟩
  | add t a oom =>
    simp only [step]
    split
    · exact h
    · cases a with
      | none => exact ⟨h.reg, h.log⟩
      | some a =>
        exact answer_inv (s := { s with pend := fun u => if u = t then none else s.pend u }) ⟨h.reg, h.log⟩ a _ oom

theorem run_inv : ∀ (evs : List Ev) (s : St), SInv s → SInv (run s evs)
  | [], _, h => h
  | ev :: evs, s, h => run_inv evs (step s ev) (step_inv h ev)

theorem init_inv : SInv .init := ⟨inv_init, by simp [St.init]⟩

theorem step_grows (s : St) (ev : Ev) : Grows s.reg (step s ev).reg := by
  cases ev with
  | addr2 a oom => exact get_grows _ _ _ _
  | check t p => simp only [step]; split <;> exact .refl _
  | add t a oom =>
    simp only [step]
    split
    · exact .refl _
    · cases a with
      | none => exact .refl _
      | some a => exact get_grows _ _ _ _

theorem run_grows : ∀ (evs : List Ev) (s : St), Grows s.reg (run s evs).reg
  | [], _ => .refl _
  | ev :: evs, s => (step_grows s ev).trans (run_grows evs (step s ev))

/-- An address object once made stays as it is, whatever the threads do. -/
theorem C41_stays (evs more : List Ev) (e : Entry) (h : e ∈ (run .init evs).reg.list) :
    e ∈ (run .init (evs ++ more)).reg.list := by
  obtain ⟨new, hn⟩ := run_grows more (run .init evs)
  have : run .init (evs ++ more) = run (run .init evs) more := by simp [run]
  rw [this, hn]
  simp [h]

/-- Every answer is an object with the address asked for, which is in the registry. -/
theorem C41_right (evs : List Ev) (a : Addr) (p : Option Params) (i : Nat) (h : (a, p, i) ∈ (run .init evs).log) :
    ∃ e ∈ (run .init evs).reg.list, e.id = i ∧ e.addr = a ∧ ∀ q, p = some q → e.params.label.getD [] = q.label.getD [] := by
  obtain ⟨e, he, hi, hw⟩ := (run_inv evs .init init_inv).log _ h
  refine ⟨e, he, hi, wanted_addr hw, ?_⟩
  rintro q rfl
  have := wanted_some.1 hw
  exact (Prod.mk.inj this).2

theorem nodup_inj {α β : Type} {f : α → β} : ∀ {l : List α}, (l.map f).Nodup → ∀ x ∈ l, ∀ y ∈ l, f x = f y → x = y
  | [], _, x, hx, _, _, _ => by cases hx
  | a :: l, h, x, hx, y, hy, hxy => by
    simp only [List.map_cons, List.nodup_cons, List.mem_map, not_exists, not_and] at h
    rcases List.mem_cons.1 hx with hx' | hx' <;> rcases List.mem_cons.1 hy with hy' | hy'
    · rw [hx', hy']
    · subst hx'; exact absurd hxy.symm (h.1 y hy')
    · subst hy'; exact absurd hxy (h.1 x hx')
    · exact nodup_inj h.2 x hx' y hy' hxy

/-- Requests that say which label they want (none is a possible answer to that): two of them get the same object
exactly if host, family and label agree — whatever happens in between and however threads interleave. -/
theorem C41_shared (evs : List Ev) (a b : Addr) (p q : Params) (i j : Nat) (h1 : (a, some p, i) ∈ (run .init evs).log)
    (h2 : (b, some q, j) ∈ (run .init evs).log) : i = j ↔ a = b ∧ p.label.getD [] = q.label.getD [] := by
  have hinv := run_inv evs .init init_inv
  obtain ⟨e, he, hi, hw⟩ := hinv.log _ h1
  obtain ⟨f, hf, hj, hv⟩ := hinv.log _ h2
  simp only at hi hw hj hv
  rw [wanted_some] at hw hv
  constructor
  · rintro rfl
    have := nodup_inj hinv.reg.nodup e he f hf (by rw [hi, hj])
    subst this
    rw [hw] at hv
    exact Prod.mk.inj hv
  · rintro ⟨rfl, hl⟩
    have : e = f := nodup_inj hinv.reg.keys e he f hf (by rw [hw, hv, hl])
    rw [← hi, ← hj, this]

/-- Such requests are made: three threads, two of them for the same host and label. -/
example : (run .init [.check 0 (some ⟨none, none⟩), .check 1 (some ⟨none, none⟩), .check 2 (some ⟨some [65], none⟩),
    .add 1 (some ⟨false, 1⟩) false, .add 2 (some ⟨false, 1⟩) false, .add 0 (some ⟨false, 1⟩) false]).log =
    [(⟨false, 1⟩, some ⟨none, none⟩, 0), (⟨false, 1⟩, some ⟨some [65], none⟩, 1), (⟨false, 1⟩, some ⟨none, none⟩, 0)] := by
  decide +kernel

/-- Requests for different addresses get different objects, whatever else they say. -/
theorem C41_distinct (evs : List Ev) (a b : Addr) (p q : Option Params) (i j : Nat) (h1 : (a, p, i) ∈ (run .init evs).log)
    (h2 : (b, q, j) ∈ (run .init evs).log) (hab : a ≠ b) : i ≠ j := by
  have hinv := run_inv evs .init init_inv
  obtain ⟨e, he, hi, hw⟩ := hinv.log _ h1
  obtain ⟨f, hf, hj, hv⟩ := hinv.log _ h2
  rintro rfl
  have := nodup_inj hinv.reg.nodup e he f hf (by rw [hi, hj])
  subst this
  exact hab ((wanted_addr hw).symm.trans (wanted_addr hv))

/-- Requests that do not name a label get the newest object for the address.  They get the same one again as long as
nobody asks for an address with parameters (which the server does at start-up only). -/
def Quiet : Ev → Prop
  | .addr2 _ _ => True
  | .check _ p => p = none
  | .add _ _ _ => True

/-- Only requests without parameters are under way. -/
def QuietSt (s : St) : Prop := ∀ t p, s.pend t = some p → p = none

theorem find_new {a : Addr} {r : Reg} {e : Entry} {b : Addr} {oom : Bool} (h : r.list.find? (wanted a none) = some e) :
    (get r b none oom).1.list.find? (wanted a none) = some e := by
  rcases get_cases r b none oom with ⟨e', -, -, hg⟩ | ⟨hn, ⟨hg, -⟩ | ⟨hg, -⟩⟩
  · rw [hg]; exact h
  · rw [hg]; exact h
  · rw [hg]
    simp only
    rw [List.find?_cons]
    have hne : b ≠ a := by
      rintro rfl
      have := hn e (List.mem_of_find?_eq_some h)
      rw [List.find?_some h] at this
      cases this
    have : wanted a none ⟨r.next, b, ⟨none, none⟩⟩ = false := by simp [wanted, hne]
    simp only [Option.getD_none]
    rw [this]
    exact h

theorem quiet_run (a : Addr) (e : Entry) : ∀ (evs : List Ev) (s : St), QuietSt s → (∀ ev ∈ evs, Quiet ev) →
    s.reg.list.find? (wanted a none) = some e → (run s evs).reg.list.find? (wanted a none) = some e
  | [], _, _, _, h => h
  | ev :: evs, s, hq, hev, h => by
    have h1 := hev ev (by simp)
    refine quiet_run a e evs (step s ev) ?_ (fun x hx => hev x (by simp [hx])) ?_
    · cases ev with
      | addr2 b oom => exact hq
      | check t p =>
        simp only [step]
        split
        · exact hq
        · intro u q hu
          simp only at hu
          split at hu
          · cases hu; exact h1
          · exact hq u q hu
      | add t b oom =>
        simp only [step]
        split
        · exact hq
        · have : QuietSt { s with pend := fun u => if u = t then none else s.pend u } := by
            intro u q hu
            simp only at hu
            split at hu
            · cases hu
            · exact hq u q hu
          cases b with
          | none => exact this
          | some b => exact this
    · cases ev with
      | addr2 b oom => exact find_new h
      | check t p => simp only [step]; split <;> exact h
      | add t b oom =>
        simp only [step]
        split
        · exact h
        · rename_i p hp
          have := hq t p hp
          subst this
          cases b with
          | none => exact h
          | some b => exact find_new h

/-- After start-up: an address once requested keeps its object. -/
theorem C41_unlabelled_partial (setup evs : List Ev) (hq : QuietSt (run .init setup)) (hev : ∀ ev ∈ evs, Quiet ev) (a : Addr)
    (oom oom' : Bool) (i : Nat) (h : (get (run .init setup).reg a none oom).2 = some i) :
    (get (run (step (run .init setup) (.addr2 a oom)) evs).reg a none oom').2 = some i := by
  have hf : ∃ e, e.id = i ∧ (step (run .init setup) (.addr2 a oom)).reg.list.find? (wanted a none) = some e := by
    show ∃ e, e.id = i ∧ (get (run .init setup).reg a none oom).1.list.find? (wanted a none) = some e
    unfold get at h ⊢
    cases hff : (run .init setup).reg.list.find? (wanted a none) with
    | some e => rw [hff] at h; exact ⟨e, by simpa using h, hff⟩
    | none =>
      rw [hff] at h
      cases oom with
      | true => simp at h
      | false =>
        simp at h
        refine ⟨⟨(run .init setup).reg.next, a, ⟨none, none⟩⟩, h, ?_⟩
        simp [wanted]
  obtain ⟨e, rfl, hfe⟩ := hf
  have := quiet_run a e evs (step (run .init setup) (.addr2 a oom)) hq hev hfe
  unfold get
  rw [this]

/-- Without that restriction it is false: a labelled object made for the same address takes over. -/
theorem C41_unlabelled_counterexample :
    (run .init [.addr2 ⟨false, 1⟩ false, .check 0 (some ⟨some [65], none⟩), .add 0 (some ⟨false, 1⟩) false,
      .addr2 ⟨false, 1⟩ false]).log.map (fun x => (x.1, x.2.2)) = [(⟨false, 1⟩, 1), (⟨false, 1⟩, 1), (⟨false, 1⟩, 0)] ∧
    (run .init [.addr2 ⟨false, 1⟩ false, .check 0 (some ⟨some [65], none⟩), .add 0 (some ⟨false, 1⟩) false,
      .addr2 ⟨false, 1⟩ false]).log.map (fun x => x.2.1) = [none, some ⟨some [65], none⟩, none] := by decide +kernel

/-! ### Labels -/

/-- A label designates at most one object. -/
def LabelsOnce (r : Reg) : Prop :=
  ∀ e ∈ r.list, ∀ f ∈ r.list, ∀ l, e.params.label = some l → f.params.label = some l → e = f

theorem label2_none {r : Reg} {l : List UInt8} (h : label2 r l = none) : ∀ e ∈ r.list, e.params.label ≠ some l := by
  intro e he hl
  unfold label2 at h
  simp only [Option.map_eq_none_iff, List.find?_eq_none] at h
  have := h e he
  rw [hl] at this
  simp at this

theorem host2_labels {r : Reg} (h : LabelsOnce r) (a : Option Addr) (p : Option Params) (oom : Bool) :
    LabelsOnce (host2 r a p oom).1 := by
  unfold host2
  split
  · exact h
  · rename_i ht
    cases a with
    | none => exact h
    | some a =>
      simp only
      rcases get_cases r a p oom with ⟨e, -, -, hg⟩ | ⟨hn, ⟨hg, -⟩ | ⟨hg, -⟩⟩
      · rw [hg]; exact h
      · rw [hg]; exact h
      · rw [hg]
        have hfresh : ∀ e ∈ r.list, ∀ l, (p.getD ⟨none, none⟩).label = some l → e.params.label ≠ some l := by
          intro e he l hl
          cases p with
          | none => cases hl
          | some p =>
            simp only [Option.getD_some] at hl
            simp only [labelTaken, hl] at ht
            exact label2_none (by simpa using ht) e he
        intro e he f hf l h1 h2
        rcases List.mem_cons.1 he with rfl | he <;> rcases List.mem_cons.1 hf with rfl | hf
        · rfl
        · exact absurd h2 (hfresh f hf l h1)
        · exact absurd h1 (hfresh e he l h2)
        · exact h e he f hf l h1 h2

/-- Whole calls, one after the other. -/
inductive Op where
  | addr2 (a : Addr) (oom : Bool)
  | host2 (a : Option Addr) (p : Option Params) (oom : Bool)

def opStep (r : Reg) : Op → Reg
  | .addr2 a oom => (get r a none oom).1
  | .host2 a p oom => (host2 r a p oom).1

theorem addr2_labels {r : Reg} (h : LabelsOnce r) (a : Addr) (oom : Bool) : LabelsOnce (get r a none oom).1 := by
  have := host2_labels h (some a) none oom
  simpa [host2, labelTaken] using this

/-- When registrations with labels do not overlap (the server makes them at start-up, one after the other), a label
designates at most one host, and looking it up finds that one. -/
theorem C41_labels_partial (ops : List Op) (l : List UInt8) : LabelsOnce (ops.foldl opStep .init) ∧
    ∀ e ∈ (ops.foldl opStep .init).list, e.params.label = some l → label2 (ops.foldl opStep .init) l = some e.id := by
  have key : ∀ (ops : List Op) (r : Reg), LabelsOnce r → LabelsOnce (ops.foldl opStep r) := by
    intro ops
    induction ops with
    | nil => intro r h; exact h
    | cons o ops ih =>
      intro r h
      refine ih _ ?_
      cases o with
      | addr2 a oom => exact addr2_labels h a oom
      | host2 a p oom => exact host2_labels h a p oom
  have hl := key ops .init (by intro e he; simp [Reg.init] at he)
  refine ⟨hl, ?_⟩
  intro e he hle
  unfold label2
  cases hf : (ops.foldl opStep .init).list.find? (fun e => match e.params.label with | none => false | some m => m == l) with
  | none =>
    have := List.find?_eq_none.1 hf e he
    rw [hle] at this
    simp at this
  | some f =>
    have h1 := List.find?_some hf
    have h2 := List.mem_of_find?_eq_some hf
    have : f.params.label = some l := by
      cases hfl : f.params.label with
      | none => rw [hfl] at h1; cases h1
      | some m => rw [hfl] at h1; simp at h1; rw [h1]
    simp [hl e he f h2 l hle this]

/-- Overlapping registrations can give one label to two hosts: the check and the insertion are not one step. -/
theorem C41_labels_counterexample :
    (run .init [.check 0 (some ⟨some [65], none⟩), .check 1 (some ⟨some [65], none⟩), .add 0 (some ⟨false, 1⟩) false,
      .add 1 (some ⟨false, 2⟩) false]).reg.list =
    [⟨1, ⟨false, 2⟩, ⟨some [65], none⟩⟩, ⟨0, ⟨false, 1⟩, ⟨some [65], none⟩⟩] := by decide +kernel

/-- The newest object of the family is what `foraf` finds; it fails only if there is none. -/
theorem C41_foraf (r : Reg) (v6 : Bool) : (∀ i, foraf r v6 = some i → ∃ e ∈ r.list, e.id = i ∧ e.addr.v6 = v6) ∧
    (foraf r v6 = none → ∀ e ∈ r.list, e.addr.v6 ≠ v6) := by
  unfold foraf
  constructor
  · intro i h
    obtain ⟨e, he, rfl⟩ := Option.map_eq_some_iff.1 h
    exact ⟨e, List.mem_of_find?_eq_some he, rfl, by simpa using List.find?_some he⟩
  · intro h e he
    simp only [Option.map_eq_none_iff, List.find?_eq_none] at h
    simpa using h e he

/-! ## C60: set-up -/

theorem labelled_ok (rs : Resolver) : ∀ (bs : List Barg) (r : Reg) (c : Cfg) (r' : Reg) (c' : Cfg),
    labelled rs bs r c = some (r', c') → (c.b0.isSome = true → c'.b0 = c.b0) ∧ c'.b1 = c.b1 ∧ c'.bmode = c.bmode ∧
      ((∃ b ∈ bs, b.h.isSome = true) → c'.b0.isSome = true)
  | [], r, c, r', c', h => by
    simp only [labelled, Option.some.injEq, Prod.mk.injEq] at h
    obtain ⟨-, rfl⟩ := h
    simp
  | b :: bs, r, c, r', c', h => by
    rw [labelled] at h
    cases hh : b.h with
    | none =>
      rw [hh] at h
      obtain ⟨h1, h2, h3, h4⟩ := labelled_ok rs bs r c r' c' h
      refine ⟨h1, h2, h3, ?_⟩
      rintro ⟨b', hb', hs⟩
      rcases List.mem_cons.1 hb' with rfl | hb'
      · rw [hh] at hs; cases hs
      · exact h4 ⟨b', hb', hs⟩
    | some hst =>
      rw [hh] at h
      simp only at h
      split at h
      · cases h
      · split at h
        · cases h
        · cases hg : (host2 r (rs hst b.v6) (some b.params) false).2 with
          | none => rw [hg] at h; cases h
          | some i =>
            rw [hg] at h
            simp only at h
            obtain ⟨h1, h2, h3, h4⟩ := labelled_ok rs bs _ _ r' c' h
            have h5 := h1 (by simp only; split <;> simp_all)
            refine ⟨?_, h2, h3, ?_⟩
            · intro hc; rw [h5]; simp [hc]
            · intro _; rw [h5]; split <;> simp_all

theorem extRound_some {bs : List Barg} {ext : Option Barg} {v6 : Bool} {bs' : List Barg} {ext' : Option Barg}
    (h : extRound bs ext v6 = some (bs', ext')) :
    (bs' = bs ∧ ext' = ext) ∨ (ext = none ∧ ∃ e, ext' = some e) := by
  unfold extRound at h
  split at h
  · cases h; exact .inl ⟨rfl, rfl⟩
  · split at h
    · cases h; exact .inl ⟨rfl, rfl⟩
    · split at h
      · cases h; exact .inl ⟨rfl, rfl⟩
      · split at h
        · cases h; exact .inl ⟨rfl, rfl⟩
        · split at h
          · cases h
          · rename_i hn
            cases h
            exact .inr ⟨by simpa using hn, _, rfl⟩

theorem extLoop_none {bs bs' : List Barg}
    (h : (extRound bs none false).bind (fun x => extRound x.1 x.2 true) = some (bs', none)) : bs' = bs := by
  cases h1 : extRound bs none false with
  | none => rw [h1] at h; cases h
  | some x =>
    rw [h1] at h
    simp only [Option.bind_some] at h
    obtain ⟨b1, e1⟩ := x
    rcases extRound_some h1 with ⟨rfl, rfl⟩ | ⟨-, e, rfl⟩
    · rcases extRound_some h with ⟨rfl, -⟩ | ⟨-, e, he⟩
      · rfl
      · cases he
    · rcases extRound_some h with ⟨-, he⟩ | ⟨he, -⟩
      · cases he
      · cases he

theorem bridge_some {rs : Resolver} {ieb : Params × Params} {i e : Barg} {r r' : Reg} {c : Cfg}
    (h : bridge rs ieb i e r = some (r', c)) : c.b0.isSome = true ∧ c.b1.isSome = true ∧ c.bmode = true := by
  unfold bridge at h
  split at h
  · cases h
  · split at h
    · cases h
    · simp only at h
      split at h
      · cases h
      · split at h
        · cases h
        · split at h
          · cases h
          · cases h; exact ⟨rfl, rfl, rfl⟩

/-- The arguments as `bindarg_parse` makes them: each has a host. -/
def Given (bs : List Barg) : Prop := ∀ b ∈ bs, b.h.isSome = true

/-- The final check of the set-up never fails: the configuration is refused with a message, or there is a primary
address; there is a second one exactly in bridging mode. -/
theorem C60_setup (rs : Resolver) (ieb : Params × Params) (bs : List Barg) (hg : Given bs) (r : Reg) :
    ∃ o, initAddrs rs ieb bs r = .ok o ∧
      ∀ r' c, o = some (r', c) → c.b0.isSome = true ∧ (c.b1.isSome = true ↔ c.bmode = true) := by
  unfold initAddrs
  simp only
  split
  · cases hl : labelled rs [⟨some [42], ⟨none, none⟩, false⟩] r ⟨none, none, false⟩ with
    | none => exact ⟨none, rfl, by simp⟩
    | some x =>
      obtain ⟨r', c⟩ := x
      obtain ⟨-, h2, h3, h4⟩ := labelled_ok rs _ _ _ _ _ hl
      have := h4 ⟨_, List.mem_cons_self, rfl⟩
      simp only [this, if_true]
      refine ⟨_, rfl, ?_⟩
      intro r1 c1 he
      cases he
      exact ⟨this, by rw [h2, h3]; simp⟩
  · rename_i hne
    cases hx : (extRound bs none false).bind (fun x => extRound x.1 x.2 true) with
    | none => exact ⟨none, rfl, by simp⟩
    | some x =>
      obtain ⟨bs1, e1⟩ := x
      cases e1 with
      | none =>
        have hbs := extLoop_none hx
        subst hbs
        simp only
        cases hl : labelled rs bs1 r ⟨none, none, false⟩ with
        | none => exact ⟨none, rfl, by simp⟩
        | some x =>
          obtain ⟨r', c⟩ := x
          obtain ⟨-, h2, h3, h4⟩ := labelled_ok rs _ _ _ _ _ hl
          obtain ⟨b, hb⟩ := List.exists_mem_of_ne_nil bs1 hne
          have := h4 ⟨b, hb, hg b hb⟩
          simp only [this, if_true]
          refine ⟨_, rfl, ?_⟩
          intro r1 c1 he
          cases he
          exact ⟨this, by rw [h2, h3]; simp⟩
      | some e =>
        simp only
        split
        · exact ⟨none, rfl, by simp⟩
        · exact ⟨none, rfl, by simp⟩
        · rename_i bs2 i hi
          split
          · exact ⟨none, rfl, by simp⟩
          · rename_i r1 c1 hb
            obtain ⟨k1, k2, k3⟩ := bridge_some hb
            cases hl : labelled rs bs2 r1 c1 with
            | none => exact ⟨none, rfl, by simp⟩
            | some x =>
              obtain ⟨r', c⟩ := x
              obtain ⟨h1, h2, h3, -⟩ := labelled_ok rs _ _ _ _ _ hl
              have hb0 : c.b0.isSome = true := by rw [h1 k1]; exact k1
              simp only [hb0, if_true]
              refine ⟨_, rfl, ?_⟩
              intro r2 c2 he
              cases he
              exact ⟨hb0, by rw [h2, h3]; simp [k2, k3]⟩

theorem labelled_labels (rs : Resolver) : ∀ (bs : List Barg) (r : Reg) (c : Cfg) (r' : Reg) (c' : Cfg),
    labelled rs bs r c = some (r', c') → LabelsOnce r → LabelsOnce r'
  | [], r, c, r', c', h, hl => by
    simp only [labelled, Option.some.injEq, Prod.mk.injEq] at h
    rw [← h.1]; exact hl
  | b :: bs, r, c, r', c', h, hl => by
    rw [labelled] at h
    cases hh : b.h with
    | none => rw [hh] at h; exact labelled_labels rs bs r c r' c' h hl
    | some hst =>
      rw [hh] at h
      simp only at h
      split at h
      · cases h
      · split at h
        · cases h
        · split at h
          · cases h
          · exact labelled_labels rs bs _ _ r' c' h (host2_labels hl _ _ _)

/-- After a successful set-up a label designates at most one address. -/
theorem C60_labels (rs : Resolver) (ieb : Params × Params) (bs : List Barg) (r' : Reg) (c : Cfg)
    (h : initAddrs rs ieb bs .init = .ok (some (r', c))) : LabelsOnce r' := by
  have h0 : LabelsOnce .init := by intro e he; simp [Reg.init] at he
  have fin : ∀ x : Option (Reg × Cfg), (match x with
      | none => .ok none
      | some (r, c) => if c.b0.isSome then .ok (some (r, c)) else .error .abort : Except Fault (Option (Reg × Cfg))) = .ok (some (r', c)) →
      x = some (r', c) := by
    intro x hx
    cases x with
    | none => cases hx
    | some y =>
      obtain ⟨a, b⟩ := y
      simp only at hx
      split at hx
      · cases hx; rfl
      · cases hx
  unfold initAddrs at h
  simp only at h
  split at h
  · exact labelled_labels rs _ _ _ _ _ (fin _ h) h0
  · split at h
    · cases h
    · exact labelled_labels rs _ _ _ _ _ (fin _ h) h0
    · split at h
      · cases h
      · cases h
      · split at h
        · cases h
        · rename_i r1 c1 hb
          refine labelled_labels rs _ _ _ _ _ (fin _ h) ?_
          unfold bridge at hb
          split at hb
          · cases hb
          · split at hb
            · cases hb
            · simp only at hb
              split at hb
              · cases hb
              · split at hb
                · cases hb
                · split at hb
                  · cases hb
                  · cases hb
                    exact host2_labels (host2_labels h0 _ _ _) _ _ _

/-- What a granted request has found. -/
theorem host2_some {r : Reg} {a : Option Addr} {p : Option Params} {oom : Bool} {i : Nat} (h : (host2 r a p oom).2 = some i) :
    ∃ x, a = some x ∧ ∃ e ∈ (host2 r a p oom).1.list, e.id = i ∧ wanted x p e = true := by
  unfold host2 at h ⊢
  split at h
  · cases h
  · rename_i ht
    rw [if_neg ht]
    cases a with
    | none => cases h
    | some a =>
      simp only at h ⊢
      refine ⟨a, rfl, ?_⟩
      rcases get_cases r a p oom with ⟨e, he, hw, hg⟩ | ⟨hn, ⟨hg, -⟩ | ⟨hg, -⟩⟩
      · rw [hg] at h ⊢
        cases h
        exact ⟨e, he, rfl, hw⟩
      · rw [hg] at h; cases h
      · rw [hg] at h ⊢
        cases h
        refine ⟨_, List.mem_cons_self, rfl, ?_⟩
        cases p <;> simp [wanted, strMatch]

/-- The two halves of `host2bindaddr` with nothing in between are `host2`. -/
theorem C41_host2_events (s : St) (t : Nat) (a : Option Addr) (p : Option Params) (oom : Bool) (hp : s.pend t = none) :
    (run s [.check t p, .add t a oom]).reg = (host2 s.reg a p oom).1 := by
  simp only [run, List.foldl, host2]
  cases ht : labelTaken s.reg p with
  | true => simp [step, ht, hp]
  | false =>
    cases a with
    | none => simp [step, ht]
    | some a => simp [step, ht, answer]

theorem host2_grows (r : Reg) (a : Option Addr) (p : Option Params) (oom : Bool) : Grows r (host2 r a p oom).1 := by
  unfold host2
  split
  · exact .refl _
  · cases a with
    | none => exact .refl _
    | some a => exact get_grows _ _ _ _

theorem slash_mk {x y : List UInt8} (hx : (47 : UInt8) ∉ x) : slash (x ++ 47 :: y) = some (x, y) := by
  have ht : (x ++ 47 :: y).takeWhile (· != 47) = x := by
    rw [List.takeWhile_append_of_pos (by intro b hb; simp; rintro rfl; exact hx hb)]
    simp
  have hd : (x ++ 47 :: y).dropWhile (· != 47) = 47 :: y := by
    rw [List.dropWhile_append_of_pos (by intro b hb; simp; rintro rfl; exact hx hb)]
    simp
  simp [slash, ht, hd]

/-- One argument `internal/external`: if it is accepted, the primary address is that of the internal host, the second
one that of the external host; it is accepted if the hosts resolve and the advertised addresses are both or neither
given. -/
theorem C60_bridging (rs : Resolver) (ieb : Params × Params) (x y : List UInt8) (v6 : Bool) (hx : (47 : UInt8) ∉ x) (hne : x ≠ [])
    (hl : ieb.1.label = none ∧ ieb.2.label = none) (ha : ieb.1.adv.isSome = true → ieb.2.adv.isSome = true) (ax ay : Addr)
    (hrx : rs x v6 = some ax) (hry : rs y v6 = some ay) :
    ∃ r' b0 b1, initAddrs rs ieb [⟨some (x ++ 47 :: y), ⟨none, none⟩, v6⟩] .init = .ok (some (r', ⟨some b0, some b1, true⟩)) ∧
      (∃ e ∈ r'.list, e.id = b0 ∧ e.addr = ax) ∧ (∃ e ∈ r'.list, e.id = b1 ∧ e.addr = ay) := by
  have hb : bridge rs ieb ⟨some x, ⟨none, none⟩, v6⟩ ⟨some y, ⟨none, none⟩, v6⟩ .init =
      let g := host2 .init (some ax) (some ieb.1) false
      let g' := host2 g.1 (some ay) (some ieb.2) false
      g.2.bind (fun b0 => g'.2.map (fun b1 => (g'.1, ⟨some b0, some b1, true⟩))) := by
    unfold bridge
    have : (ieb.1.adv.isSome && ieb.2.adv.isNone) = false := by
      cases h1 : ieb.1.adv <;> cases h2 : ieb.2.adv <;> simp_all
    simp only [this, Option.getD_some, hrx, hry]
    cases (host2 .init (some ax) (some ieb.1) false).2 with
    | none => simp
    | some b0 =>
      cases h2 : (host2 (host2 .init (some ax) (some ieb.1) false).1 (some ay) (some ieb.2) false).2 <;> simp
  have hs : ∀ r a p, p.label = none → ∃ i, (host2 r (some a) (some p) false).2 = some i := by
    intro r a p hpl
    have : labelTaken r (some p) = false := by simp [labelTaken, hpl]
    unfold host2
    rw [this]
    simp only [Bool.false_eq_true, if_false]
    rcases get_cases r a (some p) false with ⟨e, -, -, hg⟩ | ⟨-, ⟨-, ho⟩ | ⟨hg, -⟩⟩
    · exact ⟨_, by rw [hg]⟩
    · cases ho
    · exact ⟨_, by rw [hg]⟩
  obtain ⟨b0, h0⟩ := hs .init ax ieb.1 hl.1
  obtain ⟨b1, h1⟩ := hs (host2 .init (some ax) (some ieb.1) false).1 ay ieb.2 hl.2
  refine ⟨(host2 (host2 .init (some ax) (some ieb.1) false).1 (some ay) (some ieb.2) false).1, b0, b1, ?_, ?_, ?_⟩
  · simp only [h0, h1, Option.bind_some, Option.map_some] at hb
    cases v6 <;>
      simp [initAddrs, extRound, intRound, firstIdx, slash_mk hx, hne, List.findIdx?_cons, hb, labelled]
  · obtain ⟨a, ha', e, he, hi, hw⟩ := host2_some h0
    cases ha'
    obtain ⟨new, hg⟩ := host2_grows (host2 .init (some ax) (some ieb.1) false).1 (some ay) (some ieb.2) false
    exact ⟨e, by rw [hg]; simp [he], hi, wanted_addr hw⟩
  · obtain ⟨a, ha', e, he, hi, hw⟩ := host2_some h1
    cases ha'
    exact ⟨e, he, hi, wanted_addr hw⟩

/-- Resolver for the examples. -/
def rs0 : Resolver := fun h v6 => some ⟨v6, h.length⟩

/-- `a/bb` (bridging) and a labelled third address -/
example : (initAddrs rs0 (⟨none, none⟩, ⟨none, none⟩)
    [⟨some [97, 47, 98, 98], ⟨none, none⟩, false⟩, ⟨some [97, 97, 97], ⟨some [76], none⟩, false⟩] .init).toOption.bind (·.map (·.2)) =
    some ⟨some 0, some 1, true⟩ := by decide +kernel

/-- two addresses without label are refused -/
example : (initAddrs rs0 (⟨none, none⟩, ⟨none, none⟩)
    [⟨some [97], ⟨none, none⟩, false⟩, ⟨some [97, 97], ⟨none, none⟩, true⟩] .init).toOption = some none := by decide +kernel

end Verif.Bindaddr
