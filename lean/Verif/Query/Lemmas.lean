import Verif.Query.Spec
import Verif.Stats.Reply

/-! # Lemmas about the command `Q` -/

namespace Verif.Query

open Verif.Stats (label spaced Good spaced_snoc)
open Verif.Cmd (Rep appendf)

variable {J : Type}

/-! ## What the counters hold -/

theorem times_cons (l : Bool) (e : Ev) (h : List Ev) : times l (e :: h) = (match e with
    | .rcv l' t => if l' = l then [t] else []
    | _ => []) ++ times l h := by
  unfold times; rw [List.filterMap_cons]; cases e <;> simp; split <;> simp_all

theorem pkts_cons (l : Bool) (e : Ev) (h : List Ev) : pkts l (e :: h) = (match e with
    | .ana l' t => if l' = l then [t] else []
    | _ => []) ++ pkts l h := by
  unfold pkts; rw [List.filterMap_cons]; cases e <;> simp; split <;> simp_all

theorem run_hist (fl : Analyze.Fl J) : ∀ (h : List Ev) (s s' : St J), s.relayed < 2 ^ 64 → s.dropped < 2 ^ 64 → run fl s h = .ok s' →
    (∀ l, s'.ttl l = timer l (s.ttl l) h ∧ s'.pc l = (times l h).foldl reg (s.pc l) ∧
      Analyze.run fl (s.an l) (pkts l h) = .ok (s'.an l)) ∧
    s'.relayed = (s.relayed + relays h) % 2 ^ 64 ∧ s'.dropped = (s.dropped + drops h) % 2 ^ 64
  | [], s, s', h1, h2, hr => by
    cases hr
    refine ⟨fun l => ⟨rfl, rfl, rfl⟩, ?_, ?_⟩
    · simp only [relays, List.countP_nil, Nat.add_zero]; exact (Nat.mod_eq_of_lt h1).symm
    · simp only [drops, List.countP_nil, Nat.add_zero]; exact (Nat.mod_eq_of_lt h2).symm
  | e :: h, s, s', h1, h2, hr => by
    unfold run at hr
    cases hs : step fl s e with
    | error f => rw [hs] at hr; cases hr
    | ok s1 =>
      rw [hs] at hr
      simp only at hr
      cases e with
      | rcv leg t =>
        simp only [step] at hs; cases hs
        obtain ⟨a, b, c⟩ := run_hist fl h _ s' (by exact h1) (by exact h2) hr
        refine ⟨fun l => ?_, by simpa [relays] using b, by simpa [drops] using c⟩
        obtain ⟨a1, a2, a3⟩ := a l
        rw [times_cons, pkts_cons]
        refine ⟨by simpa [timer] using a1, ?_, by simpa using a3⟩
        rw [a2]
        by_cases hl : leg = l
        · subst hl; simp [upd]
        · have : ¬ l = leg := fun h => hl h.symm
          simp [upd, hl, this]
      | ana leg p =>
        simp only [step] at hs
        cases ha : Analyze.analyze fl (s.an leg) p with
        | error f => rw [ha] at hs; cases hs
        | ok a1 =>
          rw [ha] at hs; cases hs
          obtain ⟨a, b, c⟩ := run_hist fl h _ s' (by exact h1) (by exact h2) hr
          refine ⟨fun l => ?_, by simpa [relays] using b, by simpa [drops] using c⟩
          obtain ⟨b1, b2, b3⟩ := a l
          rw [times_cons, pkts_cons]
          refine ⟨by simpa [timer] using b1, by simpa using b2, ?_⟩
          by_cases hl : leg = l
          · subst hl
            have e : Analyze.run fl (s.an leg) (p :: pkts leg h) = Analyze.run fl a1 (pkts leg h) := by
              rw [Analyze.run, ha]
            have b3' : Analyze.run fl a1 (pkts leg h) = .ok (s'.an leg) := by simpa [upd] using b3
            simpa using e.trans b3'
          · have : ¬ l = leg := fun h => hl h.symm
            simpa [upd, hl, this] using b3
      | relay =>
        simp only [step] at hs; cases hs
        obtain ⟨a, b, c⟩ := run_hist fl h _ s' (by simp only; omega) (by exact h2) hr
        refine ⟨fun l => ?_, ?_, by simpa [drops] using c⟩
        · obtain ⟨a1, a2, a3⟩ := a l
          rw [times_cons, pkts_cons]
          exact ⟨by simpa [timer] using a1, by simpa using a2, by simpa using a3⟩
        · simp only [relays, List.countP_cons] at b ⊢
          simp; omega
      | drop =>
        simp only [step] at hs; cases hs
        obtain ⟨a, b, c⟩ := run_hist fl h _ s' (by exact h1) (by simp only; omega) hr
        refine ⟨fun l => ?_, by simpa [relays] using b, ?_⟩
        · obtain ⟨a1, a2, a3⟩ := a l
          rw [times_cons, pkts_cons]
          exact ⟨by simpa [timer] using a1, by simpa using a2, by simpa using a3⟩
        · simp only [drops, List.countP_cons] at c ⊢
          simp; omega
      | timer leg x =>
        simp only [step] at hs; cases hs
        obtain ⟨a, b, c⟩ := run_hist fl h _ s' (by exact h1) (by exact h2) hr
        refine ⟨fun l => ?_, by simpa [relays] using b, by simpa [drops] using c⟩
        obtain ⟨a1, a2, a3⟩ := a l
        rw [times_cons, pkts_cons]
        refine ⟨?_, by simpa using a2, by simpa using a3⟩
        rw [a1]
        by_cases hl : leg = l
        · subst hl; simp [upd, timer]
        · have : ¬ l = leg := fun h => hl h.symm
          simp [upd, timer, hl, this]

theorem reg_n (p : Pc) (t : Rat) : (reg p t).n = (p.n + 1) % 2 ^ 64 := by
  unfold reg; simp only; split <;> split <;> (try split) <;> rfl

theorem foldl_n : ∀ (ts : List Rat) (p : Pc), p.n < 2 ^ 64 → (ts.foldl reg p).n = (p.n + ts.length) % 2 ^ 64
  | [], p, h => by simp only [List.foldl_nil, List.length_nil, Nat.add_zero]; exact (Nat.mod_eq_of_lt h).symm
  | t :: ts, p, h => by
    rw [List.foldl_cons, foldl_n ts _ (by rw [reg_n]; omega), reg_n, List.length_cons]; omega

theorem longest_nonneg : ∀ ts : List Rat, 0 ≤ longest ts
  | [] => by simp [longest]
  | [_] => by simp [longest]
  | t :: t' :: ts => by
    rw [longest]
    exact Rat.le_trans (longest_nonneg (t' :: ts)) (by simp only [Rat.max_def]; split <;> grind)

theorem reg_later {p : Pc} {t : Rat} (h1 : p.first ≠ 0) (h2 : p.last ≤ t) :
    (reg p t).first = p.first ∧ (reg p t).last = t ∧ (reg p t).ipi = max p.ipi (t - p.last) := by
  have hf : fabs (t - p.last) = t - p.last := by unfold fabs; rw [if_neg (by grind)]
  unfold reg
  simp only [if_neg h1, hf]
  by_cases h3 : p.ipi < t - p.last
  · simp only [if_pos h3]
    by_cases h4 : p.last < t
    · simp only [if_pos h4]; simp only [Rat.max_def]; grind
    · simp only [if_neg h4]; simp only [Rat.max_def]; grind
  · simp only [if_neg h3]
    by_cases h4 : p.last < t
    · simp only [if_pos h4]; simp only [Rat.max_def]; grind
    · simp only [if_neg h4]; simp only [Rat.max_def]; grind

theorem foldl_ipi : ∀ (ts : List Rat) (p : Pc), p.first ≠ 0 → 0 ≤ p.ipi → (∀ t ∈ ts, p.last ≤ t) → ts.Pairwise (· ≤ ·) →
    (ts.foldl reg p).ipi = max p.ipi (longest (p.last :: ts))
  | [], p, _, h2, _, _ => by simp only [List.foldl_nil, longest, Rat.max_def]; grind
  | t :: ts, p, h1, h2, h3, h4 => by
    obtain ⟨a, b, c⟩ := reg_later h1 (h3 t (by simp))
    rw [List.pairwise_cons] at h4
    rw [List.foldl_cons, foldl_ipi ts (reg p t) (by rw [a]; exact h1) (by rw [c]; simp only [Rat.max_def]; grind)
      (by rw [b]; exact h4.1) h4.2, b, c, longest]
    simp only [Rat.max_def]; grind

theorem ipi_longest (ts : List Rat) (h : Sane ts) : (ts.foldl reg .zero).ipi = longest ts := by
  cases ts with
  | nil => rfl
  | cons t ts =>
    have ht := h.2 t (by simp)
    obtain ⟨h1, -⟩ := h
    rw [List.pairwise_cons] at h1
    have e : reg .zero t = ⟨1, t, t, 0⟩ := by simp [reg, Pc.zero, ht]
    rw [List.foldl_cons, e, foldl_ipi ts _ (by grind) (by simp) h1.1 h1.2]
    have := longest_nonneg (t :: ts)
    simp only [Rat.max_def]; grind

/-! ## The cache -/

/-- The text `w` is what the values pulled give for `n`. -/
def Given (v : Nat → St J) (fm : Fmt J) (c : Pull J) : Nm → List UInt8 → Prop
  | .ttl, w => ∃ k, w = Cmd.fmtD (getTtl v k)
  | .ina, w => ∃ r, c.pst = some r ∧ w = Dec.dec r.1.n
  | .ino, w => ∃ r, c.pst = some r ∧ w = Dec.dec r.2.n
  | .ipi, w => ∃ r, c.pst = some r ∧ w = fm.f r.1.ipi
  | .jlast, w => ∃ r, c.jrst = some r ∧ w = fm.jlast r
  | .jmax, w => ∃ r, c.jrst = some r ∧ w = fm.jmax r
  | .javg, w => ∃ r, c.jrst = some r ∧ w = fm.javg r
  | .rel, w => ∃ r, c.pcnt = some r ∧ w = Dec.dec r.1
  | .drp, w => ∃ r, c.pcnt = some r ∧ w = Dec.dec r.2
  | .sent, w => ∃ r, c.rst = some r ∧ w = Dec.dec r.psent
  | .rcvd, w => ∃ r, c.rst = some r ∧ w = Dec.dec r.precvd
  | .dups, w => ∃ r, c.rst = some r ∧ w = Dec.dec r.pdups
  | .lost, w => ∃ r, c.rst = some r ∧ w = Dec.dec r.plost
  | .perrs, w => ∃ r, c.rst = some r ∧ w = Dec.dec r.pecount

/-- What was pulled was read. -/
structure CI (v : Nat → St J) (idx : Bool) (c : Pull J) : Prop where
  rst : ∀ r, c.rst = some r → ∃ k, r = getRst v idx k
  jrst : ∀ r, c.jrst = some r → ∃ k, r = ((v k).an idx).jit
  pcnt : ∀ r, c.pcnt = some r → ∃ k, r = ((v k).relayed, (v (k + 1)).dropped)
  pst : ∀ r, c.pst = some r → ∃ k, r = ((v k).pc idx, (v (k + 1)).pc (!idx))

/-- Nothing pulled is given up. -/
structure Ext (c c' : Pull J) : Prop where
  rst : ∀ r, c.rst = some r → c'.rst = some r
  jrst : ∀ r, c.jrst = some r → c'.jrst = some r
  pcnt : ∀ r, c.pcnt = some r → c'.pcnt = some r
  pst : ∀ r, c.pst = some r → c'.pst = some r

theorem Ext.refl (c : Pull J) : Ext c c := ⟨fun _ h => h, fun _ h => h, fun _ h => h, fun _ h => h⟩

theorem Given.ext {v : Nat → St J} {fm : Fmt J} {c c' : Pull J} (he : Ext c c') {n w} (h : Given v fm c n w) : Given v fm c' n w := by
  cases n with
  | ttl => exact h
  | ina | ino | ipi => obtain ⟨r, h1, h2⟩ := h; exact ⟨r, he.pst r h1, h2⟩
  | jlast | jmax | javg => obtain ⟨r, h1, h2⟩ := h; exact ⟨r, he.jrst r h1, h2⟩
  | rel | drp => obtain ⟨r, h1, h2⟩ := h; exact ⟨r, he.pcnt r h1, h2⟩
  | sent | rcvd | dups | lost | perrs => obtain ⟨r, h1, h2⟩ := h; exact ⟨r, he.rst r h1, h2⟩

theorem Given.unique {v : Nat → St J} {fm : Fmt J} {c : Pull J} {n w w'} (hn : n ≠ .ttl) (h : Given v fm c n w)
    (h' : Given v fm c n w') : w = w' := by
  cases n with
  | ttl => exact absurd rfl hn
  | _ =>
    obtain ⟨r, h1, h2⟩ := h
    obtain ⟨r', h3, h4⟩ := h'
    rw [h1] at h3; cases h3
    rw [h2, h4]

theorem pullRst_spec (v : Nat → St J) (idx : Bool) (c : Pull J) (k : Nat) (hc : CI v idx c) :
    (pullRst v idx c k).2.1.rst = some (pullRst v idx c k).1 ∧ CI v idx (pullRst v idx c k).2.1 ∧ Ext c (pullRst v idx c k).2.1 := by
  unfold pullRst
  cases h : c.rst with
  | some r => exact ⟨h, hc, .refl c⟩
  | none => exact ⟨rfl, ⟨fun r e => ⟨k, by cases e; rfl⟩, hc.jrst, hc.pcnt, hc.pst⟩,
      ⟨fun r e => by simp [h] at e, fun _ h => h, fun _ h => h, fun _ h => h⟩⟩

theorem pullJ_spec (v : Nat → St J) (idx : Bool) (c : Pull J) (k : Nat) (hc : CI v idx c) :
    (pullJ v idx c k).2.1.jrst = some (pullJ v idx c k).1 ∧ CI v idx (pullJ v idx c k).2.1 ∧ Ext c (pullJ v idx c k).2.1 := by
  unfold pullJ
  cases h : c.jrst with
  | some r => exact ⟨h, hc, .refl c⟩
  | none => exact ⟨rfl, ⟨hc.rst, fun r e => ⟨k, by cases e; rfl⟩, hc.pcnt, hc.pst⟩,
      ⟨fun _ h => h, fun r e => by simp [h] at e, fun _ h => h, fun _ h => h⟩⟩

theorem pullPcnt_spec (v : Nat → St J) (idx : Bool) (c : Pull J) (k : Nat) (hc : CI v idx c) :
    (pullPcnt v c k).2.1.pcnt = some (pullPcnt v c k).1 ∧ CI v idx (pullPcnt v c k).2.1 ∧ Ext c (pullPcnt v c k).2.1 := by
  unfold pullPcnt
  cases h : c.pcnt with
  | some r => exact ⟨h, hc, .refl c⟩
  | none => exact ⟨rfl, ⟨hc.rst, hc.jrst, fun r e => ⟨k, by cases e; rfl⟩, hc.pst⟩,
      ⟨fun _ h => h, fun _ h => h, fun r e => by simp [h] at e, fun _ h => h⟩⟩

theorem pullPst_spec (v : Nat → St J) (idx : Bool) (c : Pull J) (k : Nat) (hc : CI v idx c) :
    (pullPst v idx c k).2.1.pst = some (pullPst v idx c k).1 ∧ CI v idx (pullPst v idx c k).2.1 ∧ Ext c (pullPst v idx c k).2.1 := by
  unfold pullPst
  cases h : c.pst with
  | some r => exact ⟨h, hc, .refl c⟩
  | none => exact ⟨rfl, ⟨hc.rst, hc.jrst, hc.pcnt, fun r e => ⟨k, by cases e; rfl⟩⟩,
      ⟨fun _ h => h, fun _ h => h, fun _ h => h, fun r e => by simp [h] at e⟩⟩

theorem item_spec (v : Nat → St J) (fm : Fmt J) (idx : Bool) (n : Nm) (c : Pull J) (k : Nat) (hc : CI v idx c) :
    Given v fm (item v fm idx n c k).2.1 n (item v fm idx n c k).1 ∧ CI v idx (item v fm idx n c k).2.1 ∧
      Ext c (item v fm idx n c k).2.1 := by
  cases n with
  | ttl => exact ⟨⟨k, rfl⟩, hc, .refl c⟩
  | ina | ino | ipi => obtain ⟨h1, h2, h3⟩ := pullPst_spec v idx c k hc; exact ⟨⟨_, h1, rfl⟩, h2, h3⟩
  | jlast | jmax | javg => obtain ⟨h1, h2, h3⟩ := pullJ_spec v idx c k hc; exact ⟨⟨_, h1, rfl⟩, h2, h3⟩
  | rel | drp => obtain ⟨h1, h2, h3⟩ := pullPcnt_spec v idx c k hc; exact ⟨⟨_, h1, rfl⟩, h2, h3⟩
  | sent | rcvd | dups | lost | perrs => obtain ⟨h1, h2, h3⟩ := pullRst_spec v idx c k hc; exact ⟨⟨_, h1, rfl⟩, h2, h3⟩

/-! ## The loop -/

theorem chain_some {p : Prop} [Decidable p] {a m : Nm} {o : Option Nm} (h : (if p then some a else o) = some m) :
    (p ∧ a = m) ∨ o = some m := by
  split at h
  · rename_i hp; exact .inl ⟨hp, Option.some.inj h⟩
  · exact .inr h

theorem chain_none {p : Prop} [Decidable p] {a : Nm} {o : Option Nm} (h : (if p then some a else o) = none) : ¬ p ∧ o = none := by
  split at h
  · cases h
  · rename_i hp; exact ⟨hp, h⟩

theorem find_some {n : List UInt8} {m : Nm} (h : find n = some m) : (n, m) ∈ table := by
  unfold find at h
  unfold table
  iterate 14
    rcases chain_some h with ⟨e, e'⟩ | h
    · rw [e, ← e']; simp
  cases h

theorem find_none {n : List UInt8} (h : find n = none) : n ∉ table.map Prod.fst := by
  unfold find at h
  simp only [table, List.map_cons, List.map_nil, List.mem_cons, List.not_mem_nil, or_false, not_or]
  iterate 13
    obtain ⟨e, h⟩ := chain_none h
    refine ⟨e, ?_⟩
  exact (chain_none h).1

/-- Each name is in the table and its text is given by what was pulled. -/
def Known (v : Nat → St J) (fm : Fmt J) (c : Pull J) (ds : List (List UInt8 × List UInt8)) : Prop :=
  ∀ x ∈ ds, ∃ m, (x.1, m) ∈ table ∧ Given v fm c m x.2

theorem Known.snoc {v : Nat → St J} {fm : Fmt J} {c c' : Pull J} {ds} (h : Known v fm c ds) (he : Ext c c') {n m w}
    (hm : (n, m) ∈ table) (hw : Given v fm c' m w) : Known v fm c' (ds ++ [(n, w)]) := by
  intro x hx
  rcases List.mem_append.1 hx with hx | hx
  · obtain ⟨m', h1, h2⟩ := h x hx; exact ⟨m', h1, h2.ext he⟩
  · rw [List.mem_singleton] at hx; subst hx; exact ⟨m, hm, hw⟩

theorem body_snoc (vb : Bool) (ds : List (List UInt8 × List UInt8)) (n w : List UInt8) :
    body vb (ds ++ [(n, w)]) = spaced (ds.map (fun x => label vb x.1 ++ x.2) ++ [label vb n ++ w]) := by
  unfold body; rw [List.map_append]; rfl

/-- Separator and label. -/
theorem prefix_spec (vb : Bool) {pre b} (its : List (List UInt8)) (hg : Good pre (spaced its) b) (n : List UInt8) :
    (∃ b1 b2, (if (!its.isEmpty) = true then appendf b [32] else .ok (b, true)) = .ok (b1, true) ∧
      (if vb = true then appendf b1 (n ++ [61]) else .ok (b1, true)) = .ok (b2, true) ∧
      ∀ x, ∃ bd, Good pre bd b2 ∧ bd ++ x = spaced (its ++ [label vb n ++ x])) ∨
    (∃ b1 bd, (if (!its.isEmpty) = true then appendf b [32] else .ok (b, true)) = .ok (b1, false) ∧ Good pre bd b1 ∧
      1024 ≤ pre.length + (spaced (its ++ [label vb n])).length) ∨
    (∃ b1 b2 bd, (if (!its.isEmpty) = true then appendf b [32] else .ok (b, true)) = .ok (b1, true) ∧
      (if vb = true then appendf b1 (n ++ [61]) else .ok (b1, true)) = .ok (b2, false) ∧ Good pre bd b2 ∧
      1024 ≤ pre.length + (spaced (its ++ [label vb n])).length) := by
  have h1 : (∃ b1, (if (!its.isEmpty) = true then appendf b [32] else .ok (b, true)) = .ok (b1, true) ∧
      ∀ x, ∃ bd, Good pre bd b1 ∧ bd ++ x = spaced (its ++ [x])) ∨
      (∃ b1, (if (!its.isEmpty) = true then appendf b [32] else .ok (b, true)) = .ok (b1, false) ∧
        Good pre (spaced its) b1 ∧ ∀ x, 1024 ≤ pre.length + (spaced (its ++ [x])).length) := by
    cases its with
    | nil => exact .inl ⟨b, rfl, fun x => ⟨_, hg, rfl⟩⟩
    | cons y l =>
      simp only [List.isEmpty_cons, Bool.not_false, if_true]
      by_cases hf : pre.length + (spaced (y :: l)).length + 1 < 1024
      · obtain ⟨b1, h1, h2⟩ := hg.fits (s := [32]) hf
        refine .inl ⟨b1, h1, fun x => ⟨_, h2, ?_⟩⟩
        rw [spaced_snoc, if_neg (by simp)]; simp
      · obtain ⟨b1, h1, h2⟩ := hg.spills (s := [32]) (by simp only [List.length_singleton]; omega)
        refine .inr ⟨b1, h1, h2, fun x => ?_⟩
        rw [spaced_snoc, if_neg (by simp)]
        simp only [List.length_append, List.length_cons]; omega
  rcases h1 with ⟨b1, h1, h2⟩ | ⟨b1, h1, h2, h3⟩
  rotate_left
  · exact .inr (.inl ⟨b1, _, h1, h2, h3 _⟩)
  have h3 : (∃ b2, (if vb = true then appendf b1 (n ++ [61]) else .ok (b1, true)) = .ok (b2, true) ∧
      ∀ x, ∃ bd, Good pre bd b2 ∧ bd ++ x = spaced (its ++ [label vb n ++ x])) ∨
      (∃ b2 bd, (if vb = true then appendf b1 (n ++ [61]) else .ok (b1, true)) = .ok (b2, false) ∧
        Good pre bd b2 ∧ 1024 ≤ pre.length + (spaced (its ++ [label vb n])).length) := by
    cases vb with
    | false => exact .inl ⟨b1, rfl, fun x => by simpa [label] using h2 x⟩
    | true =>
      obtain ⟨bd, h4, h5⟩ := h2 (n ++ [61])
      simp only [if_true, label]
      by_cases hf : pre.length + bd.length + (n ++ [61]).length < 1024
      · obtain ⟨b2, h6, h7⟩ := h4.fits hf
        refine .inl ⟨b2, h6, fun x => ⟨_, h7, ?_⟩⟩
        obtain ⟨bd', h8, h9⟩ := h2 ((n ++ [61]) ++ x)
        have e : bd' = bd := List.append_cancel_left (h8.txt.symm.trans h4.txt)
        rw [← h9, e, List.append_assoc]
      · obtain ⟨b2, h6, h7⟩ := h4.spills (s := n ++ [61]) (by omega)
        refine .inr ⟨b2, _, h6, h7, ?_⟩
        rw [← h5, List.length_append]; omega
  rcases h3 with ⟨b2, h3, h4⟩ | ⟨b2, bd, h3, h4, h5⟩
  · exact .inl ⟨b1, b2, h1, h3, h4⟩
  · exact .inr (.inr ⟨b1, b2, bd, h1, h3, h4, h5⟩)

theorem names_spec (v : Nat → St J) (fm : Fmt J) (idx vb : Bool) (pre : List UInt8) : ∀ (ns : List (List UInt8))
    (ds : List (List UInt8 × List UInt8)) (b : Rep) (c : Pull J) (k : Nat), Good pre (body vb ds) b → CI v idx c → Known v fm c ds →
    (∃ b' c' ds', names v fm idx vb (!ds.isEmpty) b c k ns = .ok (b', none) ∧ Good pre (body vb ds') b' ∧ CI v idx c' ∧
      Known v fm c' ds' ∧ ds'.map Prod.fst = ds.map Prod.fst ++ ns) ∨
    (∃ b' bd, names v fm idx vb (!ds.isEmpty) b c k ns = .ok (b', some 26) ∧ Good pre bd b' ∧ ∃ c' ds', CI v idx c' ∧
      Known v fm c' ds' ∧ (ds'.map Prod.fst <+: ds.map Prod.fst ++ ns ∧ 1024 ≤ pre.length + (body vb ds').length ∨
        ∃ n, ds'.map Prod.fst ++ [n] <+: ds.map Prod.fst ++ ns ∧ 1024 ≤ pre.length + (body vb (ds' ++ [(n, [])])).length)) ∨
    (∃ b' bd, names v fm idx vb (!ds.isEmpty) b c k ns = .ok (b', some 62) ∧ Good pre bd b' ∧ ∃ n ∈ ns, n ∉ table.map Prod.fst)
  | [], ds, b, c, k, hg, hc, hk => .inl ⟨b, c, ds, rfl, hg, hc, hk, by simp⟩
  | n :: ns, ds, b, c, k, hg, hc, hk => by
    have hp := prefix_spec vb (ds.map fun x => label vb x.1 ++ x.2) hg n
    rw [show (ds.map fun x => label vb x.1 ++ x.2).isEmpty = ds.isEmpty by cases ds <;> rfl] at hp
    have over : 1024 ≤ pre.length + (spaced ((ds.map fun x => label vb x.1 ++ x.2) ++ [label vb n])).length →
        ∃ c' ds', CI v idx c' ∧ Known v fm c' ds' ∧
        (ds'.map Prod.fst <+: ds.map Prod.fst ++ n :: ns ∧ 1024 ≤ pre.length + (body vb ds').length ∨
        ∃ m, ds'.map Prod.fst ++ [m] <+: ds.map Prod.fst ++ n :: ns ∧ 1024 ≤ pre.length + (body vb (ds' ++ [(m, [])])).length) := by
      intro h
      refine ⟨c, ds, hc, hk, .inr ⟨n, ⟨ns, by simp⟩, ?_⟩⟩
      rw [body_snoc, List.append_nil]; exact h
    unfold names
    rcases hp with ⟨b1, b2, h1, h2, h3⟩ | ⟨b1, bd, h1, h2, h3⟩ | ⟨b1, b2, bd, h1, h2, h3, h4⟩
    rotate_left
    · rw [h1]; exact .inr (.inl ⟨b1, bd, rfl, h2, over h3⟩)
    · rw [h1]; simp only; rw [h2]; exact .inr (.inl ⟨b2, bd, rfl, h3, over h4⟩)
    rw [h1]; simp only; rw [h2]; simp only
    cases hf : find n with
    | none =>
      obtain ⟨bd, h4, -⟩ := h3 []
      exact .inr (.inr ⟨b2, bd, rfl, h4, n, by simp, find_none hf⟩)
    | some m =>
      simp only
      obtain ⟨g1, g2, g3⟩ := item_spec v fm idx m c k hc
      have hk' := hk.snoc g3 (find_some hf) g1
      obtain ⟨bd, h4, h5⟩ := h3 (item v fm idx m c k).1
      rw [← body_snoc] at h5
      by_cases hl : pre.length + bd.length + (item v fm idx m c k).1.length < 1024
      · obtain ⟨b3, h6, h7⟩ := h4.fits hl
        rw [h6]; simp only
        rw [h5] at h7
        have ih := names_spec v fm idx vb pre ns (ds ++ [(n, (item v fm idx m c k).1)]) b3 _ (item v fm idx m c k).2.2 h7 g2 hk'
        rw [show (ds ++ [(n, (item v fm idx m c k).1)]).isEmpty = false by simp] at ih
        simp only [Bool.not_false, List.map_append, List.map_cons, List.map_nil, List.append_assoc, List.singleton_append] at ih
        rcases ih with ih | ih | ⟨b', bd', i1, i2, x, i3, i4⟩
        · exact .inl ih
        · exact .inr (.inl ih)
        · exact .inr (.inr ⟨b', bd', i1, i2, x, by simp [i3], i4⟩)
      · obtain ⟨b3, h6, h7⟩ := h4.spills (s := (item v fm idx m c k).1) (by omega)
        rw [h6]
        refine .inr (.inl ⟨b3, bd, rfl, h7, _, _, g2, hk', .inl ⟨⟨ns, by simp⟩, ?_⟩⟩)
        rw [← h5, List.length_append]; omega

/-! ## From the reads to the history -/

theorem Sched.hist {fl : Analyze.Fl J} {ttl0 h at_ v} (hs : Sched fl ttl0 h at_ v) (k : Nat) :
    (∀ l, (v k).ttl l = timer l (ttl0 l) (h.take (at_ k)) ∧ (v k).pc l = (times l (h.take (at_ k))).foldl reg .zero ∧
      Analyze.run fl (.init fl) (pkts l (h.take (at_ k))) = .ok ((v k).an l)) ∧
    (v k).relayed = relays (h.take (at_ k)) % 2 ^ 64 ∧ (v k).dropped = drops (h.take (at_ k)) % 2 ^ 64 := by
  obtain ⟨a, b, c⟩ := run_hist fl _ _ _ (by simp [init]) (by simp [init]) (hs.state k)
  exact ⟨a, by simpa [init] using b, by simpa [init] using c⟩

theorem Sched.le {fl : Analyze.Fl J} {ttl0 h at_ v} (hs : Sched fl ttl0 h at_ v) (k : Nat) : ∀ i, at_ k ≤ at_ (k + i)
  | 0 => Nat.le_refl _
  | i + 1 => Nat.le_trans (hs.le k i) (hs.mono (k + i))

theorem pkts_append (l : Bool) (a b : List Ev) : pkts l (a ++ b) = pkts l a ++ pkts l b := List.filterMap_append

theorem pkts_prefix (l : Bool) (h : List Ev) {m n : Nat} (hm : m ≤ n) : pkts l (h.take m) <+: pkts l (h.take n) := by
  have : h.take n = h.take m ++ (h.take n).drop m := by
    conv_lhs => rw [← List.take_append_drop m (h.take n)]
    rw [List.take_take, Nat.min_eq_left hm]
  rw [this, pkts_append]; exact ⟨_, rfl⟩

/-- If nothing was analysed meanwhile, the analyzer is the same at each of the nine reads. -/
theorem Sched.quiet {fl : Analyze.Fl J} {ttl0 h at_ v} (hs : Sched fl ttl0 h at_ v) {l : Bool} {k : Nat}
    (hq : pkts l (h.take (at_ k)) = pkts l (h.take (at_ (k + 8)))) {i : Nat} (hi : i ≤ 8) : (v (k + i)).an l = (v k).an l := by
  have e : pkts l (h.take (at_ (k + i))) = pkts l (h.take (at_ k)) := by
    have h1 := pkts_prefix l h (hs.le k i)
    have h2 := pkts_prefix l h (show at_ (k + i) ≤ at_ (k + 8) by
      have := hs.le (k + i) (8 - i); rwa [show k + i + (8 - i) = k + 8 by omega] at this)
    rw [← hq] at h2
    exact h2.eq_of_length_le h1.length_le
  have h1 := ((hs.hist (k + i)).1 l).2.2
  have h2 := ((hs.hist k).1 l).2.2
  rw [e, h2] at h1
  exact (Except.ok.inj h1).symm

theorem getRst_quiet (v : Nat → St J) (l : Bool) (k : Nat) (h : ∀ i, i ≤ 8 → (v (k + i)).an l = (v k).an l) :
    (getRst v l k).psent = (Analyze.report ((v k).an l)).psent ∧ (getRst v l k).precvd = (Analyze.report ((v k).an l)).precvd ∧
    (getRst v l k).pdups = (Analyze.report ((v k).an l)).pdups ∧
    (getRst v l k).plost = Analyze.u32 ((Analyze.report ((v k).an l)).psent + 4294967296 - (Analyze.report ((v k).an l)).precvd) := by
  unfold getRst Analyze.report Analyze.totals
  simp only [h 1 (by omega), h 2 (by omega), h 3 (by omega), h 4 (by omega), h 5 (by omega), h 6 (by omega), h 7 (by omega),
    h 8 (by omega)]
  split <;> exact ⟨rfl, rfl, rfl, rfl⟩

theorem getRst_pecount (v : Nat → St J) (l : Bool) (k : Nat) : (getRst v l k).pecount = (Analyze.report ((v k).an l)).pecount := by
  unfold getRst Analyze.report
  simp only
  split <;> rfl

theorem pick {α : Type} {p : Nat → α → Prop} {o : Option α} (h : ∀ r, o = some r → ∃ k, p k r) : ∃ k, ∀ r, o = some r → p k r := by
  cases o with
  | none => exact ⟨0, nofun⟩
  | some r => obtain ⟨k, hk⟩ := h r rfl; exact ⟨k, fun r' e => by cases e; exact hk⟩

theorem nm_ttl {n : List UInt8} {m : Nm} (h : (n, m) ∈ table) (hm : m = .ttl) : n = str "ttl" := by
  subst hm
  revert h
  unfold table
  intro h
  simpa using h

theorem table_fun {n : List UInt8} {m m' : Nm} (h : (n, m) ∈ table) (h' : (n, m') ∈ table) : m = m' := by
  have key : ∀ x ∈ table, ∀ y ∈ table, x.1 = y.1 → x.2 = y.2 := by decide +kernel
  exact key _ h _ h' rfl

/-- What was pulled shows what had happened. -/
theorem Known.texts {fl : Analyze.Fl J} {ttl0 h at_ v} (hs : Sched fl ttl0 h at_ v) {fm : Fmt J} {idx : Bool} {c : Pull J}
    (hc : CI v idx c) {ds} (hk : Known v fm c ds) : Texts fl fm ttl0 idx h at_ ds := by
  obtain ⟨k1, h1⟩ := pick hc.rst
  obtain ⟨k2, h2⟩ := pick hc.jrst
  obtain ⟨k3, h3⟩ := pick hc.pcnt
  obtain ⟨k4, h4⟩ := pick hc.pst
  refine ⟨⟨at_ k4, at_ (k4 + 1), at_ k3, at_ (k3 + 1), at_ k2, fun i => at_ (k1 + i)⟩, ⟨⟨_, rfl⟩, ⟨_, rfl⟩, ⟨_, rfl⟩, ⟨_, rfl⟩, ⟨_, rfl⟩,
    ⟨k1, fun _ => rfl⟩⟩, ?_, ?_⟩
  · intro x hx
    obtain ⟨m, hm, hg⟩ := hk x hx
    refine ⟨m, hm, ?_, ?_⟩
    · have hrep : Reports fl (pkts idx (h.take (at_ k1))) (Analyze.report ((v k1).an idx)) :=
        ⟨_, ((hs.hist k1).1 idx).2.2, rfl⟩
      cases m with
      | ttl => trivial
      | ina =>
        obtain ⟨r, e1, e2⟩ := hg
        cases h4 r e1
        show _ = _
        rw [e2]; simp only
        rw [((hs.hist k4).1 idx).2.1, foldl_n _ _ (by simp [Pc.zero])]; simp [Pc.zero]
      | ino =>
        obtain ⟨r, e1, e2⟩ := hg
        cases h4 r e1
        show _ = _
        rw [e2]; simp only
        rw [((hs.hist (k4 + 1)).1 (!idx)).2.1, foldl_n _ _ (by simp [Pc.zero])]; simp [Pc.zero]
      | ipi =>
        obtain ⟨r, e1, e2⟩ := hg
        cases h4 r e1
        intro hsane
        rw [e2]; simp only
        rw [((hs.hist k4).1 idx).2.1, ipi_longest _ hsane]
      | jlast | jmax | javg =>
        obtain ⟨r, e1, e2⟩ := hg
        cases h2 r e1
        exact ⟨_, ((hs.hist k2).1 idx).2.2, e2⟩
      | rel =>
        obtain ⟨r, e1, e2⟩ := hg
        cases h3 r e1
        show _ = _
        rw [e2]; simp only; rw [(hs.hist k3).2.1]
      | drp =>
        obtain ⟨r, e1, e2⟩ := hg
        cases h3 r e1
        show _ = _
        rw [e2]; simp only; rw [(hs.hist (k3 + 1)).2.2]
      | sent =>
        obtain ⟨r, e1, e2⟩ := hg
        cases h1 r e1
        exact fun hq => ⟨_, hrep, by rw [e2, (getRst_quiet v idx k1 fun i hi => hs.quiet hq hi).1]⟩
      | rcvd =>
        obtain ⟨r, e1, e2⟩ := hg
        cases h1 r e1
        exact fun hq => ⟨_, hrep, by rw [e2, (getRst_quiet v idx k1 fun i hi => hs.quiet hq hi).2.1]⟩
      | dups =>
        obtain ⟨r, e1, e2⟩ := hg
        cases h1 r e1
        exact fun hq => ⟨_, hrep, by rw [e2, (getRst_quiet v idx k1 fun i hi => hs.quiet hq hi).2.2.1]⟩
      | lost =>
        obtain ⟨r, e1, e2⟩ := hg
        cases h1 r e1
        refine fun hq => ⟨_, hrep, fun hle => ?_⟩
        rw [e2, (getRst_quiet v idx k1 fun i hi => hs.quiet hq hi).2.2.2]
        congr 1
        unfold Analyze.u32
        omega
      | perrs =>
        obtain ⟨r, e1, e2⟩ := hg
        cases h1 r e1
        exact ⟨_, hrep, by rw [e2, getRst_pecount]⟩
    · intro e
      subst e
      obtain ⟨k, hk⟩ := hg
      refine ⟨k, ?_⟩
      rw [hk, getTtl, ((hs.hist k).1 false).1, ((hs.hist (k + 1)).1 true).1]
  · intro x hx y hy e hne
    obtain ⟨m, hm, hg⟩ := hk x hx
    obtain ⟨m', hm', hg'⟩ := hk y hy
    rw [← e] at hm'
    cases table_fun hm hm'
    exact hg.unique (fun he => hne (nm_ttl hm he)) hg'

end Verif.Query
