import Verif.Analyze.Model
import Mathlib.Data.Finset.Card
import Mathlib.Order.Interval.Finset.Nat
import Mathlib.Data.Finset.Insert

/-!
# C11: RTP statistics count every packet exactly once
-/

namespace Verif.Analyze
variable {J : Type}

theorem u32_of {x : Nat} (h : x < 4294967296) : u32 x = x := Nat.mod_eq_of_lt h

attribute [local irreducible] u32

/-! ## Every packet is counted once -/

/-- Packets counted as received or as duplicates. -/
def Stat.cnt (s : Stat) : Nat := s.precvd + s.last.pcount + s.dups + s.last.dups

structure CInv (s : Stat) (n : Nat) : Prop where
  cnt : s.cnt = n
  changes : s.changes ≤ n
  zero : s.changes = 0 → s.cnt = 0
  pos : s.changes ≠ 0 → 0 < s.last.pcount

theorem totals_cnt {s : Stat} (h : s.cnt < 4294967296) : (totals s).precvd + (totals s).dups ≤ s.cnt ∧
    (0 < s.last.pcount → (totals s).precvd + (totals s).dups = s.cnt) := by
  unfold totals Stat.cnt at *
  split
  · constructor <;> intros <;> omega
  · simp only
    rw [u32_of (by omega), u32_of (by omega)]
    omega

@[simp] theorem totals_last (s : Stat) : (totals s).last = s.last := by unfold totals; split <;> rfl
@[simp] theorem totals_changes (s : Stat) : (totals s).changes = s.changes := by unfold totals; split <;> rfl

theorem place_cnt (s : Stat) (seq rseq : Nat) :
    (place s seq rseq).1.changes = s.changes ∧ s.last.pcount ≤ (place s seq rseq).1.last.pcount ∧
      ((place s seq rseq).2 = .err ∧ (place s seq rseq).1.cnt = s.cnt ∨
       (place s seq rseq).2 = .ok ∧ (place s seq rseq).1.cnt = s.cnt + 1) := by
  unfold place Stat.cnt
  simp only
  split
  · simp; omega
  · split
    · simp; omega
    · split
      · simp; omega
      · simp

theorem count_cnt {s : Stat} (h : s.cnt + 1 < 4294967296) (seq rseq : Nat) :
    (count s seq rseq).1.changes = s.changes ∧ s.last.pcount ≤ (count s seq rseq).1.last.pcount ∧
      ((count s seq rseq).2 = .err ∧ (count s seq rseq).1.cnt = s.cnt ∨
       (count s seq rseq).2 = .ok ∧ (count s seq rseq).1.cnt = s.cnt + 1) := by
  unfold count
  split
  · refine ⟨rfl, Nat.le_refl _, .inr ⟨rfl, ?_⟩⟩
    unfold Stat.cnt at *
    simp only
    rw [u32_of (by omega)]; omega
  · exact place_cnt s seq rseq

theorem wrap_cnt (s : Stat) : (wrap s).cnt = s.cnt ∧ (wrap s).changes = s.changes ∧ (wrap s).last.pcount = s.last.pcount := by
  simp [wrap, Stat.cnt]

theorem track_cnt {s : Stat} (h : s.cnt + 1 < 4294967296) (hp : 0 < s.last.pcount) (seq rseq : Nat) :
    (track s seq rseq).1.changes = s.changes ∧ 0 < (track s seq rseq).1.last.pcount ∧
      ((track s seq rseq).2 = .err ∧ (track s seq rseq).1.cnt = s.cnt ∨
       (track s seq rseq).2 = .ok ∧ (track s seq rseq).1.cnt = s.cnt + 1) := by
  unfold track
  split
  · obtain ⟨a, b, c⟩ := count_cnt h (u32 (seq + 4294967296 - 65536)) rseq
    exact ⟨a, by omega, c⟩
  · split
    · obtain ⟨w1, w2, w3⟩ := wrap_cnt s
      obtain ⟨a, b, c⟩ := count_cnt (s := wrap s) (by omega) (u32 (seq + 65536)) rseq
      rw [w1] at c
      exact ⟨a.trans w2, by omega, c⟩
    · split
      · have ht := (totals_cnt (s := s) (by omega)).2 hp
        refine ⟨by simp, by simp [restart], .inr ⟨rfl, ?_⟩⟩
        unfold Stat.cnt at ht ⊢
        simp only [restart]
        omega
      · obtain ⟨a, b, c⟩ := count_cnt h seq rseq
        exact ⟨a, by omega, c⟩

theorem updateSeq_cnt {s : Stat} {n : Nat} (hi : CInv s n) (hn : n + 1 < 4294967296) (p : Pkt) :
    (updateSeq s p).2.1 = .err ∧ CInv (updateSeq s p).1 n ∨ (updateSeq s p).2.1 ≠ .err ∧ CInv (updateSeq s p).1 (n + 1) := by
  obtain ⟨h1, h2, h3, h4⟩ := hi
  unfold updateSeq
  by_cases hc : s.changes = 0
  · rw [if_pos hc]
    have h0 := h3 hc
    right
    refine ⟨by simp, ?_, ?_, ?_, ?_⟩
    · unfold Stat.cnt at *; simp only; omega
    · simp
    · simp
    · simp
  · rw [if_neg hc]
    have hp := h4 hc
    have ht := (totals_cnt (s := s) (by omega)).2 hp
    by_cases hs : s.last.ssrc ≠ p.ssrc
    · rw [if_pos hs]
      right
      refine ⟨by simp, ?_, ?_, ?_, ?_⟩
      · unfold Stat.cnt at *; simp only [restart]; omega
      · simp only [totals_changes]
        rw [u32_of (by omega)]; omega
      · intro hz
        simp only [totals_changes] at hz
        rw [u32_of (by omega)] at hz; omega
      · intro _; simp [restart]
    · rw [if_neg hs]
      simp only
      split
      · right
        refine ⟨by simp, ?_, ?_, ?_, ?_⟩
        · unfold Stat.cnt at *; simp only [restart]; omega
        · simp only [totals_changes]; omega
        · intro hz; simp only [totals_changes] at hz; omega
        · intro _; simp [restart]
      · obtain ⟨a, b, c⟩ := track_cnt (s := s) (by omega) hp (u32 (p.seq + s.last.off)) p.seq
        rcases c with ⟨c1, c2⟩ | ⟨c1, c2⟩
        · left
          have : CInv (track s (u32 (p.seq + s.last.off)) p.seq).1 n :=
            ⟨by omega, by omega, fun hz => by omega, fun _ => b⟩
          exact ⟨c1, this⟩
        · right
          have : CInv (track s (u32 (p.seq + s.last.off)) p.seq).1 (n + 1) :=
            ⟨by omega, by omega, fun hz => by omega, fun _ => b⟩
          exact ⟨by simp [c1], this⟩

/-! The list of jitter records is never empty. -/

theorem bySsrc_ok (fl : Fl J) {jp : Jit J} (h : jp.list ≠ []) (ssrc : Nat) (oom : Bool) :
    ∃ jp' o, bySsrc fl jp ssrc oom = .ok (jp', o) ∧ jp'.list ≠ [] := by
  unfold bySsrc
  cases hl : jp.list with
  | nil => exact absurd hl h
  | cons first rest =>
    simp only
    split
    · exact ⟨_, _, rfl, by simp⟩
    · split
      · exact ⟨_, _, rfl, by rw [hl]; simp⟩
      · split
        · cases hg : (first :: rest).getLast? with
          | none => simp at hg
          | some last =>
            refine ⟨_, _, rfl, ?_⟩
            unfold recycle
            simp only
            split <;> simp
        · split
          · exact ⟨_, _, rfl, by rw [hl]; simp⟩
          · exact ⟨_, _, rfl, by simp⟩

theorem analyze_ok (fl : Fl J) {a : An J} {n : Nat} (hj : a.jit.list ≠ []) (hi : CInv a.stat n)
    (hn : n + 1 < 4294967296) (p : Option Pkt) :
    ∃ a' m, analyze fl a p = .ok a' ∧ a'.jit.list ≠ [] ∧ CInv a'.stat m ∧
      m + a'.pecount + a'.aecount = n + a.pecount + a.aecount + 1 := by
  cases p with
  | none => exact ⟨_, n, rfl, hj, hi, by simp only; omega⟩
  | some p =>
    obtain ⟨jp, o, hb, hne⟩ := bySsrc_ok fl hj p.ssrc p.oom
    simp only [analyze, update, hb]
    cases o with
    | none => exact ⟨_, n, rfl, hne, hi, by simp only; omega⟩
    | some i =>
      simp only
      have hne' : (if p.rated then { jp with list := jp.list.modify i (fun d => updateJ fl d p (updateSeq a.stat p).2.2) }
          else jp).list ≠ [] := by
        split
        · intro h0
          have := congrArg List.length h0
          simp only [List.length_modify, List.length_nil, List.length_eq_zero_iff] at this
          exact hne this
        · exact hne
      rcases updateSeq_cnt hi hn p with ⟨c1, c2⟩ | ⟨c1, c2⟩
      · rw [c1]
        exact ⟨_, n, rfl, hne', c2, by simp only; omega⟩
      · cases hv : (updateSeq a.stat p).2.1 with
        | err => exact absurd hv c1
        | ok => exact ⟨_, n + 1, rfl, hne', c2, by simp only; omega⟩
        | ssrcChg => exact ⟨_, n + 1, rfl, hne', c2, by simp only; omega⟩

theorem run_ok (fl : Fl J) : ∀ (ps : List (Option Pkt)) (a : An J) (n : Nat), a.jit.list ≠ [] → CInv a.stat n →
    n + a.pecount + a.aecount + ps.length < 4294967296 →
    ∃ a' m, run fl a ps = .ok a' ∧ CInv a'.stat m ∧ m + a'.pecount + a'.aecount = n + a.pecount + a.aecount + ps.length
  | [], a, n, _, hi, _ => ⟨a, n, rfl, hi, rfl⟩
  | p :: ps, a, n, hj, hi, hn => by
    simp only [List.length_cons] at hn
    obtain ⟨a1, m1, h1, h2, h3, h4⟩ := analyze_ok fl hj hi (by omega) p
    obtain ⟨a2, m2, k1, k2, k3⟩ := run_ok fl ps a1 m1 h2 h3 (by omega)
    refine ⟨a2, m2, ?_, k2, ?_⟩
    · simp [run, h1, k1]
    · simp only [List.length_cons]; omega

theorem init_cinv : CInv .init 0 := ⟨rfl, Nat.le_refl _, fun _ => rfl, fun h => absurd rfl h⟩

/-- However the packets look, each is reported exactly once: as received, as duplicate, as malformed or as an error of the
analysis (fewer than 2^32 packets). -/
theorem C11_counted_once (fl : Fl J) (ps : List (Option Pkt)) (hn : ps.length < 4294967296) :
    ∃ a, run fl (.init fl) ps = .ok a ∧
      (report a).precvd + (report a).pdups + (report a).pecount + (report a).aecount = ps.length := by
  obtain ⟨a, m, h1, h2, h3⟩ := run_ok fl ps (.init fl) 0 (by simp [An.init, Jit.init]) init_cinv (by simp [An.init]; omega)
  refine ⟨a, h1, ?_⟩
  simp only [An.init] at h3
  have hle : a.stat.cnt < 4294967296 := by rw [h2.cnt]; omega
  simp only [report]
  by_cases hc : a.stat.changes = 0
  · have h0 := h2.zero hc
    have := (totals_cnt hle).1
    have := h2.cnt
    omega
  · have := (totals_cnt hle).2 (h2.pos hc)
    have := h2.cnt
    omega

/-! ## Streams with one source -/

/-- A stream as it was sent: the true number of each packet, not reduced to 16 bits, with its marker bit.  `Tame hi lo`
says that the numbers stay within 535 of the largest one so far, that after the first wrap nothing arrives that is older
than the oldest packet, and that a marker is only set on a packet that is newer than all others and does not come after a
wrap with a gap.  `hi` and `lo` are largest and smallest number so far. -/
def Tame : Nat → Nat → List (Nat × Bool) → Prop
  | _, _, [] => True
  | hi, lo, (x, m) :: xs =>
    x < 4294901760 ∧ x < hi + 536 ∧ hi < x + 536 ∧ (hi < 65536 ∨ lo ≤ x) ∧
      (m = true → hi < x ∧ (x / 65536 = hi / 65536 ∨ hi % 65536 = 65535)) ∧ Tame (max hi x) (min lo x) xs

/-- The packet as it arrives. -/
structure Carries (ssrc : Nat) (p : Option Pkt) (x : Nat × Bool) : Prop where
  ex : ∃ q, p = some q ∧ q.seq = x.1 % 65536 ∧ q.marker = x.2 ∧ q.ssrc = ssrc ∧ q.oom = false

structure TInv (s0 s : Stat) (ssrc : Nat) (S : Finset Nat) (n : Nat) : Prop where
  hi_mem : s.last.maxSeq ∈ S
  hi : ∀ x ∈ S, x ≤ s.last.maxSeq
  lo_mem : s.last.minSeq ∈ S
  lo : ∀ x ∈ S, s.last.minSeq ≤ x
  off : s.last.off = s.last.maxSeq / 65536 * 65536
  seen : ∀ x, s.last.off ≤ x + 65536 → x < s.last.off + 65536 → (s.last.seen (x % 131072) = true ↔ x ∈ S)
  pcount : s.last.pcount = S.card
  dups : s.last.dups + S.card = n
  bound : s.last.maxSeq < 4294901760
  ssrc : s.last.ssrc = ssrc
  changes : s.changes ≠ 0 ∧ s.changes = s0.changes
  sent : s.psent = s0.psent ∧ s.precvd = s0.precvd ∧ s.dups = s0.dups

theorem bit_idx (x : Nat) : x % 131072 / 32 * 32 + x % 32 = x % 131072 := by omega

theorem getBit_eq (seen : Nat → Bool) (x : Nat) : getBit seen x = seen (x % 131072) := by
  unfold getBit; rw [bit_idx]

theorem setBit_eq (seen : Nat → Bool) (x b : Nat) : setBit seen x (x % 65536) b = if b = x % 131072 then true else seen b := by
  unfold setBit
  rw [show x % 131072 / 32 * 32 + x % 65536 % 32 = x % 131072 by omega]

/-- Counting a packet that is in the window. -/
theorem count_tame {s0 s : Stat} {ssrc : Nat} {S : Finset Nat} {n x : Nat} (h : TInv s0 s ssrc S n) (hx : x < s.last.off + 65536)
    (hx' : s.last.off ≤ x + 65536) (hb : x < 4294901760) (hn : n + 1 < 4294967296)
    (hlo : s.last.off = 0 ∨ s.last.minSeq ≤ x) :
    (count s x (x % 65536)).2 = .ok ∧ TInv s0 (count s x (x % 65536)).1 ssrc (insert x S) (n + 1) ∧
      (count s x (x % 65536)).1.last.maxSeq = max s.last.maxSeq x ∧ (count s x (x % 65536)).1.last.minSeq = min s.last.minSeq x := by
  obtain ⟨h1, h2, h3, h4, h5, h6, h7, h8, h9, h10, h11, h12⟩ := h
  unfold count
  rw [getBit_eq]
  by_cases hm : x ∈ S
  · have := (h6 x hx' hx).2 hm
    rw [if_pos this]
    have hins : insert x S = S := Finset.insert_eq_of_mem hm
    rw [hins]
    have a1 := h2 x hm
    have a2 := h4 x hm
    refine ⟨rfl, ⟨h1, h2, h3, h4, h5, h6, h7, ?_, h9, h10, h11, h12⟩, ?_, ?_⟩
    · simp only
      rw [u32_of (by omega)]; omega
    · simp only; omega
    · simp only; omega
  · have hf : ¬ (s.last.seen (x % 131072) = true) := fun hh => hm ((h6 x hx' hx).1 hh)
    rw [if_neg hf]
    have hcard : (insert x S).card = S.card + 1 := Finset.card_insert_of_notMem hm
    have hseen : ∀ y, s.last.off ≤ y + 65536 → y < s.last.off + 65536 →
        (setBit s.last.seen x (x % 65536) (y % 131072) = true ↔ y ∈ insert x S) := by
      intro y hy1 hy2
      rw [setBit_eq, Finset.mem_insert]
      by_cases hyx : y = x
      · simp [hyx]
      · have : y % 131072 ≠ x % 131072 := by omega
        rw [if_neg this]
        rw [h6 y hy1 hy2]
        simp [hyx]
    unfold place
    simp only
    by_cases hge : s.last.maxSeq ≤ x
    · rw [if_pos hge]
      have hxmax : s.last.maxSeq / 65536 = x / 65536 := by omega
      have hlo' := h4 _ h1
      refine ⟨rfl, ⟨by simp, ?_, ?_, ?_, ?_, hseen, ?_, ?_, hb, h10, h11, h12⟩, ?_, ?_⟩
      · intro y hy
        rcases Finset.mem_insert.1 hy with rfl | hy
        · exact Nat.le_refl _
        · exact Nat.le_trans (h2 y hy) hge
      · simp [h3]
      · intro y hy
        rcases Finset.mem_insert.1 hy with rfl | hy
        · simp only; omega
        · exact h4 y hy
      · simp only; rw [h5, hxmax]
      · simp only; rw [hcard, h7]
      · simp only; rw [hcard]; omega
      · simp only; omega
      · simp only; omega
    · rw [if_neg hge]
      by_cases hmin : s.last.minSeq ≤ x
      · rw [if_pos hmin]
        refine ⟨rfl, ⟨by simp [h1], ?_, by simp [h3], ?_, h5, hseen, ?_, ?_, h9, h10, h11, h12⟩, ?_, ?_⟩
        · intro y hy
          rcases Finset.mem_insert.1 hy with rfl | hy
          · simp only; omega
          · exact h2 y hy
        · intro y hy
          rcases Finset.mem_insert.1 hy with rfl | hy
          · exact hmin
          · exact h4 y hy
        · simp only; rw [hcard, h7]
        · simp only; rw [hcard]; omega
        · simp only; omega
        · simp only; omega
      · rw [if_neg hmin, if_pos (by omega)]
        refine ⟨rfl, ⟨by simp [h1], ?_, by simp, ?_, h5, hseen, ?_, ?_, h9, h10, h11, h12⟩, ?_, ?_⟩
        · intro y hy
          rcases Finset.mem_insert.1 hy with rfl | hy
          · simp only; omega
          · exact h2 y hy
        · intro y hy
          rcases Finset.mem_insert.1 hy with rfl | hy
          · exact Nat.le_refl _
          · have := h4 y hy
            simp only; omega
        · simp only; rw [hcard, h7]
        · simp only; rw [hcard]; omega
        · simp only; omega
        · simp only; omega

/-- The invariant while the table has been turned over and the new packet has not been entered: the largest number is in
the cycle before. -/
theorem count_wrapped {s0 s : Stat} {ssrc : Nat} {S : Finset Nat} {n x : Nat} (h : TInv s0 s ssrc S n)
    (hx : x / 65536 = s.last.maxSeq / 65536 + 1) (hb : x < 4294901760) :
    (count (wrap s) x (x % 65536)).2 = .ok ∧ TInv s0 (count (wrap s) x (x % 65536)).1 ssrc (insert x S) (n + 1) ∧
      (count (wrap s) x (x % 65536)).1.last.maxSeq = max s.last.maxSeq x ∧
      (count (wrap s) x (x % 65536)).1.last.minSeq = min s.last.minSeq x := by
  obtain ⟨h1, h2, h3, h4, h5, h6, h7, h8, h9, h10, h11, h12⟩ := h
  have hlt : s.last.maxSeq < x := by omega
  have hm : x ∉ S := fun hm => by have := h2 x hm; omega
  have hoff : u32 (s.last.off + 65536) = x / 65536 * 65536 := by rw [u32_of (by omega)]; omega
  have hseen : ∀ y, (wrap s).last.off ≤ y + 65536 → y < (wrap s).last.off + 65536 →
      ((wrap s).last.seen (y % 131072) = true ↔ y ∈ S) := by
    intro y hy1 hy2
    simp only [wrap, hoff] at hy1 hy2 ⊢
    by_cases hnew : x / 65536 * 65536 ≤ y
    · have hy : y ∉ S := fun hy => by have := h2 y hy; omega
      simp only [hy, iff_false]
      split
      · rw [if_pos (by omega)]; simp
      · rw [if_pos (by omega)]; simp
    · have := h6 y (by omega) (by omega)
      split
      · rw [if_neg (by omega)]; exact this
      · rw [if_neg (by omega)]; exact this
  have hoff' : (wrap s).last.off = x / 65536 * 65536 := hoff
  rw [hoff'] at hseen
  have hcard : (insert x S).card = S.card + 1 := Finset.card_insert_of_notMem hm
  unfold count
  rw [getBit_eq]
  have hf : ¬ ((wrap s).last.seen (x % 131072) = true) := fun hh => hm ((hseen x (by omega) (by omega)).1 hh)
  rw [if_neg hf]
  unfold place
  simp only
  have hge : (wrap s).last.maxSeq ≤ x := by show s.last.maxSeq ≤ x; omega
  rw [if_pos hge]
  have hlo' := h4 _ h1
  refine ⟨rfl, ⟨by simp, ?_, ?_, ?_, hoff', ?_, ?_, ?_, hb, h10, h11, h12⟩, ?_, ?_⟩
  · intro y hy
    rcases Finset.mem_insert.1 hy with rfl | hy
    · exact Nat.le_refl _
    · have := h2 y hy
      simp only; omega
  · show s.last.minSeq ∈ insert x S
    simp [h3]
  · intro y hy
    show s.last.minSeq ≤ y
    rcases Finset.mem_insert.1 hy with rfl | hy
    · omega
    · exact h4 y hy
  · intro y hy1 hy2
    show setBit (wrap s).last.seen x (x % 65536) (y % 131072) = true ↔ _
    have hy1' : x / 65536 * 65536 ≤ y + 65536 := by rw [← hoff']; exact hy1
    have hy2' : y < x / 65536 * 65536 + 65536 := by rw [← hoff']; exact hy2
    rw [setBit_eq, Finset.mem_insert]
    by_cases hyx : y = x
    · simp [hyx]
    · have : y % 131072 ≠ x % 131072 := by omega
      rw [if_neg this, hseen y hy1' hy2']
      simp [hyx]
  · show s.last.pcount + 1 = _
    rw [hcard, h7]
  · show s.last.dups + _ = _
    rw [hcard]; omega
  · show x = _
    omega
  · show s.last.minSeq = _
    omega

/-- One packet of a tame stream. -/
theorem step_tame {s0 s : Stat} {ssrc : Nat} {S : Finset Nat} {n x : Nat} {m : Bool} (h : TInv s0 s ssrc S n)
    (hn : n + 1 < 4294967296) (hb : x < 4294901760) (hx1 : x < s.last.maxSeq + 536) (hx2 : s.last.maxSeq < x + 536)
    (hlo : s.last.maxSeq < 65536 ∨ s.last.minSeq ≤ x)
    (hm : m = true → s.last.maxSeq < x ∧ (x / 65536 = s.last.maxSeq / 65536 ∨ s.last.maxSeq % 65536 = 65535))
    (p : Pkt) (hp : p.seq = x % 65536) (hpm : p.marker = m) (hps : p.ssrc = ssrc) :
    (updateSeq s p).2.1 = .ok ∧ TInv s0 (updateSeq s p).1 ssrc (insert x S) (n + 1) ∧
      (updateSeq s p).1.last.maxSeq = max s.last.maxSeq x ∧ (updateSeq s p).1.last.minSeq = min s.last.minSeq x := by
  have hoff := h.off
  have hbd := h.bound
  unfold updateSeq
  rw [if_neg h.changes.1, if_neg (by rw [h.ssrc, hps]; simp)]
  simp only
  have hseq : u32 (p.seq + s.last.off) = x % 65536 + s.last.off := by rw [hp, u32_of (by omega)]
  rw [hseq]
  have hmk : ¬ (p.marker ∧ x % 65536 + s.last.off < s.last.maxSeq ∧ s.last.maxSeq % 65536 ≠ 65535) := by
    rintro ⟨k1, k2, k3⟩
    rw [hpm] at k1
    obtain ⟨k4, k5⟩ := hm k1
    omega
  rw [if_neg hmk]
  simp only
  rw [hp]
  unfold track
  have hcase : x / 65536 = s.last.maxSeq / 65536 ∨ x / 65536 = s.last.maxSeq / 65536 + 1 ∨ x / 65536 + 1 = s.last.maxSeq / 65536 := by
    omega
  rcases hcase with hc | hc | hc
  · rw [if_neg (by omega), if_neg (by omega), if_neg (by rw [u32_of (by omega), u32_of (by omega)]; omega)]
    rw [show x % 65536 + s.last.off = x by omega]
    exact count_tame h (by omega) (by omega) hb hn (by omega)
  · rw [if_neg (by omega), if_pos (by omega)]
    rw [show u32 (x % 65536 + s.last.off + 65536) = x by rw [u32_of (by omega)]; omega]
    exact count_wrapped h hc hb
  · rw [if_pos (by omega)]
    rw [show u32 (x % 65536 + s.last.off + 4294967296 - 65536) = x by unfold u32; omega]
    exact count_tame h (by omega) (by omega) hb hn (by omega)

theorem bySsrc_some (fl : Fl J) {jp : Jit J} (h : jp.list ≠ []) (ssrc : Nat) :
    ∃ jp' i, bySsrc fl jp ssrc false = .ok (jp', some i) ∧ jp'.list ≠ [] := by
  unfold bySsrc
  cases hl : jp.list with
  | nil => exact absurd hl h
  | cons first rest =>
    simp only
    split
    · exact ⟨_, _, rfl, by simp⟩
    · split
      · exact ⟨_, _, rfl, by rw [hl]; simp⟩
      · split
        · cases hg : (first :: rest).getLast? with
          | none => simp at hg
          | some last =>
            refine ⟨_, _, rfl, ?_⟩
            unfold recycle
            simp only
            split <;> simp
        · simp only [Bool.false_eq_true, if_false]
          exact ⟨_, _, rfl, by simp⟩

/-- The analyzer does with the statistics what `updateSeq` does, if there is memory. -/
theorem analyze_stat (fl : Fl J) {a : An J} (hj : a.jit.list ≠ []) (p : Pkt) (ho : p.oom = false) :
    ∃ a', analyze fl a (some p) = .ok a' ∧ a'.jit.list ≠ [] ∧ a'.stat = (updateSeq a.stat p).1 ∧ a'.pecount = a.pecount ∧
      ((updateSeq a.stat p).2.1 ≠ .err → a'.aecount = a.aecount) := by
  obtain ⟨jp, i, hb, hne⟩ := bySsrc_some fl hj p.ssrc
  have hne' : (if p.rated then { jp with list := jp.list.modify i (fun d => updateJ fl d p (updateSeq a.stat p).2.2) }
      else jp).list ≠ [] := by
    split
    · intro h0
      have := congrArg List.length h0
      simp only [List.length_modify, List.length_nil, List.length_eq_zero_iff] at this
      exact hne this
    · exact hne
  simp only [analyze, update, ho, hb]
  cases hv : (updateSeq a.stat p).2.1 with
  | err => exact ⟨_, rfl, hne', rfl, rfl, fun h => absurd rfl h⟩
  | ok => exact ⟨_, rfl, hne', rfl, rfl, fun _ => rfl⟩
  | ssrcChg => exact ⟨_, rfl, hne', rfl, rfl, fun _ => rfl⟩

theorem run_tame (fl : Fl J) {s0 : Stat} {ssrc : Nat} : ∀ (xs : List (Nat × Bool)) (ps : List (Option Pkt)) (a : An J) (S : Finset Nat) (n : Nat),
    List.Forall₂ (Carries ssrc) ps xs → a.jit.list ≠ [] → TInv s0 a.stat ssrc S n → n + xs.length < 4294967296 →
    Tame a.stat.last.maxSeq a.stat.last.minSeq xs →
    ∃ a', run fl a ps = .ok a' ∧ TInv s0 a'.stat ssrc (S ∪ (xs.map (·.1)).toFinset) (n + xs.length) ∧ a'.pecount = a.pecount ∧
      a'.aecount = a.aecount
  | [], ps, a, S, n, hc, _, hi, _, _ => by
    cases hc
    exact ⟨a, rfl, by simpa using hi, rfl, rfl⟩
  | (x, m) :: xs, ps, a, S, n, hc, hj, hi, hn, ht => by
    cases hc with
    | cons hq hc' =>
      obtain ⟨q, rfl, q1, q2, q3, q4⟩ := hq.ex
      obtain ⟨t1, t2, t3, t4, t5, t6⟩ := ht
      simp only [List.length_cons] at hn
      obtain ⟨u1, u2, u3, u4⟩ := step_tame hi (by omega) t1 t2 t3 t4 t5 q q1 q2 q3
      obtain ⟨a1, v1, v2, v3, v4, v5⟩ := analyze_stat fl hj q q4
      have v6 := v5 (by rw [u1]; simp)
      rw [← v3] at u2 u3 u4
      obtain ⟨a2, w1, w2, w3, w4⟩ := run_tame fl xs _ a1 (insert x S) (n + 1) hc' v2 u2 (by omega) (by rw [u3, u4]; exact t6)
      refine ⟨a2, by simp [run, v1, w1], ?_, by rw [w3, v4], by rw [w4, v6]⟩
      have e1 : S ∪ (((x, m) :: xs).map (·.1)).toFinset = insert x S ∪ (xs.map (·.1)).toFinset := by
        ext y; simp only [List.map_cons, List.toFinset_cons, Finset.mem_union, Finset.mem_insert]; tauto
      rw [e1]
      simpa [Nat.add_assoc, Nat.add_comm 1] using w2

/-- Numbers received, as a set. -/
def Sent (x0 : Nat × Bool) (xs : List (Nat × Bool)) : Finset Nat := ((x0 :: xs).map (·.1)).toFinset

theorem TInv.report {s0 : Stat} {ssrc : Nat} {S : Finset Nat} {n : Nat} {a : An J} (h : TInv s0 a.stat ssrc S n)
    (hsum : s0.precvd + s0.dups + n < 4294967296) (hps : s0.psent + (a.stat.last.maxSeq - a.stat.last.minSeq + 1) < 4294967296) :
    (report a).psent = s0.psent + (a.stat.last.maxSeq - a.stat.last.minSeq + 1) ∧
    (report a).precvd = s0.precvd + S.card ∧ (report a).pdups = s0.dups + (n - S.card) ∧
    S.card ≤ a.stat.last.maxSeq - a.stat.last.minSeq + 1 := by
  obtain ⟨h1, h2, h3, h4, h5, h6, h7, h8, h9, h10, h11, h12⟩ := h
  have hle := h4 _ h1
  have hcard : S.card ≤ a.stat.last.maxSeq - a.stat.last.minSeq + 1 := by
    have hsub : S ⊆ Finset.Icc a.stat.last.minSeq a.stat.last.maxSeq := by
      intro y hy
      exact Finset.mem_Icc.2 ⟨h4 y hy, h2 y hy⟩
    have := Finset.card_le_card hsub
    rw [Nat.card_Icc] at this
    omega
  have hpos : 0 < S.card := Finset.card_pos.2 ⟨_, h1⟩
  simp only [Verif.Analyze.report, totals]
  rw [if_neg (by omega)]
  simp only
  rw [h12.1, h12.2.1, h12.2.2, h7]
  refine ⟨?_, ?_, ?_, hcard⟩
  · rw [show a.stat.last.maxSeq + 4294967296 - a.stat.last.minSeq + 1 = 4294967296 + (a.stat.last.maxSeq - a.stat.last.minSeq + 1) by omega]
    unfold u32; omega
  · rw [u32_of (by omega)]
  · rw [u32_of (by omega)]; omega

/-- One source, from the start: received is the number of distinct packets, sent is the span of their numbers, loss is not
negative, the rest are duplicates and nothing is an error. -/
theorem C11_one_source_partial (fl : Fl J) (ssrc : Nat) (x0 : Nat × Bool) (xs : List (Nat × Bool)) (ps : List (Option Pkt))
    (h0 : x0.1 < 65536) (ht : Tame x0.1 x0.1 xs) (hc : List.Forall₂ (Carries ssrc) ps (x0 :: xs))
    (hn : xs.length + 1 < 4294967296) :
    ∃ a lo hi, run fl (.init fl) ps = .ok a ∧ lo ∈ Sent x0 xs ∧ hi ∈ Sent x0 xs ∧ (∀ x ∈ Sent x0 xs, lo ≤ x ∧ x ≤ hi) ∧
      (report a).precvd = (Sent x0 xs).card ∧ (report a).psent = hi - lo + 1 ∧ (report a).precvd ≤ (report a).psent ∧
      (report a).pdups + (Sent x0 xs).card = xs.length + 1 ∧ (report a).aecount = 0 ∧ (report a).changes = 1 := by
  cases hc with
  | cons hq hc' =>
    rename_i p0 ps'
    obtain ⟨q, rfl, q1, q2, q3, q4⟩ := hq.ex
    obtain ⟨a1, v1, v2, v3, v4, v5⟩ := analyze_stat fl (a := .init fl) (by simp [An.init, Jit.init]) q q4
    have hq1 : q.seq = x0.1 := by rw [q1]; omega
    have hst : a1.stat = ⟨1, 0, 0, 0, 0, 0, ⟨1, x0.1, x0.1, 0, ssrc, setBit (fun _ => false) x0.1 x0.1, 0⟩⟩ := by
      rw [v3]; simp [updateSeq, An.init, Stat.init, hq1, q3]
    have hae : a1.aecount = 0 := by rw [v5 (by simp [updateSeq, An.init, Stat.init])]; rfl
    have hti : TInv a1.stat a1.stat ssrc {x0.1} 1 := by
      rw [hst]
      refine ⟨by simp, by simp, by simp, by simp, ?_, ?_, by simp, by simp, ?_, rfl, by simp, by simp⟩
      · simp only; omega
      · intro x hx1 hx2
        simp only at hx1 hx2 ⊢
        unfold setBit
        rw [bit_idx]
        simp only [Finset.mem_singleton]
        constructor
        · intro hh
          split at hh
          · omega
          · cases hh
        · rintro rfl; simp
      · simp only; omega
    obtain ⟨a2, w1, w2, w3, w4⟩ := run_tame fl xs ps' a1 {x0.1} 1 hc' v2 hti (by omega) (by rw [hst]; exact ht)
    have hS : ({x0.1} : Finset Nat) ∪ (xs.map (·.1)).toFinset = Sent x0 xs := by
      ext y; simp [Sent]
    rw [hS] at w2
    have hb := w2.bound
    obtain ⟨r1, r2, r3, r4⟩ := w2.report (by rw [hst]; simp only; omega) (by rw [hst]; simp only; omega)
    rw [hst] at r1 r2 r3
    simp only [Nat.zero_add] at r1 r2 r3
    have hd := w2.dups
    refine ⟨a2, a2.stat.last.minSeq, a2.stat.last.maxSeq, by simp [run, v1, w1], w2.lo_mem, w2.hi_mem,
      fun x hx => ⟨w2.lo x hx, w2.hi x hx⟩, r2, r1, by omega, by omega, ?_, ?_⟩
    · show a2.aecount = 0
      rw [w4, hae]
    · show a2.stat.changes = 1
      rw [w2.changes.2, hst]

/-- A tame stream that wraps, with loss, reordering across the wrap and a duplicate. -/
example : Tame 65533 65533 [(65535, true), (65537, false), (65534, false), (65537, false), (65540, true)] := by
  simp [Tame]

/-- A later source (the statistics have not seen a wrap before): its numbers are added to what was reported. -/
theorem C11_next_source_partial (fl : Fl J) (ssrc : Nat) (a : An J) (hj : a.jit.list ≠ []) (hch : a.stat.changes ≠ 0)
    (hch' : a.stat.changes + 1 < 4294967296)
    (hs : a.stat.last.ssrc ≠ ssrc) (hoff : a.stat.last.off = 0) (x0 : Nat × Bool) (xs : List (Nat × Bool)) (ps : List (Option Pkt))
    (h0 : x0.1 < 65536) (ht : Tame x0.1 x0.1 xs) (hc : List.Forall₂ (Carries ssrc) ps (x0 :: xs))
    (hn : (report a).precvd + (report a).pdups + xs.length + 1 < 4294967296) (hn' : xs.length < 4294967295) :
    ∃ a' lo hi, run fl a ps = .ok a' ∧ lo ∈ Sent x0 xs ∧ hi ∈ Sent x0 xs ∧ (∀ x ∈ Sent x0 xs, lo ≤ x ∧ x ≤ hi) ∧
      (report a').precvd = (report a).precvd + (Sent x0 xs).card ∧
      (report a').pdups + (Sent x0 xs).card = (report a).pdups + xs.length + 1 ∧
      ((report a).psent + (hi - lo + 1) < 4294967296 → (report a').psent = (report a).psent + (hi - lo + 1)) ∧
      (Sent x0 xs).card ≤ hi - lo + 1 ∧
      (report a').aecount = (report a).aecount ∧ (report a').changes = (report a).changes + 1 := by
  cases hc with
  | cons hq hc' =>
    rename_i p0 ps'
    obtain ⟨q, rfl, q1, q2, q3, q4⟩ := hq.ex
    obtain ⟨a1, v1, v2, v3, v4, v5⟩ := analyze_stat fl hj q q4
    have hq1 : q.seq = x0.1 := by rw [q1]; omega
    have hup : updateSeq a.stat q = ({ totals a.stat with
        changes := u32 (a.stat.changes + 1), last := { (restart a.stat.last x0.1 x0.1) with ssrc := ssrc } }, .ssrcChg, .ssrcReset) := by
      unfold updateSeq
      rw [if_neg hch, if_pos (by rw [q3]; exact hs)]
      simp [hq1, q3]
    rw [hup] at v3 v5
    have hae : a1.aecount = a.aecount := v5 (by simp)
    simp only at v3
    have hti : TInv a1.stat a1.stat ssrc {x0.1} 1 := by
      rw [v3]
      refine ⟨by simp [restart], by simp [restart], by simp [restart], by simp [restart], ?_, ?_, by simp [restart], by simp [restart], ?_, rfl, ⟨?_, rfl⟩, by simp⟩
      · simp only [restart, hoff]; omega
      · intro x hx1 hx2
        simp only [restart, hoff] at hx1 hx2 ⊢
        unfold setBit
        rw [bit_idx]
        simp only [Finset.mem_singleton]
        constructor
        · intro hh
          split at hh
          · omega
          · cases hh
        · rintro rfl; simp
      · simp only [restart]; omega
      · simp only; rw [u32_of hch']; omega
    obtain ⟨a2, w1, w2, w3, w4⟩ := run_tame fl xs ps' a1 {x0.1} 1 hc' v2 hti (by omega) (by rw [v3]; exact ht)
    have hS : ({x0.1} : Finset Nat) ∪ (xs.map (·.1)).toFinset = Sent x0 xs := by
      ext y; simp [Sent]
    rw [hS] at w2
    have hd := w2.dups
    have e1 : a1.stat.precvd = (report a).precvd := by rw [v3]; rfl
    have e2 : a1.stat.dups = (report a).pdups := by rw [v3]; rfl
    have e3 : a1.stat.psent = (report a).psent := by rw [v3]; rfl
    have hpos : 0 < (Sent x0 xs).card := Finset.card_pos.2 ⟨_, w2.hi_mem⟩
    have hlh := w2.lo _ w2.hi_mem
    have hcard : (Sent x0 xs).card ≤ a2.stat.last.maxSeq - a2.stat.last.minSeq + 1 := by
      have hsub : Sent x0 xs ⊆ Finset.Icc a2.stat.last.minSeq a2.stat.last.maxSeq := by
        intro y hy
        exact Finset.mem_Icc.2 ⟨w2.lo y hy, w2.hi y hy⟩
      have := Finset.card_le_card hsub
      rw [Nat.card_Icc] at this
      omega
    have hpc : a2.stat.last.pcount ≠ 0 := by rw [w2.pcount]; omega
    have r2 : (report a2).precvd = (report a).precvd + (Sent x0 xs).card := by
      simp only [report, totals] at *
      rw [if_neg hpc]
      simp only
      rw [w2.sent.2.1, e1, w2.pcount, u32_of (by omega)]
    have r3 : (report a2).pdups + (Sent x0 xs).card = (report a).pdups + xs.length + 1 := by
      simp only [report, totals] at *
      rw [if_neg hpc]
      simp only
      rw [w2.sent.2.2, e2, u32_of (by omega)]
      omega
    refine ⟨a2, a2.stat.last.minSeq, a2.stat.last.maxSeq, by simp [run, v1, w1], w2.lo_mem, w2.hi_mem,
      fun x hx => ⟨w2.lo x hx, w2.hi x hx⟩, r2, r3, ?_, hcard, ?_, ?_⟩
    · intro hps
      exact ((w2.report (by rw [e1, e2]; omega) (by rw [e3]; exact hps)).1).trans (by rw [e3])
    · show a2.aecount = a.aecount
      rw [w4, hae]
    · show a2.stat.changes = a.stat.changes + 1
      rw [w2.changes.2, v3]; exact u32_of hch'

/-! ## What goes wrong otherwise -/

/-- Jitter arithmetic for the examples. -/
def fl0 : Fl Unit := ⟨(), fun _ _ => ()⟩

/-- A packet of source 7. -/
def pk (seq : Nat) (m : Bool := false) (ssrc : Nat := 7) : Option Pkt := some ⟨seq, ssrc, 0, m, false, false, 0, false⟩

def rep (ps : List (Option Pkt)) : Option Report := (run fl0 (.init fl0) ps).toOption.map report

/-- A packet from before the start of the stream, number -36, is taken for number 2^32 - 36: four thousand million packets
are reported as sent. -/
theorem C11_underflow_counterexample : rep [pk 10, pk 65500] = some ⟨4294967251, 2, 0, 0, 0, 1⟩ := by decide +kernel

/-- With a second source after that the sum wraps: more received than sent, the loss is negative. -/
theorem C11_negative_loss_counterexample :
    rep ([pk 10, pk 65500] ++ (List.range 50).map (fun i => pk (100 + i) false 8)) = some ⟨5, 52, 0, 0, 0, 2⟩ := by
  decide +kernel

/-- A packet older than the first one that arrives after a wrap is an error, neither received nor duplicate. -/
theorem C11_old_packet_counterexample : rep [pk 65535, pk 0, pk 65530] = some ⟨2, 2, 0, 0, 1, 1⟩ := by decide +kernel

/-- The number of wraps is not forgotten when the source changes: the second source, numbers -36 (65500) and 5, is taken
to have sent 65496 packets. -/
theorem C11_offset_counterexample :
    rep [pk 65535, pk 0, pk 5 false 8, pk 65500 false 8] = some ⟨65498, 4, 0, 0, 0, 2⟩ := by decide +kernel

/-- A marker on the first packet after a wrap with a gap is taken for a restart: the gap is not counted as loss. -/
theorem C11_marker_counterexample : rep [pk 65530, pk 0 true] = some ⟨2, 2, 0, 0, 0, 1⟩ ∧
    rep [pk 65530, pk 0 false] = some ⟨7, 2, 0, 0, 0, 1⟩ := by decide +kernel

end Verif.Analyze
