import Verif.Eaud.Model
import Mathlib.Data.List.Induction

/-!
# The order of loaded packets
-/

namespace Verif.Eaud

variable {T : Type}

/-- Packets one after the other into the list of a source. -/
def fill (l : List (Packet T)) (xs : List (Packet T)) : List (Packet T) := xs.foldl (fun l p => (insert p l).getD l) l

/-- The packets of one source as they were sent have running numbers `n`, of which the packets carry the lower sixteen bits;
time stamps increase with them.  The packets arrive in some order, some of them several times, such that

* a packet that comes late was sent after the last wrap of the sequence numbers before the packets it comes after;
* a packet is not preceded by a gap of 65536 packets or more. -/
structure Orderly (n : Packet T → Nat) (xs : List (Packet T)) : Prop where
  seq : ∀ p ∈ xs, p.info.seq = n p % 65536
  ts : ∀ p ∈ xs, ∀ q ∈ xs, n p < n q → p.info.ts < q.info.ts
  late : xs.Pairwise fun p q => n q < n p → n q / 65536 = n p / 65536
  gap : ∀ pre q post, xs = pre ++ q :: post → (∃ p ∈ pre, n p < n q) → ∃ p ∈ pre, n p ≤ n q ∧ n q < n p + 65536

/-- The list wanted: the packets in the order of their numbers, every number once, for each number the packet that came
first. -/
structure Sorted (n : Packet T → Nat) (xs l : List (Packet T)) : Prop where
  asc : l.Pairwise fun p q => n p < n q
  all : ∀ p ∈ xs, ∃ q ∈ l, n q = n p
  first : ∀ q ∈ l, ∃ pre post, xs = pre ++ q :: post ∧ ∀ p ∈ pre, n p ≠ n q

theorem insertRev_spec {n : Packet T → Nat} {q : Packet T} (hq : q.info.seq = n q % 65536) : ∀ (r : List (Packet T)),
    r.Pairwise (fun p p' => n p' < n p) → (∀ p ∈ r, p.info.seq = n p % 65536) →
    (∀ p ∈ r, n p < n q → p.info.ts < q.info.ts) → (∀ p ∈ r, n q < n p → q.info.ts < p.info.ts) →
    (∀ p ∈ r, n q < n p → n q / 65536 = n p / 65536) →
    ((∃ p ∈ r, n p < n q) → ∃ p ∈ r, n p ≤ n q ∧ n q < n p + 65536) →
    (insertRev q r = none ∧ ∃ p ∈ r, n p = n q) ∨
    (∃ hi lo, insertRev q r = some (hi ++ q :: lo) ∧ r = hi ++ lo ∧ (∀ p ∈ hi, n q < n p) ∧ ∀ p ∈ lo, n p < n q)
  | [], _, _, _, _, _, _ => .inr ⟨[], [], rfl, rfl, by simp, by simp⟩
  | pp :: rest, hs, h1, h2, h3, h4, h5 => by
    have hs' := List.pairwise_cons.1 hs
    have e1 := h1 pp (by simp)
    unfold insertRev
    rcases Nat.lt_trichotomy (n pp) (n q) with hlt | heq | hgt
    · -- the predecessor
      have hne : pp.info.seq ≠ q.info.seq := by
        obtain ⟨p, hp, k1, k2⟩ := h5 ⟨pp, by simp, hlt⟩
        have hle : n p ≤ n pp := by
          rcases List.mem_cons.1 hp with rfl | hp
          · exact Nat.le_refl _
          · exact Nat.le_of_lt (hs'.1 p hp)
        rw [e1, hq]
        omega
      rw [if_neg hne, if_pos (.inl (h2 pp (by simp) hlt))]
      refine .inr ⟨[], pp :: rest, rfl, rfl, by simp, fun p hp => ?_⟩
      rcases List.mem_cons.1 hp with rfl | hp
      · exact hlt
      · exact Nat.lt_trans (hs'.1 p hp) hlt
    · rw [if_pos (by rw [e1, hq, heq])]
      exact .inl ⟨rfl, pp, by simp, heq⟩
    · have k4 := h4 pp (by simp) hgt
      have k3 := h3 pp (by simp) hgt
      rw [if_neg (by rw [e1, hq]; omega), if_neg (by rw [e1, hq]; omega)]
      rcases insertRev_spec hq rest hs'.2 (fun p hp => h1 p (by simp [hp])) (fun p hp => h2 p (by simp [hp]))
          (fun p hp => h3 p (by simp [hp])) (fun p hp => h4 p (by simp [hp])) (fun ⟨p, hp, hlt⟩ => by
            obtain ⟨p', hp', a, b⟩ := h5 ⟨p, by simp [hp], hlt⟩
            rcases List.mem_cons.1 hp' with rfl | hp'
            · omega
            · exact ⟨p', hp', a, b⟩) with ⟨e, p, hp, hpn⟩ | ⟨hi, lo, e, rfl, ha, hb⟩
      · exact .inl ⟨by rw [e]; rfl, p, by simp [hp], hpn⟩
      · refine .inr ⟨pp :: hi, lo, by rw [e]; rfl, rfl, fun p hp => ?_, hb⟩
        rcases List.mem_cons.1 hp with rfl | hp
        · exact hgt
        · exact ha p hp

theorem fill_snoc (l xs : List (Packet T)) (q : Packet T) : fill l (xs ++ [q]) = (insert q (fill l xs)).getD (fill l xs) := by
  simp [fill]

theorem Orderly.init {n : Packet T → Nat} {xs : List (Packet T)} {q : Packet T} (h : Orderly n (xs ++ [q])) : Orderly n xs where
  seq := fun p hp => h.seq p (by simp [hp])
  ts := fun p hp q' hq => h.ts p (by simp [hp]) q' (by simp [hq])
  late := (List.pairwise_append.1 h.late).1
  gap := fun pre q' post e hx => h.gap pre q' (post ++ [q]) (by simp [e]) hx

/-- What can be had: under these conditions the list is the one wanted.  Without them it may be not, see the
counterexamples. -/
theorem C47_order_partial (n : Packet T → Nat) (xs : List (Packet T)) (h : Orderly n xs) : Sorted n xs (fill [] xs) := by
  induction xs using List.reverseRecOn with
  | nil => exact ⟨List.Pairwise.nil, by simp, by simp [fill]⟩
  | append_singleton xs q ih =>
    have hl := ih h.init
    rw [fill_snoc]
    generalize fill [] xs = l at hl ⊢
    have hmem : ∀ p ∈ l, p ∈ xs := fun p hp => by
      obtain ⟨pre, post, e, -⟩ := hl.first p hp
      rw [e]; simp
    have hr := insertRev_spec (n := n) (q := q) (h.seq q (by simp)) l.reverse (List.pairwise_reverse.2 hl.asc)
      (fun p hp => h.seq p (by simp [hmem p (List.mem_reverse.1 hp)]))
      (fun p hp hlt => h.ts p (by simp [hmem p (List.mem_reverse.1 hp)]) q (by simp) hlt)
      (fun p hp hlt => h.ts q (by simp) p (by simp [hmem p (List.mem_reverse.1 hp)]) hlt)
      (fun p hp hlt => (List.pairwise_append.1 h.late).2.2 p (hmem p (List.mem_reverse.1 hp)) q (by simp) hlt)
      (fun ⟨p, hp, hlt⟩ => by
        obtain ⟨p', hp', a, b⟩ := h.gap xs q [] rfl ⟨p, hmem p (List.mem_reverse.1 hp), hlt⟩
        obtain ⟨q', hq', e⟩ := hl.all p' hp'
        exact ⟨q', List.mem_reverse.2 hq', by omega, by omega⟩)
    unfold insert
    rcases hr with ⟨e, p, hp, hpn⟩ | ⟨hi, lo, e, hrev, ha, hb⟩
    · rw [e]
      refine ⟨hl.asc, fun x hx => ?_, fun x hx => ?_⟩
      · rcases List.mem_append.1 hx with hx | hx
        · exact hl.all x hx
        · rw [List.mem_singleton] at hx; subst hx
          exact ⟨p, List.mem_reverse.1 hp, hpn⟩
      · obtain ⟨pre, post, e, k⟩ := hl.first x hx
        exact ⟨pre, post ++ [q], by simp [e], k⟩
    · rw [e]
      have hl' : l = lo.reverse ++ hi.reverse := by
        rw [← List.reverse_append, ← hrev, List.reverse_reverse]
      simp only [Option.map_some, Option.getD_some, List.reverse_append, List.reverse_cons]
      have hasc := hl.asc
      rw [hl'] at hasc
      obtain ⟨s1, s2, s3⟩ := List.pairwise_append.1 hasc
      refine ⟨?_, fun x hx => ?_, fun x hx => ?_⟩
      · rw [List.append_assoc]
        refine List.pairwise_append.2 ⟨s1, ?_, fun a ha' b hb' => ?_⟩
        · simp only [List.singleton_append, List.pairwise_cons]
          exact ⟨fun b hb' => ha b (List.mem_reverse.1 hb'), s2⟩
        · rcases List.mem_append.1 hb' with hb' | hb'
          · rw [List.mem_singleton] at hb'; subst hb'
            exact hb a (List.mem_reverse.1 ha')
          · exact s3 a ha' b hb'
      · rcases List.mem_append.1 hx with hx | hx
        · obtain ⟨y, hy, k⟩ := hl.all x hx
          rw [hl'] at hy
          refine ⟨y, ?_, k⟩
          rcases List.mem_append.1 hy with hy | hy <;> simp [List.mem_reverse.1 hy]
        · rw [List.mem_singleton] at hx; subst hx
          exact ⟨x, by simp, rfl⟩
      · have : x = q ∨ x ∈ l := by
          rw [hl']
          simp only [List.mem_append, List.mem_reverse, List.mem_singleton] at hx ⊢
          rcases hx with (hx | hx) | hx
          · exact .inr (.inl hx)
          · exact .inl hx
          · exact .inr (.inr hx)
        rcases this with rfl | hx
        · refine ⟨xs, [], rfl, fun p hp he => ?_⟩
          obtain ⟨y, hy, k⟩ := hl.all p hp
          rw [← List.mem_reverse, hrev] at hy
          rcases List.mem_append.1 hy with hy | hy
          · have := ha y hy; omega
          · have := hb y hy; omega
        · obtain ⟨pre, post, e, k⟩ := hl.first x hx
          exact ⟨pre, post ++ [q], by simp [e], k⟩

/-- Whatever the packets, nothing else gets into the list and nothing that is in it gets lost; a packet is left out only if
there is one of its sequence number. -/
theorem C47_kept (xs : List (Packet T)) : (∀ p ∈ fill [] xs, p ∈ xs) ∧ ∀ p ∈ xs, ∃ q ∈ fill [] xs, q.info.seq = p.info.seq := by
  have hi : ∀ (q : Packet T) (r : List (Packet T)), (insertRev q r = none ∧ ∃ p ∈ r, p.info.seq = q.info.seq) ∨
      ∃ r', insertRev q r = some r' ∧ ∀ p, p ∈ r' ↔ p = q ∨ p ∈ r := by
    intro q r
    induction r with
    | nil => exact .inr ⟨[q], rfl, by simp⟩
    | cons pp rest ih =>
      unfold insertRev
      split
      · rename_i he; exact .inl ⟨rfl, pp, by simp, he⟩
      · split
        · exact .inr ⟨_, rfl, by simp⟩
        · rcases ih with ⟨e, p, hp, k⟩ | ⟨r', e, k⟩
          · exact .inl ⟨by rw [e]; rfl, p, by simp [hp], k⟩
          · refine .inr ⟨pp :: r', by rw [e]; rfl, fun p => ?_⟩
            rw [List.mem_cons, List.mem_cons, k]
            constructor
            · rintro (h | h | h) <;> simp [h]
            · rintro (h | h | h) <;> simp [h]
  induction xs using List.reverseRecOn with
  | nil => simp [fill]
  | append_singleton xs q ih =>
    rw [fill_snoc]
    generalize fill [] xs = l at ih ⊢
    unfold insert
    rcases hi q l.reverse with ⟨e, p, hp, k⟩ | ⟨r', e, k⟩
    · rw [e]
      refine ⟨fun x hx => by simp [ih.1 x hx], fun x hx => ?_⟩
      rcases List.mem_append.1 hx with hx | hx
      · exact ih.2 x hx
      · rw [List.mem_singleton] at hx; subst hx
        exact ⟨p, List.mem_reverse.1 hp, k⟩
    · rw [e]
      simp only [Option.map_some, Option.getD_some]
      refine ⟨fun x hx => ?_, fun x hx => ?_⟩
      · rcases (k x).1 (List.mem_reverse.1 hx) with rfl | h
        · simp
        · simp [ih.1 x (List.mem_reverse.1 h)]
      · rcases List.mem_append.1 hx with hx | hx
        · obtain ⟨y, hy, hk⟩ := ih.2 x hx
          exact ⟨y, List.mem_reverse.2 ((k y).2 (.inr (List.mem_reverse.2 hy))), hk⟩
        · rw [List.mem_singleton] at hx; subst hx
          exact ⟨x, List.mem_reverse.2 ((k x).2 (.inl rfl)), rfl⟩

/-! ## Examples and counterexamples -/

/-- The packet with running number `n` and time stamp `ts`. -/
def pk (n : Nat) (ts : Nat := 160 * n) : Packet Unit := ⟨(), ⟨160, 12, some 160, ts, n % 65536, 7, true, 0⟩, [n.toUInt8]⟩

def numbers (l : List (Packet Unit)) : List Nat := l.map fun p => p.info.ts / 160

/-- Across a wrap, with late and repeated packets. -/
example : Orderly (fun p => p.info.ts / 160) [pk 65533, pk 65535, pk 65534, pk 65535, pk 65538, pk 65536, pk 65537, pk 65536] where
  seq := by decide
  ts := by decide
  late := by decide
  gap := by
    intro pre q post e _
    have : ∀ i < 8, 0 < i → ∃ p ∈ ([pk 65533, pk 65535, pk 65534, pk 65535, pk 65538, pk 65536, pk 65537, pk 65536].take i),
        p.info.ts / 160 ≤ ([pk 65533, pk 65535, pk 65534, pk 65535, pk 65538, pk 65536, pk 65537, pk 65536].getD i (pk 0)).info.ts / 160 ∧
        ([pk 65533, pk 65535, pk 65534, pk 65535, pk 65538, pk 65536, pk 65537, pk 65536].getD i (pk 0)).info.ts / 160 <
          p.info.ts / 160 + 65536 := by decide
    have hlen := congrArg List.length e
    simp only [List.length_append, List.length_cons, List.length_nil] at hlen
    rename_i hx
    obtain ⟨p, hp, -⟩ := hx
    have h0 : 0 < pre.length := List.length_pos_of_mem hp
    have h1 := this pre.length (by omega) h0
    rw [e] at h1
    simpa using h1

example : numbers (fill [] [pk 65533, pk 65535, pk 65534, pk 65535, pk 65538, pk 65536, pk 65537, pk 65536]) =
    [65533, 65534, 65535, 65536, 65537, 65538] := by decide +kernel

/-- A packet from before the wrap that comes after it is put at the end. -/
theorem C47_late_counterexample : numbers (fill [] [pk 65534, pk 65536, pk 65535, pk 65537]) = [65534, 65536, 65535, 65537] := by
  decide +kernel

/-- A packet from before the wrap that comes twice is kept twice. -/
theorem C47_duplicate_counterexample : numbers (fill [] [pk 65535, pk 65536, pk 65535]) = [65535, 65536, 65535] := by
  decide +kernel

/-- Packets of one time stamp across a wrap get into the wrong order though they arrive in the right one. -/
theorem C47_frame_counterexample :
    (fill [] [pk 65534 9, pk 65535 9, pk 65536 9]).map (fun p => p.info.seq) = [0, 65534, 65535] := by decide +kernel

/-- A wrap of the time stamps: packets in the right order are put into the wrong one once the sequence numbers wrap, too. -/
theorem C47_timestamp_counterexample :
    (fill [] [pk 65535 4294967200, pk 65536 64]).map (fun p => p.info.seq) = [0, 65535] := by decide +kernel

/-- A packet after a pause of 65536 packets is taken for a duplicate. -/
theorem C47_gap_counterexample : numbers (fill [] [pk 5, pk 65541, pk 65542]) = [5, 65542] := by decide +kernel

end Verif.Eaud
