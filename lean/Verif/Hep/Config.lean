import Verif.Hep.Props

/-!
# C81: the configuration of the module
-/

namespace Verif.Hep

open Rtcp (asc)

theorem lower_lc (c : UInt8) : lower c = lc c := by
  unfold lower lc
  simp only [UInt8.le_iff_toNat_le]
  rfl

theorem same_iff (a b : List UInt8) : same a b = true ↔ Alike a b := by
  unfold same Alike
  have : ∀ l : List UInt8, l.map lower = l.map lc := fun l => List.map_congr_left fun c _ => lower_lc c
  rw [this a, this b]
  exact beq_iff_eq

/-- The keys of the section. -/
def keys : List (List UInt8) := [asc "load", asc "capt_host", asc "capt_port", asc "capt_ptype", asc "capt_id"]

/-- No two of the keys are alike. -/
theorem keys_apart : keys.Pairwise fun a b => ¬ Alike a b := by decide +kernel

theorem alike_trans {a b k : List UInt8} (h1 : Alike a k) (h2 : Alike b k) : Alike a b := h1.trans h2.symm

theorem find5 {F : Type} (k a b c d e : List UInt8) (fa fb fc fd fe : F) :
    (Alike a k ∧ [(a, fa), (b, fb), (c, fc), (d, fd), (e, fe)].find? (fun t => same t.1 k) = some (a, fa)) ∨
    (Alike b k ∧ [(a, fa), (b, fb), (c, fc), (d, fd), (e, fe)].find? (fun t => same t.1 k) = some (b, fb)) ∨
    (Alike c k ∧ [(a, fa), (b, fb), (c, fc), (d, fd), (e, fe)].find? (fun t => same t.1 k) = some (c, fc)) ∨
    (Alike d k ∧ [(a, fa), (b, fb), (c, fc), (d, fd), (e, fe)].find? (fun t => same t.1 k) = some (d, fd)) ∨
    (Alike e k ∧ [(a, fa), (b, fb), (c, fc), (d, fd), (e, fe)].find? (fun t => same t.1 k) = some (e, fe)) ∨
    ((∀ q ∈ [a, b, c, d, e], ¬ Alike q k) ∧ [(a, fa), (b, fb), (c, fc), (d, fd), (e, fe)].find? (fun t => same t.1 k) = none) := by
  have ha := same_iff a k
  have hb := same_iff b k
  have hc := same_iff c k
  have hd := same_iff d k
  have he := same_iff e k
  simp only [List.find?_cons, List.find?_nil, List.mem_cons, List.not_mem_nil, or_false, forall_eq_or_imp, forall_eq]
  cases h1 : same a k
  · cases h2 : same b k
    · cases h3 : same c k
      · cases h4 : same d k
        · cases h5 : same e k
          · simp_all
          · simp_all
        · simp_all
      · simp_all
    · simp_all
  · simp_all

/-- What an entry with a function does. -/
def via (f : Val → Conf → Conf × Bool) (v : Val) (c : Conf) (r : List (List UInt8 × Val)) : Conf × Bool :=
  if (f v c).2 then mapper (f v c).1 r else ((f v c).1, false)

theorem mapper_none (c : Conf) (k q : List UInt8) (v : Val) (r : List (List UInt8 × Val))
    (h : table.find? (fun t => same t.1 k) = some (q, none)) : mapper c ((k, v) :: r) = mapper c r := by
  conv_lhs => unfold mapper
  rw [h]

theorem mapper_some (c : Conf) (k q : List UInt8) (f : Val → Conf → Conf × Bool) (v : Val) (r : List (List UInt8 × Val))
    (h : table.find? (fun t => same t.1 k) = some (q, some f)) : mapper c ((k, v) :: r) = via f v c r := by
  conv_lhs => unfold mapper
  rw [h]
  unfold via
  simp only
  rcases f v c with ⟨c', b⟩
  cases b <;> rfl

theorem mapper_unknown (c : Conf) (k : List UInt8) (v : Val) (r : List (List UInt8 × Val))
    (h : table.find? (fun t => same t.1 k) = none) : mapper c ((k, v) :: r) = (c, false) := by
  conv_lhs => unfold mapper
  rw [h]

/-- What one entry does. -/
theorem mapper_cons (c : Conf) (k : List UInt8) (v : Val) (r : List (List UInt8 × Val)) :
    (Alike (asc "load") k ∧ mapper c ((k, v) :: r) = mapper c r) ∨
    (Alike (asc "capt_host") k ∧ mapper c ((k, v) :: r) = mapper { c with host := forced v } r) ∨
    (Alike (asc "capt_port") k ∧ mapper c ((k, v) :: r) = via setPort v c r) ∨
    (Alike (asc "capt_ptype") k ∧ mapper c ((k, v) :: r) = via setPtype v c r) ∨
    (Alike (asc "capt_id") k ∧ mapper c ((k, v) :: r) = via setId v c r) ∨
    ((∀ q ∈ keys, ¬ Alike q k) ∧ mapper c ((k, v) :: r) = (c, false)) := by
  rcases find5 k (asc "load") (asc "capt_host") (asc "capt_port") (asc "capt_ptype") (asc "capt_id")
    none (some fun v (c : Conf) => ({ c with host := forced v }, true)) (some setPort) (some setPtype) (some setId)
    with ⟨h, hf⟩ | ⟨h, hf⟩ | ⟨h, hf⟩ | ⟨h, hf⟩ | ⟨h, hf⟩ | ⟨h, hf⟩
  · exact .inl ⟨h, mapper_none c k _ v r hf⟩
  · exact .inr (.inl ⟨h, mapper_some c k _ _ v r hf⟩)
  · exact .inr (.inr (.inl ⟨h, mapper_some c k _ _ v r hf⟩))
  · exact .inr (.inr (.inr (.inl ⟨h, mapper_some c k _ _ v r hf⟩)))
  · exact .inr (.inr (.inr (.inr (.inl ⟨h, mapper_some c k _ _ v r hf⟩))))
  · exact .inr (.inr (.inr (.inr (.inr ⟨h, mapper_unknown c k v r hf⟩))))

theorem setting_cons {V : Type} (q k : List UInt8) (v : V) (r : List (List UInt8 × V)) : setting q ((k, v) :: r) =
    (setting q r).or (if Alike q k then some v else none) := by
  rw [setting]
  cases setting q r <;> rfl

/-- An entry that the module takes. -/
def Valid (x : List UInt8 × Val) : Prop :=
  (Alike (asc "capt_port") x.1 → ∃ n, x.2 = .int n ∧ 1 ≤ n ∧ n ≤ 65535) ∧
  (Alike (asc "capt_ptype") x.1 → Alike (forced x.2) (asc "udp") ∨ Alike (forced x.2) (asc "tcp")) ∧
  (Alike (asc "capt_id") x.1 → ∃ n, x.2 = .int n ∧ 0 ≤ n ∧ n ≤ 4294967295) ∧
  ∃ q ∈ keys, Alike q x.1

theorem apart {a b k : List UInt8} (h : ¬ Alike a b) (hb : Alike b k) : ¬ Alike a k := fun ha => h (alike_trans ha hb)

theorem dec_short (n : Int) (h1 : 1 ≤ n) (h2 : n ≤ 65535) : (Dec.decI n).take 6 = Dec.decI n := by
  apply List.take_of_length_le
  unfold Dec.decI
  rw [if_neg (by omega)]
  exact Nat.le_succ_of_le (Dec.dec_length 4 _ (by omega))

/-- The identifier that a value stands for, in 32 bits with sign. -/
def idOf : Val → Int
  | .int n => if n < 2147483648 then n else n - 4294967296
  | .text _ => 0

/-- The claim of `C81_config` for a section. -/
def Claim (c0 : Conf) (l : List (List UInt8 × Val)) : Prop :=
  ((mapper c0 l).2 = true ↔ ∀ x ∈ l, Valid x) ∧
  ((mapper c0 l).2 = true →
    (mapper c0 l).1.host = ((setting (asc "capt_host") l).map forced).getD c0.host ∧
    (mapper c0 l).1.port = ((setting (asc "capt_port") l).map forced).getD c0.port ∧
    (mapper c0 l).1.tcp = ((setting (asc "capt_ptype") l).map fun v => decide (Alike (forced v) (asc "tcp"))).getD c0.tcp ∧
    (mapper c0 l).1.id = ((setting (asc "capt_id") l).map idOf).getD c0.id)

theorem or_some {V W : Type} (o : Option V) (v : V) (f : V → W) (d : W) : ((o.or (some v)).map f).getD d = (o.map f).getD (f v) := by
  cases o <;> rfl

theorem claim_step (c0 c1 : Conf) (k : List UInt8) (v : Val) (r : List (List UInt8 × Val)) (hm : mapper c0 ((k, v) :: r) = mapper c1 r)
    (hv : Valid (k, v)) (ih : Claim c1 r)
    (h1 : c1.host = if Alike (asc "capt_host") k then forced v else c0.host)
    (h2 : c1.port = if Alike (asc "capt_port") k then forced v else c0.port)
    (h3 : c1.tcp = if Alike (asc "capt_ptype") k then decide (Alike (forced v) (asc "tcp")) else c0.tcp)
    (h4 : c1.id = if Alike (asc "capt_id") k then idOf v else c0.id) : Claim c0 ((k, v) :: r) := by
  obtain ⟨i1, i2⟩ := ih
  unfold Claim
  rw [hm]
  refine ⟨⟨fun h => ?_, fun h => i1.2 fun x hx => h x (by simp [hx])⟩, fun h => ?_⟩
  · intro x hx
    rcases List.mem_cons.1 hx with rfl | hx
    · exact hv
    · exact i1.1 h x hx
  · obtain ⟨a, b, c, d⟩ := i2 h
    rw [setting_cons, setting_cons, setting_cons, setting_cons, a, b, c, d, h1, h2, h3, h4]
    refine ⟨?_, ?_, ?_, ?_⟩
    all_goals
      split
      · rw [or_some]
      · rw [Option.or_none]

theorem claim_fail (c0 : Conf) (k : List UInt8) (v : Val) (r : List (List UInt8 × Val)) (hm : (mapper c0 ((k, v) :: r)).2 = false)
    (hv : ¬ Valid (k, v)) : Claim c0 ((k, v) :: r) := by
  unfold Claim
  rw [hm]
  exact ⟨⟨(fun h => by cases h), fun h => absurd (h _ List.mem_cons_self) hv⟩, fun h => by cases h⟩

theorem key_ne : ¬ Alike (asc "capt_host") (asc "load") ∧ ¬ Alike (asc "capt_port") (asc "load") ∧ ¬ Alike (asc "capt_ptype") (asc "load") ∧
    ¬ Alike (asc "capt_id") (asc "load") ∧ ¬ Alike (asc "capt_port") (asc "capt_host") ∧ ¬ Alike (asc "capt_ptype") (asc "capt_host") ∧
    ¬ Alike (asc "capt_id") (asc "capt_host") ∧ ¬ Alike (asc "capt_ptype") (asc "capt_port") ∧ ¬ Alike (asc "capt_id") (asc "capt_port") ∧
    ¬ Alike (asc "capt_id") (asc "capt_ptype") ∧ ¬ Alike (asc "udp") (asc "tcp") := by
  decide +kernel

theorem alike_symm {a b : List UInt8} (h : Alike a b) : Alike b a := h.symm

theorem claim (c0 : Conf) (l : List (List UInt8 × Val)) : Claim c0 l := by
  obtain ⟨n1, n2, n3, n4, n5, n6, n7, n8, n9, n10, n11⟩ := key_ne
  induction l generalizing c0 with
  | nil => exact ⟨⟨(fun _ x hx => by cases hx), fun _ => rfl⟩, fun _ => ⟨rfl, rfl, rfl, rfl⟩⟩
  | cons x r ih =>
    obtain ⟨k, v⟩ := x
    rcases mapper_cons c0 k v r with ⟨hk, hm⟩ | ⟨hk, hm⟩ | ⟨hk, hm⟩ | ⟨hk, hm⟩ | ⟨hk, hm⟩ | ⟨hk, hm⟩
    · have a1 := apart n1 hk
      have a2 := apart n2 hk
      have a3 := apart n3 hk
      have a4 := apart n4 hk
      refine claim_step c0 c0 k v r hm ⟨fun h => absurd h a2, fun h => absurd h a3, fun h => absurd h a4, _, by simp [keys], hk⟩ (ih c0) ?_ ?_ ?_ ?_
      · rw [if_neg a1]
      · rw [if_neg a2]
      · rw [if_neg a3]
      · rw [if_neg a4]
    · have a2 := apart n5 hk
      have a3 := apart n6 hk
      have a4 := apart n7 hk
      refine claim_step c0 _ k v r hm ⟨fun h => absurd h a2, fun h => absurd h a3, fun h => absurd h a4, _, by simp [keys], hk⟩ (ih _) ?_ ?_ ?_ ?_
      · rw [if_pos hk]
      · rw [if_neg a2]
      · rw [if_neg a3]
      · rw [if_neg a4]
    · have a1 : ¬ Alike (asc "capt_host") k := apart (fun h => n5 (alike_symm h)) hk
      have a3 := apart n8 hk
      have a4 := apart n9 hk
      cases v with
      | text s =>
        refine claim_fail c0 k _ r (by rw [hm]; rfl) ?_
        rintro ⟨h, _⟩
        obtain ⟨n, hn, _⟩ := h hk
        cases hn
      | int n =>
        by_cases hn : n ≤ 0 ∨ n > 65535
        · refine claim_fail c0 k _ r (by rw [hm]; unfold via setPort; simp only [if_pos hn]; rfl) ?_
          rintro ⟨h, _⟩
          obtain ⟨n', hn', _, _⟩ := h hk
          cases hn'
          omega
        · have hv : via setPort (.int n) c0 r = mapper { c0 with port := (Dec.decI n).take 6 } r := by
            unfold via setPort; simp only [if_neg hn]; rfl
          refine claim_step c0 _ k _ r (hm.trans hv) ⟨fun _ => ⟨n, rfl, by omega, by omega⟩, fun h => absurd h a3, fun h => absurd h a4, _, by simp [keys], hk⟩
            (ih _) ?_ ?_ ?_ ?_
          · rw [if_neg a1]
          · rw [if_pos hk]; exact dec_short n (by omega) (by omega)
          · rw [if_neg a3]
          · rw [if_neg a4]
    · have a1 : ¬ Alike (asc "capt_host") k := apart (fun h => n6 (alike_symm h)) hk
      have a2 : ¬ Alike (asc "capt_port") k := apart (fun h => n8 (alike_symm h)) hk
      have a4 := apart n10 hk
      by_cases hu : Alike (forced v) (asc "udp")
      · have hv : via setPtype v c0 r = mapper { c0 with tcp := false } r := by
          unfold via setPtype; simp only [if_pos ((same_iff _ _).2 hu)]; rfl
        have ht : ¬ Alike (forced v) (asc "tcp") := fun h => n11 (hu.symm.trans h)
        refine claim_step c0 _ k _ r (hm.trans hv) ⟨fun h => absurd h a2, fun _ => .inl hu, fun h => absurd h a4, _, by simp [keys], hk⟩ (ih _) ?_ ?_ ?_ ?_
        · rw [if_neg a1]
        · rw [if_neg a2]
        · rw [if_pos hk, decide_eq_false ht]
        · rw [if_neg a4]
      · by_cases ht : Alike (forced v) (asc "tcp")
        · have hv : via setPtype v c0 r = mapper { c0 with tcp := true } r := by
            unfold via setPtype
            simp only [if_neg (fun h => hu ((same_iff _ _).1 h)), if_pos ((same_iff _ _).2 ht)]
            rfl
          refine claim_step c0 _ k _ r (hm.trans hv) ⟨fun h => absurd h a2, fun _ => .inr ht, fun h => absurd h a4, _, by simp [keys], hk⟩ (ih _) ?_ ?_ ?_ ?_
          · rw [if_neg a1]
          · rw [if_neg a2]
          · rw [if_pos hk, decide_eq_true ht]
          · rw [if_neg a4]
        · refine claim_fail c0 k _ r ?_ ?_
          · rw [hm]
            unfold via setPtype
            simp only [if_neg (fun h => hu ((same_iff _ _).1 h)), if_neg (fun h => ht ((same_iff _ _).1 h))]
            rfl
          · rintro ⟨_, h, _⟩
            rcases h hk with h | h
            · exact hu h
            · exact ht h
    · have a1 : ¬ Alike (asc "capt_host") k := apart (fun h => n7 (alike_symm h)) hk
      have a2 : ¬ Alike (asc "capt_port") k := apart (fun h => n9 (alike_symm h)) hk
      have a3 : ¬ Alike (asc "capt_ptype") k := apart (fun h => n10 (alike_symm h)) hk
      cases v with
      | text s =>
        refine claim_fail c0 k _ r (by rw [hm]; rfl) ?_
        rintro ⟨_, _, h, _⟩
        obtain ⟨n, hn, _⟩ := h hk
        cases hn
      | int n =>
        by_cases hn : n < 0 ∨ n > 4294967295
        · refine claim_fail c0 k _ r (by rw [hm]; unfold via setId; simp only [if_pos hn]; rfl) ?_
          rintro ⟨_, _, h, _⟩
          obtain ⟨n', hn', _, _⟩ := h hk
          cases hn'
          omega
        · have hv : via setId (.int n) c0 r = mapper { c0 with id := toInt n } r := by
            unfold via setId; simp only [if_neg hn]; rfl
          refine claim_step c0 _ k _ r (hm.trans hv) ⟨fun h => absurd h a2, fun h => absurd h a3, fun _ => ⟨n, rfl, by omega, by omega⟩, _, by simp [keys], hk⟩
            (ih _) ?_ ?_ ?_ ?_
          · rw [if_neg a1]
          · rw [if_neg a2]
          · rw [if_neg a3]
          · rw [if_pos hk]
            unfold toInt idOf
            simp only
            split <;> omega
    · refine claim_fail c0 k v r (by rw [hm]) ?_
      rintro ⟨_, _, _, q, hq, h⟩
      exact hk q hq h

/-- What a section sets: for each key the last value, the numbers as they are written; and what is refused: unknown keys, and values outside of
their range. -/
theorem C81_config (c0 : Conf) (l : List (List UInt8 × Val)) :
    ((mapper c0 l).2 = true ↔ ∀ x ∈ l, Valid x) ∧
    ((mapper c0 l).2 = true →
      (mapper c0 l).1.host = ((setting (asc "capt_host") l).map forced).getD c0.host ∧
      (mapper c0 l).1.port = ((setting (asc "capt_port") l).map forced).getD c0.port ∧
      (mapper c0 l).1.tcp = ((setting (asc "capt_ptype") l).map fun v => decide (Alike (forced v) (asc "tcp"))).getD c0.tcp ∧
      (mapper c0 l).1.id = ((setting (asc "capt_id") l).map idOf).getD c0.id) :=
  claim c0 l

end Verif.Hep
