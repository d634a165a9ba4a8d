import Verif.Conns.Spec

/-!
# One turn of the command thread
-/

namespace Verif.Conns

theorem moveDown_mid {α : Type} (pre mid rest : List α) (x : α) :
    moveDown (pre ++ x :: (mid ++ rest)) pre.length mid.length
      = .ok (pre ++ mid ++ (List.drop (pre.length + mid.length) (pre ++ x :: (mid ++ rest)))) := by
  unfold moveDown
  rw [if_pos (by simp; omega)]
  have h1 : List.take pre.length (pre ++ x :: (mid ++ rest)) = pre := by simp
  have h2 : List.drop (pre.length + 1) (pre ++ x :: (mid ++ rest)) = mid ++ rest := by
    rw [show pre ++ x :: (mid ++ rest) = (pre ++ [x]) ++ (mid ++ rest) by simp]
    rw [List.drop_append_of_le_length (by simp)]
    simp
  rw [h1, h2]
  simp

/-- The pairs that stay. -/
def kept (out : Nat → Int) (qs : List (Pfd × Conn)) : List (Pfd × Conn) := qs.filter fun q => (look out q.1 q.2).2

def closes (out : Nat → Int) (qs : List (Pfd × Conn)) : Bool :=
  qs.any fun q => !(look out q.1 q.2).2 && (q.2.sock.kind == .stdio && q.2.sock.exitOnClose)

theorem get_mid {α : Type} (pre rest : List α) (x : α) : (pre ++ x :: rest)[pre.length]? = some x := by simp

theorem sweep_spec (out : Nat → Int) : ∀ (qs : List (Pfd × Conn)) (t : Tbl) (pre rest : List Pfd) (cpre crest : List (Option Conn)),
    t.pfds = pre ++ (qs.map (·.1) ++ rest) → t.rccs = cpre ++ (qs.map (fun q => some q.2) ++ crest) → cpre.length = pre.length →
    0 < pre.length → t.used = pre.length + qs.length →
    ∃ (rest1 : List Pfd) (crest1 : List (Option Conn)),
      rest1.length + (kept out qs).length = rest.length + qs.length ∧ crest1.length + (kept out qs).length = crest.length + qs.length ∧
      sweep out qs.length t pre.length = .ok ({ t with
        pfds := pre ++ ((kept out qs).map (·.1) ++ rest1)
        rccs := cpre ++ ((kept out qs).map (fun q => some q.2) ++ crest1)
        used := pre.length + (kept out qs).length
        slow := t.slow || closes out qs }, qs.flatMap fun q => (look out q.1 q.2).1) := by
  intro qs
  induction qs with
  | nil =>
    intro t pre rest cpre crest hp hr _ _ hu
    refine ⟨rest, crest, rfl, rfl, ?_⟩
    rw [List.length_nil, sweep]
    cases t
    simp only [List.map_nil, List.nil_append] at hp hr
    simp [kept, closes, ← hp, ← hr]
    simpa using hu
  | cons q qs ih =>
    intro t pre rest cpre crest hp hr hl h0 hu
    simp only [List.length_cons] at hu
    have e1 : t.pfds[pre.length]? = some q.1 := by rw [hp]; simp
    have e2 : t.rccs[pre.length]? = some (some q.2) := by rw [hr, ← hl]; simp
    rw [List.length_cons, sweep]
    rw [if_pos (by omega), e1, e2]
    dsimp only
    cases hk : look out q.1 q.2 with
    | mk evs stay =>
    cases stay with
    | true =>
      dsimp only
      obtain ⟨rest1, crest1, hl1, hl2, hs⟩ := ih t (pre ++ [q.1]) rest (cpre ++ [some q.2]) crest (by rw [hp]; simp) (by rw [hr]; simp)
        (by simp [hl]) (by simp) (by simp; omega)
      have hkept : kept out (q :: qs) = q :: kept out qs := by simp [kept, hk]
      refine ⟨rest1, crest1, by rw [hkept]; simp only [List.length_cons]; omega, by rw [hkept]; simp only [List.length_cons]; omega, ?_⟩
      rw [show pre.length + 1 = (pre ++ [q.1]).length by simp, hs]
      simp only [hkept, List.flatMap_cons, hk]
      congr 3
      · simp
      · simp
      · simp; omega
      · simp [closes, hk]
    | false =>
      dsimp only
      have hkept : kept out (q :: qs) = kept out qs := by simp [kept, hk]
      have hcl : closes out (q :: qs) = ((q.2.sock.kind == .stdio && q.2.sock.exitOnClose) || closes out qs) := by simp [closes, hk]
      have hsu : (shut t q.2).used = pre.length + qs.length := by simp only [shut]; omega
      by_cases hq : qs = []
      · subst hq
        rw [if_neg (by rw [hsu]; simp)]
        refine ⟨q.1 :: rest, some q.2 :: crest, by simp [kept, hk], by simp [kept, hk], ?_⟩
        simp only [hkept, hcl, List.flatMap_cons, hk]
        simp only [shut, kept, closes, List.filter_nil, List.map_nil, List.nil_append, List.flatMap_nil, List.append_nil, List.any_nil,
          Bool.or_false, List.length_nil, Nat.add_zero]
        rw [hp, hr]
        simp only [List.map_cons, List.map_nil, List.cons_append, List.nil_append]
        simp only [List.length_nil] at hu
        rw [show t.used - 1 = pre.length by omega]
      · have hpos : 0 < qs.length := List.length_pos_iff.2 hq
        rw [if_pos (by rw [hsu]; omega)]
        have m1 : moveDown (shut t q.2).pfds pre.length ((shut t q.2).used - pre.length)
            = .ok (pre ++ qs.map (·.1) ++ (List.drop (pre.length + qs.length) t.pfds)) := by
          rw [hsu, show pre.length + qs.length - pre.length = (qs.map (·.1)).length by simp]
          show moveDown t.pfds _ _ = _
          rw [hp]
          have := moveDown_mid pre (qs.map (·.1)) rest q.1
          simpa using this
        have m2 : moveDown (shut t q.2).rccs pre.length ((shut t q.2).used - pre.length)
            = .ok (cpre ++ qs.map (fun q => some q.2) ++ (List.drop (pre.length + qs.length) t.rccs)) := by
          rw [hsu, show pre.length + qs.length - pre.length = (qs.map (fun q => some q.2)).length by simp]
          show moveDown t.rccs _ _ = _
          rw [hr, ← hl]
          have := moveDown_mid cpre (qs.map (fun q => some q.2)) crest (some q.2)
          simpa using this
        have hsq : squeeze (shut t q.2) pre.length = .ok { (shut t q.2) with
            pfds := pre ++ qs.map (·.1) ++ (List.drop (pre.length + qs.length) t.pfds)
            rccs := cpre ++ qs.map (fun q => some q.2) ++ (List.drop (pre.length + qs.length) t.rccs) } := by
          unfold squeeze
          rw [m1, m2]
        split
        · rename_i e he
          rw [hsq] at he
          cases he
        · rename_i t1 he
          rw [hsq] at he
          cases he
          obtain ⟨rest1, crest1, hl1, hl2, hs⟩ := ih { (shut t q.2) with
            pfds := pre ++ qs.map (·.1) ++ (List.drop (pre.length + qs.length) t.pfds)
            rccs := cpre ++ qs.map (fun q => some q.2) ++ (List.drop (pre.length + qs.length) t.rccs) } pre _ cpre _
            (List.append_assoc ..) (List.append_assoc ..) hl h0 hsu
          refine ⟨rest1, crest1, ?_, ?_, ?_⟩
          · rw [hkept, hl1]
            have : t.pfds.length = pre.length + ((qs.length + 1) + rest.length) := by rw [hp]; simp; omega
            simp only [List.length_drop]
            omega
          · rw [hkept, hl2]
            have : t.rccs.length = cpre.length + ((qs.length + 1) + crest.length) := by rw [hr]; simp; omega
            simp only [List.length_drop]
            omega
          · rw [hs]
            simp only [hkept, hcl, List.flatMap_cons, hk, shut, Bool.or_assoc]

end Verif.Conns
