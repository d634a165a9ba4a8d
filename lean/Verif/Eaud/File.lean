import Verif.Eaud.Load
import Verif.Record.Props

/-!
# Loading a file
-/

namespace Verif.Eaud
open Verif.Rtp (Info parseRaw)
open Verif.Record (cut Reads readOwn readRec readFrame readIp4 readIp6 readUdp Capture Seen Fam Sa little big)

variable {T J : Type}

/-! ## Reading memory -/

theorem mapped_length (b : List Nat) : b.length ≤ (mapped b).length := by simp [mapped]

/-- Bytes of the file itself. -/
theorem rd_mid {b pre mid post : List Nat} {pos : Int} {n : Nat} (h : b = pre ++ mid ++ post) (hp : pos = pre.length) (hn : n = mid.length) :
    rd b pos n = .ok mid := by
  subst hp hn
  unfold rd
  have hl := mapped_length b
  have : b.length = pre.length + mid.length + post.length := by rw [h]; simp; omega
  rw [if_pos (by simp only [Int.toNat_natCast]; omega)]
  simp only [Int.toNat_natCast, mapped, h, List.append_assoc]
  simp

theorem cut_spec {n : Nat} {l a b : List Nat} (h : cut n l = some (a, b)) : l = a ++ b ∧ a.length = n := by
  unfold cut at h
  split at h
  · cases h; exact ⟨(List.take_append_drop n l).symm, by simp; omega⟩
  · cases h

theorem field {p q r l : List Nat} {a n : Nat} (h : l = p ++ q ++ r) (ha : a = p.length) (hn : n = q.length) : (l.drop a).take n = q := by
  subst h ha hn
  simp

theorem num_two {l : List Nat} (h : l.length = 2) : num l = little l := by
  match l, h with
  | [a, b], _ => simp [num, little, big]; omega

theorem num_four {l : List Nat} (h : l.length = 4) : num l = little l := by
  match l, h with
  | [a, b, c, d], _ => simp [num, little, big]; omega

/-! ## The recorder's own format -/

theorem readOwn_spec {l r : List Nat} {sa : Sa} {t d : List Nat} (h : readOwn l = some ((sa, t, d), r)) :
    ∃ a n, l = a ++ t ++ n ++ d ++ r ∧ a.length = 20 ∧ t.length = 8 ∧ n.length = 2 ∧ num n = d.length ∧
      (a.take 1 = [2] ∨ a.take 1 = [10]) := by
  simp only [readOwn, bind, Option.bind_eq_some_iff, Prod.exists] at h
  obtain ⟨a, r1, h1, t', r2, h2, n, r3, h3, d', r4, h4, fam, a1, h5, port, a2, h6, h7⟩ := h
  obtain ⟨rfl, l1⟩ := cut_spec h1
  obtain ⟨rfl, l2⟩ := cut_spec h2
  obtain ⟨rfl, l3⟩ := cut_spec h3
  obtain ⟨rfl, l4⟩ := cut_spec h4
  obtain ⟨rfl, l5⟩ := cut_spec h5
  have hn := num_two l3
  split at h7
  · cases h7
    rename_i hf
    subst hf
    exact ⟨_, n, by simp, l1, l2, l3, by omega, .inl rfl⟩
  · split at h7
    · cases h7
      rename_i hf
      subst hf
      exact ⟨_, n, by simp, l1, l2, l3, by omega, .inr rfl⟩
    · cases h7

theorem loadAdhoc_eq (k : Clock T) (fl : Analyze.Fl J) (sys : Nat → Sys) (origin : Origin) (b : List Nat) {pos : Nat} (s : St T J)
    (hp : pos < b.length) : loadAdhoc k fl sys origin b pos s =
      match adhocDissect b pos with
      | .error f => .error f
      | .ok .trunk => .ok (s, none)
      | .ok (.eof next) => .ok (s, if next = b.length then some s.pcount else none)
      | .ok (.ok hdr n next) =>
        match rd b (hdr + 20 : Nat) 8, rd b (hdr + 30 : Nat) n with
        | .ok t, .ok d =>
          match feed k fl (sys hdr) origin s (k.dbl t) (octets d) with
          | .error f => .error f
          | .ok none => .ok (s, none)
          | .ok (some s) => loadAdhoc k fl sys origin b next s
        | _, _ => .error .ub := by
  rw [loadAdhoc, if_pos hp]
  split <;> rename_i h <;> (rw [h]; try rfl)

theorem loadAdhoc_skip (k : Clock T) (fl : Analyze.Fl J) (sys : Nat → Sys) (origin : Origin) (b : List Nat) {pos next : Nat} (s : St T J)
    (hp : pos < b.length) (hd : adhocDissect b pos = adhocDissect b next) :
    loadAdhoc k fl sys origin b pos s = loadAdhoc k fl sys origin b next s := by
  rw [loadAdhoc_eq k fl sys origin b s hp, hd]
  by_cases hn : next < b.length
  · rw [loadAdhoc_eq k fl sys origin b s hn]
  · rw [loadAdhoc, if_neg hn]
    have : adhocDissect b next = .ok (.eof next) := by rw [adhocDissect, if_neg hn]
    rw [this]

theorem loadAdhoc_ok (k : Clock T) (fl : Analyze.Fl J) (origin : Origin) (b : List Nat) :
    ∀ (rest : List Nat) (xs : List (Sa × List Nat × List Nat)), Reads readOwn rest xs → ∀ (pre : List Nat) (s : St T J), b = pre ++ rest →
    loadAdhoc k fl (fun _ => good) origin b pre.length s =
      match feeds k fl origin s ((xs.filter fun x => 12 ≤ x.2.2.length).map fun x => (k.dbl x.2.1, octets x.2.2)) with
      | .error f => .error f
      | .ok (s', ok) => .ok (s', if ok then some s'.pcount else none) := by
  intro rest xs h
  induction h with
  | nil =>
    intro pre s hb
    rw [loadAdhoc]
    simp [hb, feeds]
  | @cons l r x xs hx hr ih =>
    intro pre s hb
    obtain ⟨sa, t, d⟩ := x
    obtain ⟨a, n, rfl, la, lt, ln, hn, -⟩ := readOwn_spec hx
    have hlen : b.length = pre.length + 30 + d.length + r.length := by rw [hb]; simp; omega
    have hp : pre.length < b.length := by omega
    have r1 : rd b (pre.length + 28 : Nat) 2 = .ok n :=
      rd_mid (pre := pre ++ a ++ t) (mid := n) (post := d ++ r) (by rw [hb]; simp) (by simp; omega) ln.symm
    have hnext := ih (pre ++ a ++ t ++ n ++ d) s (by rw [hb]; simp)
    have hnl : (pre ++ a ++ t ++ n ++ d).length = pre.length + 30 + d.length := by simp; omega
    by_cases h12 : d.length < 12
    · have hdis : adhocDissect b pre.length = adhocDissect b (pre.length + 30 + d.length) := by
        rw [adhocDissect.eq_1 b pre.length, if_pos hp, r1]
        simp only [hn, h12, if_true]
      rw [loadAdhoc_skip k fl _ origin b s hp hdis, ← hnl, hnext]
      rw [List.filter_cons_of_neg (by simp; omega)]
    · have hdis : adhocDissect b pre.length = .ok (.ok pre.length d.length (pre.length + 30 + d.length)) := by
        rw [adhocDissect, if_pos hp, r1]
        simp only [hn, h12, if_false]
        rw [if_neg (by omega)]
      have r2 : rd b (pre.length + 20 : Nat) 8 = .ok t :=
        rd_mid (pre := pre ++ a) (mid := t) (post := n ++ d ++ r) (by rw [hb]; simp) (by simp; omega) lt.symm
      have r3 : rd b (pre.length + 30 : Nat) d.length = .ok d :=
        rd_mid (pre := pre ++ a ++ t ++ n) (mid := d) (post := r) (by rw [hb]; simp) (by simp; omega) rfl
      rw [loadAdhoc_eq _ _ _ _ _ _ hp, hdis]
      simp only
      rw [r2, r3]
      simp only
      rw [List.filter_cons_of_pos (by simp; omega), List.map_cons, feeds]
      simp only
      cases hf : feed k fl good origin s (k.dbl t) (octets d) with
      | error f => rfl
      | ok o =>
        cases o with
        | none => rfl
        | some s1 =>
          simp only
          rw [← hnl]
          exact ih (pre ++ a ++ t ++ n ++ d) s1 (by rw [hb]; simp)

/-! ## Captures -/

theorem readUdp_spec {fam : Fam} {ph src dst u d : List Nat} {s1 s2 : Sa} (h : readUdp fam ph src dst u = some (s1, s2, d)) :
    s1.fam = fam ∧ ∃ hd, u = hd ++ d ∧ hd.length = 8 := by
  simp only [readUdp, bind, Option.bind_eq_some_iff, Prod.exists] at h
  obtain ⟨a, r1, h1, b, r2, h2, c, r3, h3, e, r4, h4, -, -, -, -, h5⟩ := h
  obtain ⟨rfl, l1⟩ := cut_spec h1
  obtain ⟨rfl, l2⟩ := cut_spec h2
  obtain ⟨rfl, l3⟩ := cut_spec h3
  obtain ⟨rfl, l4⟩ := cut_spec h4
  cases h5
  exact ⟨rfl, a ++ b ++ c ++ e, by simp, by simp; omega⟩

theorem readFrame_spec {f d : List Nat} {s1 s2 : Sa} (h : readFrame f = some (s1, s2, d)) :
    ∃ m ty hd, f = m ++ ty ++ hd ++ d ∧ m.length = 12 ∧ ty.length = 2 ∧ (s1.fam = .v4 ∧ ty = [0x08, 0x00] ∧ hd.length = 28 ∨
      s1.fam = .v6 ∧ ty ≠ [0x08, 0x00] ∧ hd.length = 48) := by
  simp only [readFrame, bind, Option.bind_eq_some_iff, Prod.exists] at h
  obtain ⟨m, r1, h1, ty, r2, h2, h3⟩ := h
  obtain ⟨rfl, l1⟩ := cut_spec h1
  obtain ⟨rfl, l2⟩ := cut_spec h2
  split at h3
  · rename_i hty
    simp only [readIp4, bind, Option.bind_eq_some_iff, Prod.exists] at h3
    obtain ⟨hd, u, k1, -, -, vt, q1, -, -, -, n, q2, -, -, -, i, q3, -, fr, q4, -, -, -, tp, q5, -, -, -, c, q6, -, sr, ds, -, k2⟩ := h3
    obtain ⟨rfl, l3⟩ := cut_spec k1
    obtain ⟨hfam, hu, rfl, l4⟩ := readUdp_spec k2
    exact ⟨m, ty, hd ++ hu, by simp, l1, l2, .inl ⟨hfam, hty, by simp; omega⟩⟩
  · split at h3
    · rename_i hty hty6
      simp only [readIp6, bind, Option.bind_eq_some_iff, Prod.exists] at h3
      obtain ⟨v, q1, k1, -, -, n, q2, k2, nh, q3, k3, -, -, src, q4, k4, dst, u, k5, -, -, k6⟩ := h3
      obtain ⟨rfl, l3⟩ := cut_spec k1
      obtain ⟨rfl, l4⟩ := cut_spec k2
      obtain ⟨rfl, l5⟩ := cut_spec k3
      obtain ⟨rfl, l6⟩ := cut_spec k4
      obtain ⟨rfl, l7⟩ := cut_spec k5
      obtain ⟨hfam, hu, rfl, l8⟩ := readUdp_spec k6
      exact ⟨m, ty, v ++ n ++ nh ++ src ++ dst ++ hu, by simp, l1, l2, .inr ⟨hfam, hty, by simp; omega⟩⟩
    · cases h3

theorem readRec_spec {l r : List Nat} {x : Seen} (h : readRec l = some (x, r)) :
    ∃ s u n o m ty hd, l = s ++ u ++ n ++ o ++ m ++ ty ++ hd ++ x.payload ++ r ∧ s.length = 4 ∧ u.length = 4 ∧ n.length = 4 ∧ o.length = 4 ∧
      num s = x.sec ∧ num u = x.usec ∧ num n = 14 + hd.length + x.payload.length ∧ m.length = 12 ∧ ty.length = 2 ∧
      (x.src.fam = .v4 ∧ ty = [0x08, 0x00] ∧ hd.length = 28 ∨ x.src.fam = .v6 ∧ ty ≠ [0x08, 0x00] ∧ hd.length = 48) := by
  simp only [readRec, bind, Option.bind_eq_some_iff, Prod.exists] at h
  obtain ⟨s, r1, h1, u, r2, h2, n, r3, h3, o, r4, h4, -, -, f, r5, h5, s1, s2, d, h6, h7⟩ := h
  obtain ⟨rfl, l1⟩ := cut_spec h1
  obtain ⟨rfl, l2⟩ := cut_spec h2
  obtain ⟨rfl, l3⟩ := cut_spec h3
  obtain ⟨rfl, l4⟩ := cut_spec h4
  obtain ⟨rfl, l5⟩ := cut_spec h5
  obtain ⟨m, ty, hd, rfl, l6, l7, hc⟩ := readFrame_spec h6
  cases h7
  refine ⟨s, u, n, o, m, ty, hd, by simp, l1, l2, l3, l4, num_four l1, num_four l2, ?_, l6, l7, hc⟩
  rw [num_four l3, ← l5]
  simp
  omega

theorem toInt_small {x : Int} (h0 : -2147483648 ≤ x) (h1 : x < 2147483648) : toInt x = x := by
  unfold toInt; omega

theorem loadPcap_ok (k : Clock T) (fl : Analyze.Fl J) (origin : Origin) (b : List Nat) :
    ∀ (rest : List Nat) (xs : List Seen), Reads readRec rest xs → (∀ x ∈ xs, x.payload.length < 65536) →
    ∀ (fuel : Nat), xs.length < fuel → ∀ (pre : List Nat) (s : St T J), b = pre ++ rest →
    loadPcap k fl (fun _ => good) origin b 1 fuel pre.length s =
      match feeds k fl origin s ((xs.filter fun x => x.src.fam = .v4 ∧ 12 ≤ x.payload.length).map fun x => (k.ts2d x.sec x.usec, octets x.payload)) with
      | .error f => .error f
      | .ok (s', ok) => .ok (some (s', if ok then some s'.pcount else none)) := by
  intro rest xs h
  induction h with
  | nil =>
    intro _ fuel hfuel pre s hb
    obtain ⟨fuel, rfl⟩ := Nat.exists_eq_add_of_lt hfuel
    simp [loadPcap, hb, feeds]
  | @cons l r x xs hx hr ih =>
    intro hsz fuel hfuel pre s hb
    obtain ⟨fuel, rfl⟩ : ∃ f, fuel = f + 1 := ⟨fuel - 1, by simp at hfuel; omega⟩
    obtain ⟨sb, ub, nb, ob, m, ty, hd, rfl, ls, lu, ln, lo, es, eu, en, lm, lty, hc⟩ := readRec_spec hx
    have hsz' := hsz x (by simp)
    have ih' := ih (fun y hy => hsz y (by simp [hy])) fuel (by simp at hfuel; omega)
    have hlen : b.length = pre.length + 30 + hd.length + x.payload.length + r.length := by rw [hb]; simp; omega
    have hh28 : 28 ≤ hd.length := by rcases hc with ⟨-, -, h⟩ | ⟨-, -, h⟩ <;> omega
    rw [loadPcap, if_pos (by omega)]
    have hrd : rd b pre.length 58 = .ok (sb ++ ub ++ nb ++ ob ++ m ++ ty ++ hd.take 28) := by
      refine rd_mid (pre := pre) (post := hd.drop 28 ++ x.payload ++ r) ?_ rfl (by simp; omega)
      rw [hb]
      have := List.take_append_drop 28 hd
      simp only [List.append_assoc]
      rw [← List.append_assoc (hd.take 28), this]
    have hH : hdrLen 1 = 58 := rfl
    have f1 : ((sb ++ ub ++ nb ++ ob ++ m ++ ty ++ hd.take 28).drop 8).take 4 = nb := by
      exact field (p := sb ++ ub) (r := ob ++ m ++ ty ++ hd.take 28) (by simp) (by simp; omega) ln.symm
    have f2 : ((sb ++ ub ++ nb ++ ob ++ m ++ ty ++ hd.take 28).drop 28).take 2 = ty := by
      exact field (p := sb ++ ub ++ nb ++ ob ++ m) (r := hd.take 28) (by simp) (by simp; omega) lty.symm
    have f3 : (sb ++ ub ++ nb ++ ob ++ m ++ ty ++ hd.take 28).take 4 = sb := by
      rw [show 4 = sb.length from ls.symm]
      simp
    have f4 : ((sb ++ ub ++ nb ++ ob ++ m ++ ty ++ hd.take 28).drop 4).take 4 = ub := by
      exact field (p := sb) (r := nb ++ ob ++ m ++ ty ++ hd.take 28) (by simp) ls.symm lu.symm
    have hpl : (pre ++ sb ++ ub ++ nb ++ ob ++ m ++ ty ++ hd ++ x.payload).length = pre.length + 30 + hd.length + x.payload.length := by
      simp; omega
    rcases hc with ⟨hfam, hty, hhd⟩ | ⟨hfam, hty, hhd⟩
    · have hdis : pcapDissect b 1 pre.length = .ok (.ok x.sec x.usec x.payload.length) := by
        unfold pcapDissect
        rw [hH, if_neg (by omega), hrd]
        simp only [f1, f2, f3, f4, en, es, eu]
        simp only [hty, hhd, Nat.one_ne_zero, if_false, not_true]
        have : toInt ((14 + 28 + x.payload.length : Nat) + 16 - (58 : Nat)) = x.payload.length := by
          rw [toInt_small] <;> omega
        rw [this, if_neg (by omega)]
      rw [hdis]
      simp only [hH]
      have hpos : (pre.length : Int) + (58 : Nat) + (x.payload.length : Int) =
          ((pre ++ sb ++ ub ++ nb ++ ob ++ m ++ ty ++ hd ++ x.payload).length : Nat) := by rw [hpl]; omega
      by_cases h12 : x.payload.length < 12
      · rw [if_pos (by omega), List.filter_cons_of_neg (by simp; omega), hpos]
        exact ih' _ s (by rw [hb]; simp)
      · rw [if_neg (by omega), List.filter_cons_of_pos (by simp [hfam]; omega), List.map_cons, feeds]
        have hr2 : rd b ((pre.length : Int) + (58 : Nat)) ((x.payload.length : Int).toNat) = .ok x.payload :=
          rd_mid (pre := pre ++ sb ++ ub ++ nb ++ ob ++ m ++ ty ++ hd) (mid := x.payload) (post := r) (by rw [hb]; simp) (by simp; omega) (by simp)
        rw [hr2]
        simp only
        cases hf : feed k fl good origin s (k.ts2d x.sec x.usec) (octets x.payload) with
        | error f => rfl
        | ok o =>
          cases o with
          | none => rfl
          | some s1 =>
            simp only
            rw [hpos]
            exact ih' _ s1 (by rw [hb]; simp)
    · have hdis : pcapDissect b 1 pre.length = .ok (.skip (78 + x.payload.length : Nat)) := by
        unfold pcapDissect
        rw [hH, if_neg (by omega), hrd]
        simp only [f1, f2, en]
        simp only [hty, hhd, if_true, Nat.one_ne_zero, if_false, not_false_iff]
        have : toInt (16 + (14 + 48 + x.payload.length : Nat)) = (78 + x.payload.length : Nat) := by
          rw [toInt_small] <;> omega
        rw [this]
      rw [hdis]
      simp only
      have hpos : (pre.length : Int) + ((78 + x.payload.length : Nat) : Int) =
          ((pre ++ sb ++ ub ++ nb ++ ob ++ m ++ ty ++ hd ++ x.payload).length : Nat) := by rw [hpl]; omega
      rw [hpos, List.filter_cons_of_neg (by simp [hfam])]
      exact ih' _ s (by rw [hb]; simp)

end Verif.Eaud
