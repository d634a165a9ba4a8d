import Verif.Srtp.Spec
import Mathlib.Tactic.IntervalCases

/-! # Lemmas about the keys and the texts -/

namespace Verif.Srtp

theorem read_at {a b c : Bytes} {off n : Nat} (h1 : a.length = off) (h2 : b.length = n) : read (a ++ (b ++ c)) off n = .ok b := by
  subst h1; subst h2
  rw [read, if_pos (by simp only [List.length_append]; omega), List.drop_left, List.take_left]

theorem write_at {a x s : Bytes} {off : Nat} (h1 : a.length = off) (h2 : s.length ≤ x.length) :
    write (a ++ x) off s = .ok (a ++ (s ++ x.drop s.length)) := by
  subst h1
  rw [write, if_pos (by simp only [List.length_append]; omega), List.take_left, List.drop_append]
  simp

/-- The four parts of the keying material. -/
theorem parts (m : Bytes) (k s : Nat) (h : m.length = 2 * (k + s)) :
    ∃ ck sk cs ss, m = ck ++ (sk ++ (cs ++ ss)) ∧ ck.length = k ∧ sk.length = k ∧ cs.length = s ∧ ss.length = s :=
  ⟨m.take k, (m.drop k).take k, ((m.drop k).drop k).take s, ((m.drop k).drop k).drop s, by
    simp only [List.take_append_drop], by simp; omega, by simp; omega, by simp; omega, by simp; omega⟩

theorem keyinfo_eq {p : Prof} {su : Suite} (hp : suiteOf p = .ok su) (hs : su.keySize + su.ivSize ≤ 46) {exp : Nat → Option Bytes}
    {ck sk cs ss : Bytes} (he : exp (2 * (su.keySize + su.ivSize)) = some (ck ++ (sk ++ (cs ++ ss)))) (h1 : ck.length = su.keySize)
    (h2 : sk.length = su.keySize) (h3 : cs.length = su.ivSize) (h4 : ss.length = su.ivSize) {j : Junk} (hj : j.Sized) :
    ∃ r1 r2, keyinfo (some p) exp j = .ok (some (su, ck ++ (cs ++ r1), sk ++ (ss ++ r2))) := by
  obtain ⟨j1, j2, j3⟩ := hj
  have hm : (ck ++ (sk ++ (cs ++ ss))).length ≤ j.mat.length := by simp only [List.length_append]; omega
  have w0 := write_at (a := []) (x := j.mat) (s := ck ++ (sk ++ (cs ++ ss))) (off := 0) rfl hm
  simp only [List.nil_append, List.append_assoc] at w0
  generalize List.drop _ j.mat = rest at w0
  have r0 := read_at (a := []) (b := ck) (c := sk ++ (cs ++ (ss ++ rest))) (off := 0) rfl h1
  have r1 := read_at (a := ck) (b := sk) (c := cs ++ (ss ++ rest)) h1 h2
  have r2 := read_at (a := ck ++ sk) (b := cs) (c := ss ++ rest) (off := su.keySize + su.keySize)
    (by simp only [List.length_append]; omega) h3
  have r3 := read_at (a := ck ++ (sk ++ cs)) (b := ss) (c := rest) (off := su.keySize + su.keySize + su.ivSize)
    (by simp only [List.length_append]; omega) h4
  simp only [List.nil_append, List.append_assoc] at r0 r2 r3
  have w1 := write_at (a := []) (x := j.cli) (s := ck) (off := 0) rfl (by omega)
  have w2 := write_at (a := []) (x := j.srv) (s := sk) (off := 0) rfl (by omega)
  simp only [List.nil_append] at w1 w2
  have w3 := write_at (a := ck) (x := j.cli.drop ck.length) (s := cs) h1 (by simp only [List.length_drop]; omega)
  have w4 := write_at (a := sk) (x := j.srv.drop sk.length) (s := ss) h2 (by simp only [List.length_drop]; omega)
  refine ⟨(j.cli.drop ck.length).drop cs.length, (j.srv.drop sk.length).drop ss.length, ?_⟩
  simp only [keyinfo, hp, bind, Except.bind]
  rw [if_neg (by omega), if_neg (by omega)]
  simp only [he, w0, r0, r1, r2, r3, w1, w2, w3, w4]

/-- What a context is keyed with. -/
theorem setup_eq {su : Suite} {s : Setter} (h : su.setter = some s) {a b r : Bytes} (hl : a.length + b.length = s.policy.2.1)
    (ssrc : Nat) : setup su (a ++ (b ++ r)) ssrc =
      .ok ⟨s.policy.1, a ++ b, su.tagSize, s.policy.2.2, if ssrc = 0 then none else some ssrc⟩ := by
  have := read_at (a := []) (b := a ++ b) (c := r) (off := 0) (n := s.policy.2.1) rfl (by simp only [List.length_append]; omega)
  simp only [List.nil_append, List.append_assoc] at this
  simp only [setup, h, this, bind, Except.bind]

/-- The table against the parameters of the profiles. -/
theorem suite_of_offered {p : Prof} (h : p ∈ offered) : ∃ su s q, suiteOf p = .ok su ∧ su.setter = some s ∧ params p = some q ∧
    su.keySize = q.key ∧ su.ivSize = q.salt ∧ su.tagSize = q.rtpTag ∧ s.policy.1 = q.cipher ∧ s.policy.2.1 = q.key + q.salt ∧
    q.key + q.salt ≤ 46 ∧ (p ≠ .cm32 → s.policy.2.2 = q.rtcpTag) := by
  cases p <;> first
    | exact ⟨_, _, _, rfl, rfl, rfl, rfl, rfl, rfl, rfl, rfl, by decide, by intro; first | rfl | contradiction⟩
    | (exfalso; revert h; decide)

/-! ## Fingerprints -/

theorem hexVal_digit {n : Nat} (h : n < 16) : hexVal (digit n) = some n := by
  interval_cases n <;> decide

/-- Capital letters only: the digit is the one that is printed. -/
theorem digit_eq {b : UInt8} {n : Nat} (h : hexVal b = some n) (hb : b.toNat < 97) : b = digit n := by
  apply UInt8.toNat_inj.mp
  have hlt := b.toNat_lt
  simp only [hexVal] at h
  split at h
  · cases h
    rw [digit, if_pos (by omega), UInt8.toNat_ofNat']; omega
  · split at h
    · cases h
      rw [digit, if_neg (by omega), UInt8.toNat_ofNat']; omega
    · split at h
      · omega
      · cases h

theorem colons_denotes : ∀ d : Bytes, d ≠ [] → Denotes (colons d) d
  | [], h => absurd rfl h
  | [a], _ => by
    have := a.toNat_lt
    exact ⟨hexVal_digit (by omega), hexVal_digit (by omega)⟩
  | a :: b :: t, _ => by
    have := a.toNat_lt
    exact ⟨hexVal_digit (by omega), hexVal_digit (by omega), rfl, colons_denotes (b :: t) (by simp)⟩

theorem byte_eq {a b : UInt8} {x y : Option Nat} (h1 : x = some (a.toNat / 16)) (h2 : y = some (a.toNat % 16))
    (h3 : x = some (b.toNat / 16)) (h4 : y = some (b.toNat % 16)) : a = b := by
  apply UInt8.toNat_inj.mp
  rw [h1] at h3
  rw [h2] at h4
  simp only [Option.some.injEq] at h3 h4
  omega

/-- A text names one digest only. -/
theorem Denotes.unique : ∀ {f d1 d2 : Bytes}, Denotes f d1 → Denotes f d2 → d1 = d2
  | [_, _], [_], [_], ⟨h1, h2⟩, ⟨h3, h4⟩ => by rw [byte_eq h1 h2 h3 h4]
  | _ :: _ :: _ :: _, _ :: _, _ :: _, ⟨h1, h2, _, h5⟩, ⟨h3, h4, _, h6⟩ => by
    rw [byte_eq h1 h2 h3 h4, Denotes.unique h5 h6]

end Verif.Srtp
