import Verif.Resizer.Props

/-! # C10: the clock that decides how long a packet may wait -/

namespace Verif.Resizer

/-- How far the clock is ahead of time stamp `ts` (modulo 2^32). -/
def ahead (now delta ts : Nat) : Nat := (now + delta + (4294967296 - ts % 4294967296)) % 4294967296

theorem tsl_iff (a b : Nat) : tsl a b = true ↔ (a % 4294967296 + (4294967296 - b % 4294967296)) % 4294967296 > 2147483648 := by
  unfold tsl Rtp.tsLess
  rw [decide_eq_true_eq, BitVec.toNat_sub, BitVec.toNat_ofNat, BitVec.toNat_ofNat]
  simp only [Nat.reducePow]
  omega

theorem sync_ahead (s : St) (ts now : Nat) (hout : s.outN + 160 < 2147483648) :
    ahead now (syncDelta s ts now) ts =
      match s.tsdelta with
      | none => 40
      | some d =>
        if ahead now d ts > 2147483648 then 40
        else if ahead now d ts > s.outN + 160 then ahead now d ts - (ahead now d ts - (s.outN + 160)) / 2
        else ahead now d ts := by
  have h40 : ahead now (u32 (sub32 ts now + 40)) ts = 40 := by
    unfold ahead u32 sub32; omega
  unfold syncDelta
  cases s.tsdelta with
  | none => exact h40
  | some d =>
    simp only
    have c1 : tsl (u32 (now + d)) ts = true ↔ ahead now d ts > 2147483648 := by
      rw [tsl_iff]; unfold ahead u32; omega
    by_cases h1 : ahead now d ts > 2147483648
    · rw [if_pos (c1.2 h1), if_pos h1, h40]
    · rw [if_neg (fun q => h1 (c1.1 q)), if_neg h1]
      have c2 : tsl (u32 (ts + s.outN + 160)) (u32 (now + d)) = true ↔ ahead now d ts > s.outN + 160 := by
        rw [tsl_iff]
        unfold ahead at h1 ⊢
        unfold u32
        omega
      by_cases h2 : ahead now d ts > s.outN + 160
      · rw [if_pos (c2.2 h2), if_pos h2]
        have e1 : sub32 (u32 (now + d)) (u32 (ts + s.outN + 160)) = ahead now d ts - (s.outN + 160) := by
          unfold ahead at h1 h2 ⊢
          unfold sub32 u32
          omega
        rw [e1]
        have e2 : ahead now d ts ≤ 2147483648 := by omega
        generalize hx : (ahead now d ts - (s.outN + 160)) / 2 = x
        have e3 : x ≤ ahead now d ts := by omega
        unfold ahead at e2 e3 ⊢
        unfold sub32
        omega
      · rw [if_neg (fun q => h2 (c2.1 q)), if_neg h2]

/-- **C10**: when a packet is taken over, the clock is set 40 samples (5 ms) ahead of it if the source is new or the
clock is behind the packet; moved back half of what it is ahead by more than the packetisation time and 20 ms; and left
alone otherwise. -/
theorem C10_clock (s : St) (dgram junk : List UInt8) (now : Nat) (hout : s.outN + 160 < 2147483648) {s' : St} {p : Pkt}
    (h : enqueue s dgram junk now = .ok (s', .taken p)) :
    ∃ d', s'.tsdelta = some d' ∧ s'.ssrc = some p.ssrc ∧ ahead now d' p.ts =
      match (if s.ssrc = none ∨ s.ssrc = some p.ssrc then s.tsdelta else none) with
      | none => 40
      | some d =>
        if ahead now d p.ts > 2147483648 then 40
        else if ahead now d p.ts > s.outN + 160 then ahead now d p.ts - (ahead now d p.ts - (s.outN + 160)) / 2
        else ahead now d p.ts := by
  unfold enqueue at h
  split at h
  · cases h
  · cases h
  · next i _ =>
    split at h
    · cases h
    · next n _ =>
      simp only at h
      split at h
      · cases h
      · cases h
        generalize mkPkt dgram junk i n = p
        have hsw : (switchSsrc s p.ssrc).outN = s.outN ∧ (switchSsrc s p.ssrc).ssrc = some p.ssrc ∧
            (switchSsrc s p.ssrc).tsdelta = if s.ssrc = none ∨ s.ssrc = some p.ssrc then s.tsdelta else none := by
          unfold switchSsrc
          split
          · next e => simp [e]
          · next e =>
            split
            · next e2 => simp [e2]
            · next x e2 =>
              refine ⟨rfl, rfl, ?_⟩
              rw [if_neg]
              rintro (q | q)
              · rw [e2] at q; cases q
              · exact e q
        refine ⟨_, rfl, hsw.2.1, ?_⟩
        have := sync_ahead (switchSsrc s p.ssrc) p.ts now (by rw [hsw.1]; exact hout)
        rw [hsw.1, hsw.2.2] at this
        exact this

/-- The hypothesis is met: a packetisation time of 20 ms. -/
example : (new 20).outN + 160 < 2147483648 := by decide

end Verif.Resizer
