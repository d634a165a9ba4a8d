import Verif.Resizer.Lemmas

/-!
# The aggregation loop: what it takes from the queue
-/

namespace Verif.Resizer

open Verif.Rtp (PCMU PCMA GSM G723 G722 G729 hasPad)

/-- `Eat e q e' q' b st`: starting at timestamp `e`, contiguous audio up to `e'` is taken from the
head of the queue `q`, leaving `q'`; `b` are the bytes taken, `st` the stamped bytes. -/
inductive Eat : Nat → List Pkt → Nat → List Pkt → List UInt8 → List (Nat × UInt8) → Prop
  | stop {e q} : Eat e q e q [] []
  | whole {e p q e' q' b st} (hp : p.ts = e) (r : Eat (u32 (e + p.ns)) q e' q' b st) :
      Eat e (p :: q) e' q' (p.payload ++ b) (stamps p ++ st)
  | part {e p q x d m} (hp : p.ts = e) (hm : m < p.ns) (hd : p.payload = d ++ x.payload)
      (hx : x.ts = u32 (e + m)) (hn : x.ns = p.ns - m)
      (hs : Timed p → stamps p = stampAt p.pt p.ts d ++ stamps x) (ht : Timed p → Timed x) :
      Eat e (p :: q) (u32 (e + m)) (x :: q) d (stampAt p.pt p.ts d)

def sumNs (q : List Pkt) : Nat := (q.map Pkt.ns).sum

theorem sumNs_cons (p : Pkt) (q : List Pkt) : sumNs (p :: q) = p.ns + sumNs q := by
  simp [sumNs]

/-- Both packet invariants. -/
def QOK (p : Pkt) : Prop := POK p ∧ HOK p

/-- The output packet under construction. -/
structure ROK (p : Pkt) : Prop where
  len : p.hdr.length + p.body.length = cap
  h12 : 12 ≤ p.hdr.length
  sz : p.hdr.length + p.ds ≤ p.size
  szc : p.size ≤ cap
  tsb : p.ts < 4294967296
  hok : HOK p
  known : p.pt = PCMU ∨ p.pt = PCMA ∨ p.pt = G729 ∨ p.pt = GSM ∨ p.pt = G723 ∨ p.pt = G722

theorem Fr.known {pt : Nat} {pl : List UInt8} {n : Nat} (h : Fr pt pl n) :
    pt = PCMU ∨ pt = PCMA ∨ pt = G729 ∨ pt = GSM ∨ pt = G723 ∨ pt = G722 := by
  rcases h with ⟨h | h, _⟩ | ⟨h, _⟩ | ⟨h, _⟩ | ⟨h, _⟩ | ⟨h, _⟩ <;> simp [h]

theorem ROK.ofQ {p : Pkt} (h : QOK p) : ROK p :=
  ⟨h.1.len, h.1.h12, h.1.sz, h.1.szc, h.1.tsb, h.2, h.1.fr.known⟩

/-- Why an output packet is shorter than the packetisation time. -/
def Why (r : Pkt) (q' : List Pkt) : Prop :=
  r.app = false ∨ q' = [] ∨ ∃ p l, q' = p :: l ∧
    (u32 (r.ts + r.ns) ≠ p.ts ∨ r.pt ≠ p.pt ∨ r.size + p.ds > cap)

theorem u32_add (a b c : Nat) : u32 (a + (b + c)) = u32 (u32 (a + b) + c) := by
  unfold u32; omega

theorem aligned_append {r d s : Pkt} (hpt : r.pt = d.pt) (hpt' : s.pt = d.pt)
    (hp : r.payload = d.payload ++ s.payload) (hn : r.ns = d.ns + s.ns)
    (h1 : Aligned d) (h2 : Aligned s) : Aligned r := by
  unfold Aligned at *
  rw [hpt'] at h2
  rw [hpt, hp, List.length_append, hn]
  have hpos : 0 < bpf d.pt := by
    unfold bpf
    split
    · omega
    · split <;> omega
  obtain ⟨k, hk⟩ := Nat.dvd_of_mod_eq_zero h1.1
  rw [hk, Nat.mul_add_mod, Nat.mul_add_div hpos, Nat.add_mul, h1.2, h2.2, hk,
    Nat.mul_div_cancel_left _ hpos]
  exact ⟨h2.1, rfl⟩

/-- Splitting a packet: what is taken and what is left. -/
theorem split_eat {p x : Pkt} (h : POK p) {b m : Nat} (hb : b ≤ p.ds) (hm : m < p.ns)
    (hx : x.payload = p.payload.drop b) (hts : x.ts = u32 (p.ts + m)) (hns : x.ns = p.ns - m)
    (hpt : x.pt = p.pt) (hds : x.ds = p.ds - b)
    (ht : Timed p → b % bpf p.pt = 0 ∧ m = b / bpf p.pt * spf p.pt) (q : List Pkt) :
    Eat p.ts (p :: q) (u32 (p.ts + m)) (x :: q) (p.payload.take b)
      (stampAt p.pt p.ts (p.payload.take b)) := by
  have hl : (p.payload.take b).length = b := by rw [List.length_take, h.plen]; omega
  refine .part rfl hm ?_ hts hns (fun hT => ?_) (fun hT => ?_)
  · rw [hx, List.take_append_drop]
  · obtain ⟨h1, h2⟩ := ht hT
    unfold stamps
    rw [hx, hts, hpt, ← stampAt_append (by rw [hl]; exact h1) (by rw [hl]; exact h2),
      List.take_append_drop]
  · obtain ⟨h1, h2⟩ := ht hT
    unfold Timed at *
    rw [hpt, hds]
    rcases hT with h3 | h3 | h3 | ⟨h3, h4⟩
    · exact .inl h3
    · exact .inr (.inl h3)
    · exact .inr (.inr (.inl h3))
    · refine .inr (.inr (.inr ⟨h3, ?_⟩))
      rw [h3] at h1
      simp only [bpf, GSM, G729] at h1
      simp at h1
      omega

theorem timed_known10 {p : Pkt} (b : Nat) (ht : Timed p → b % bpf p.pt = 0 ∧ m = b / bpf p.pt * spf p.pt) :
    p.pt = G729 → b % 10 = 0 := by
  intro hp
  have := (ht (.inr (.inr (.inl hp)))).1
  rw [hp] at this
  simpa [bpf] using this

theorem gather_spec (target : Nat) : ∀ (q : List Pkt) (ret : Pkt), ROK ret → ret.app = true →
    gran ret.pt ∣ ret.ns → gran ret.pt ∣ target → ret.ns ≤ target → (∀ p ∈ q, QOK p) →
    ∃ r q' b st, gather target ret q = .ok (r, q') ∧
      Eat (u32 (ret.ts + ret.ns)) q (u32 (r.ts + r.ns)) q' b st ∧
      r.payload = ret.payload ++ b ∧
      (Aligned ret → (∀ p ∈ q, Timed p) → stamps r = stamps ret ++ st) ∧
      r.ts = ret.ts ∧ r.pt = ret.pt ∧ r.ssrc = ret.ssrc ∧ r.seq = ret.seq ∧ r.hdr = ret.hdr ∧
      r.ns + sumNs q' = ret.ns + sumNs q ∧ ROK r ∧ r.ns ≤ target ∧
      (r.ns < target → Why r q') ∧ (∀ p ∈ q', QOK p)
  | [], ret, hR, ha, hg, hgt, hle, hq => by
    refine ⟨ret, [], [], [], rfl, .stop, by simp, by simp, rfl, rfl, rfl, rfl, rfl, rfl, hR, hle,
      fun _ => .inr (.inl rfl), by simp⟩
  | p :: q, ret, hR, ha, hg, hgt, hle, hq => by
    have hstop : ∀ (_ : ret.ns < target → Why ret (p :: q)),
      ∃ r q' b st, Except.ok (ε := Fault) (ret, p :: q) = .ok (r, q') ∧
      Eat (u32 (ret.ts + ret.ns)) (p :: q) (u32 (r.ts + r.ns)) q' b st ∧
      r.payload = ret.payload ++ b ∧
      (Aligned ret → (∀ p' ∈ p :: q, Timed p') → stamps r = stamps ret ++ st) ∧
      r.ts = ret.ts ∧ r.pt = ret.pt ∧ r.ssrc = ret.ssrc ∧ r.seq = ret.seq ∧ r.hdr = ret.hdr ∧
      r.ns + sumNs q' = ret.ns + sumNs (p :: q) ∧ ROK r ∧ r.ns ≤ target ∧
      (r.ns < target → Why r q') ∧ (∀ p' ∈ q', QOK p') := by
      intro hw
      exact ⟨ret, p :: q, [], [], rfl, .stop, by simp, by simp, rfl, rfl, rfl, rfl, rfl, rfl, hR, hle, hw, hq⟩
    have hP := hq p (by simp)
    have hq' : ∀ p ∈ q, QOK p := fun x hx => hq x (by simp [hx])
    unfold gather
    by_cases h1 : ¬ ret.ns < target
    · rw [if_pos h1]; exact hstop (fun h => absurd h h1)
    rw [if_neg h1]
    by_cases h2 : u32 (ret.ts + ret.ns) ≠ p.ts ∨ ret.pt ≠ p.pt
    · rw [if_pos h2]
      refine hstop (fun _ => .inr (.inr ⟨p, q, rfl, ?_⟩))
      rcases h2 with h2 | h2
      · exact .inl h2
      · exact .inr (.inl h2)
    rw [if_neg h2]
    have hts : u32 (ret.ts + ret.ns) = p.ts := Classical.byContradiction fun h => h2 (.inl h)
    have hpt : ret.pt = p.pt := Classical.byContradiction fun h => h2 (.inr h)
    have hL := hR.len
    have hS := hR.sz
    by_cases h3 : target - ret.ns > 0 ∧ target - ret.ns < p.ns
    · rw [if_pos h3]
      obtain ⟨b, c1, c2, c3, c4⟩ := chunkFind_spec hP.1 h3.2 (by
        rw [← hpt]; exact (Nat.dvd_sub hgt hg))
      rw [c1]
      simp only
      by_cases h4 : ret.size + b > cap
      · rw [if_pos h4]
        exact hstop (fun _ => .inr (.inr ⟨p, q, rfl, .inr (.inr (by omega))⟩))
      rw [if_neg h4]
      have hpb := hP.1.dsb
      obtain ⟨x, t1, t2, t3, t4, t5, t6, t7, t8, t9⟩ := truncSrc_spec hP.1 c2 h3.2 c3
        (timed_known10 b c4)
      unfold appendChunk
      simp only
      rw [rdn_ok (by omega)]
      simp only [List.drop_zero]
      have hl : (p.body.take b).length = b := by rw [List.length_take]; omega
      rw [wr_ok (by rw [hl]; omega)]
      simp only
      rw [t1]
      simp only
      have hpl : (({ ret with
            body := ret.body.take ret.ds ++ p.body.take b ++ ret.body.drop (ret.ds + (p.body.take b).length)
            ns := ret.ns + (target - ret.ns), ds := ret.ds + b, size := ret.size + b } : Pkt)).payload
            = ret.payload ++ p.payload.take b := by
        simp only [Pkt.payload]
        rw [List.take_append_of_le_length, List.take_of_length_le, List.take_take,
          Nat.min_eq_left c2]
        · rw [List.length_append, hl, List.length_take]; omega
        · rw [List.length_append, hl, List.length_take]; omega
      refine ⟨_, _, p.payload.take b, stampAt p.pt p.ts (p.payload.take b), rfl, ?_, hpl, ?_, rfl, rfl, rfl, rfl,
        rfl, ?_, ?_, ?_, ?_, ?_⟩
      · rw [u32_add, hts]
        exact split_eat hP.1 c2 h3.2 t3 t5 t4 t6 t8 c4 q
      · intro hal _
        unfold stamps
        rw [hpl]
        simp only
        rw [stampAt_append hal.1 hal.2, hts, hpt]
      · rw [sumNs_cons, sumNs_cons]; simp only; rw [t4]; omega
      · refine ⟨?_, hR.h12, ?_, ?_, hR.tsb, ⟨hR.hok.ver, hR.hok.hl, hR.hok.pt, hR.hok.ts, hR.hok.seq,
          hR.hok.ssrc, fun hp => ?_⟩, hR.known⟩
        · simp only [List.length_append, hl, List.length_take, List.length_drop]; omega
        · simp only; omega
        · simp only; omega
        · have := hR.hok.nopad hp
          simp only; omega
      · simp only; omega
      · simp only; intro h; omega
      · intro y hy
        rcases List.mem_cons.mp hy with rfl | hy
        · exact ⟨t2, t9 hP.2⟩
        · exact hq' y hy
    · rw [if_neg h3]
      by_cases h4 : ret.size + p.ds > cap
      · rw [if_pos h4]
        exact hstop (fun _ => .inr (.inr ⟨p, q, rfl, .inr (.inr h4)⟩))
      rw [if_neg h4]
      obtain ⟨r, a0, a1, a2, a3, a4, a5, a6, a7, a8, a9, a10, a11⟩ :=
        appendPacket_spec hL hS hP.1.dsb (by omega)
      rw [a0]
      simp only
      have hrR : ROK r := by
        refine ⟨by rw [a6, a11]; exact hL, by rw [a6]; exact hR.h12, by rw [a6, a3, a4]; omega,
          by rw [a4]; omega, by rw [a7]; exact hR.tsb,
          ⟨by rw [a6]; exact hR.hok.ver, by rw [a6]; exact hR.hok.hl, by rw [a6, a10]; exact hR.hok.pt,
           by rw [a6, a7]; exact hR.hok.ts, by rw [a6, a8]; exact hR.hok.seq,
           by rw [a6, a9]; exact hR.hok.ssrc, fun hp => ?_⟩, by rw [a10]; exact hR.known⟩
        rw [a6] at hp ⊢
        have := hR.hok.nopad hp
        omega
      have hend : u32 (r.ts + r.ns) = u32 (p.ts + p.ns) := by rw [a7, a2, u32_add, hts]
      have hst : Aligned ret → stamps r = stamps ret ++ stamps p := by
        intro hal
        unfold stamps
        rw [a1, a10, a7, stampAt_append hal.1 hal.2, hts, hpt]
      by_cases h5 : r.app = true
      · rw [if_pos h5]
        obtain ⟨r', q', b, st, g1, g2, g3, g4, g5, g6, g7, g8, g9, g10, g11, g12, g13, g14⟩ :=
          gather_spec target q r hrR h5
            (by rw [a10, a2]; exact Nat.dvd_add hg (by rw [hpt]; exact hP.1.fr.gran))
            (by rw [a10]; exact hgt) (by omega) hq'
        refine ⟨r', q', p.payload ++ b, stamps p ++ st, g1, ?_, ?_, ?_, by rw [g5, a7], by rw [g6, a10],
          by rw [g7, a9], by rw [g8, a8], by rw [g9, a6], ?_, g11, g12, g13, g14⟩
        · rw [hts]
          refine .whole rfl ?_
          rw [← hend]
          exact g2
        · rw [g3, a1, List.append_assoc]
        · intro hal hT
          have hpa : Aligned p := aligned_of hP.1 (hT p (by simp)) (by rw [← a5]; exact h5)
          rw [g4 (aligned_append a10 hpt.symm a1 a2 hal hpa) (fun x hx => hT x (by simp [hx])),
            hst hal, List.append_assoc]
        · rw [g10, a2, sumNs_cons]; omega
      · rw [if_neg h5]
        refine ⟨r, q, p.payload, stamps p, rfl, ?_, a1, fun hal _ => hst hal, a7, a10, a9, a8, a6, ?_, hrR, by omega,
          fun _ => .inl (by simpa using h5), hq'⟩
        · rw [hts, hend]
          have := Eat.whole (p := p) (e := p.ts) rfl (.stop (q := q) (e := u32 (p.ts + p.ns)))
          simpa using this
        · rw [a2, sumNs_cons]; omega

theorem gran_target (outN pt : Nat)
    (hk : pt = PCMU ∨ pt = PCMA ∨ pt = G729 ∨ pt = GSM ∨ pt = G723 ∨ pt = G722) :
    gran pt ∣ targetOf outN pt ∧ 0 < targetOf outN pt := by
  have h : ∀ m, 0 < m → m ∣ (if outN < m then m else if outN % m ≠ 0 then outN + (m - outN % m) else outN) ∧
      0 < (if outN < m then m else if outN % m ≠ 0 then outN + (m - outN % m) else outN) := by
    intro m hm
    split
    · exact ⟨Nat.dvd_refl _, hm⟩
    · split
      · refine ⟨?_, by omega⟩
        have h1 := Nat.div_add_mod outN m
        have h2 := Nat.mod_lt outN hm
        refine ⟨outN / m + 1, ?_⟩
        rw [Nat.mul_add]
        omega
      · refine ⟨Nat.dvd_of_mod_eq_zero (by omega), by omega⟩
  have hg : gran pt ∣ minNsamples pt ∧ 0 < minNsamples pt := by
    rcases hk with h | h | h | h | h | h <;> subst h <;> decide
  have := h (minNsamples pt) hg.2
  exact ⟨Nat.dvd_trans hg.1 this.1, this.2⟩

/-- What one successful aggregation does. -/
theorem collect_spec {allocOk : Bool} {target : Nat} {p : Pkt} {q : List Pkt} (hP : QOK p)
    (hq : ∀ x ∈ q, QOK x) (hgt : gran p.pt ∣ target) :
    (allocOk = false ∧ collect allocOk target p q = .ok none) ∨
    ∃ r q' b st, collect allocOk target p q = .ok (some (r, q')) ∧
      Eat p.ts (p :: q) (u32 (r.ts + r.ns)) q' b st ∧ r.payload = b ∧
      ((∀ x ∈ p :: q, Timed x) → stamps r = st) ∧
      r.ts = p.ts ∧ r.pt = p.pt ∧ r.ssrc = p.ssrc ∧ r.seq = p.seq ∧ r.hdr = p.hdr ∧
      r.ns + sumNs q' = sumNs (p :: q) ∧ ROK r ∧ r.ns ≤ target ∧
      (r.ns < target → Why r q') ∧ (∀ x ∈ q', QOK x) := by
  unfold collect
  by_cases h1 : p.ns > target
  · rw [if_pos h1]
    obtain ⟨b, c1, c2, c3, c4⟩ := chunkFind_spec hP.1 h1 hgt
    rw [c1]
    simp only
    by_cases ha : allocOk = false
    · rw [if_pos ha]; exact .inl ⟨ha, rfl⟩
    rw [if_neg ha]
    right
    have hpb := hP.1.dsb
    have hsz := hP.1.sz
    have hlen := hP.1.len
    have hsc := hP.1.szc
    unfold dupHdr
    rw [if_neg (by omega)]
    simp only
    have hcl : POK (clearMbt p) := by
      have e : (clearMbt p).hdr.length = p.hdr.length := by
        simp [clearMbt, Verif.Rtp.length_poke]
      exact ⟨by rw [e]; exact hlen, by rw [e]; exact hP.1.h12, by rw [e]; exact hsz, hsc, hP.1.fr, hP.1.tsb, hP.1.ap⟩
    obtain ⟨x, t1, t2, t3, t4, t5, t6, t7, t8, t9⟩ := truncSrc_spec hcl c2 h1 c3
      (timed_known10 (p := clearMbt p) b c4)
    unfold moveChunk
    simp only
    rw [show (clearMbt p).body = p.body from rfl, rdn_ok (by omega)]
    simp only [List.drop_zero]
    have hl : (p.body.take b).length = b := by rw [List.length_take]; omega
    have hbl : ((p.body.take (p.size - p.ds - p.hdr.length)) ++
        List.replicate (p.body.length - (p.body.take (p.size - p.ds - p.hdr.length)).length) (0 : UInt8)).length
        = p.body.length := by
      simp only [List.length_append, List.length_replicate, List.length_take]; omega
    rw [wr_ok (by rw [hl, hbl]; omega)]
    simp only
    rw [t1]
    simp only [List.take_zero, List.nil_append, Nat.zero_add]
    have hpl : (p.body.take b ++ List.drop (p.body.take b).length (p.body.take (p.size - p.ds - p.hdr.length) ++
        List.replicate (p.body.length - (p.body.take (p.size - p.ds - p.hdr.length)).length) (0 : UInt8))).take b
        = p.payload.take b := by
      rw [List.take_append_of_le_length (by omega), List.take_of_length_le (by omega)]
      unfold Pkt.payload
      rw [List.take_take, Nat.min_eq_left c2]
    refine ⟨_, _, p.payload.take b, stampAt p.pt p.ts (p.payload.take b), rfl, ?_, hpl, ?_, rfl, rfl, rfl,
      rfl, rfl, ?_, ?_, ?_, ?_, ?_⟩
    · exact split_eat hP.1 c2 h1 t3 t5 t4 t6 t8 c4 q
    · intro _
      unfold stamps Pkt.payload
      simp only
      rw [hpl]
      rfl
    · rw [sumNs_cons, sumNs_cons]; simp only; rw [t4]
      change target + (p.ns - target + sumNs q) = _
      omega
    · refine ⟨?_, hP.1.h12, ?_, ?_, hP.1.tsb, ⟨hP.2.ver, hP.2.hl, hP.2.pt, hP.2.ts, hP.2.seq,
          hP.2.ssrc, fun hp => ?_⟩, hP.1.fr.known⟩
      · simp only [List.length_append, hl, List.length_take, List.length_drop, List.length_replicate]; omega
      · simp only; omega
      · simp only; omega
      · simp only; omega
    · simp
    · simp only; intro h; omega
    · intro y hy
      rcases List.mem_cons.mp hy with rfl | hy
      · exact ⟨t2, t9 (clearMbt_hok hP.2 hP.1.h12)⟩
      · exact hq y hy
  · rw [if_neg h1]
    right
    by_cases ha : p.app = true
    · rw [if_pos ha]
      obtain ⟨r, q', b, st, g1, g2, g3, g4, g5, g6, g7, g8, g9, g10, g11, g12, g13, g14⟩ :=
        gather_spec target q p (ROK.ofQ hP) ha hP.1.fr.gran hgt (by omega) hq
      rw [g1]
      refine ⟨r, q', p.payload ++ b, stamps p ++ st, rfl, .whole rfl g2, g3, ?_, g5, g6, g7, g8, g9, ?_,
        g11, g12, g13, g14⟩
      · intro hT
        exact g4 (aligned_of hP.1 (hT p (by simp)) ha) (fun x hx => hT x (by simp [hx]))
      · rw [g10, sumNs_cons]
    · rw [if_neg ha]
      refine ⟨p, q, p.payload, stamps p, rfl, ?_, rfl, fun _ => rfl, rfl, rfl, rfl, rfl, rfl, ?_, ROK.ofQ hP,
        by omega, fun _ => .inl (by simpa using ha), hq⟩
      · have := Eat.whole (p := p) (e := p.ts) rfl (.stop (q := q) (e := u32 (p.ts + p.ns)))
        simpa using this
      · rw [sumNs_cons]

end Verif.Resizer
