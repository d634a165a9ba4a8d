import Verif.Cksum.Model

/-!
# C37: the checksums are those of RFC 1071
-/

namespace Verif.Cksum

/-! ### RFC 1071, in network byte order -/

/-- One's complement addition of 16-bit numbers: the carry is added back at the bottom. -/
def oc (a b : Nat) : Nat := if a + b ≥ 65536 then a + b - 65535 else a + b

/-- The 16-bit words of a byte string, most significant byte first; an odd byte is padded with a zero on the right. -/
def words : List Nat → List Nat
  | a :: b :: l => (256 * a + b) :: words l
  | [a] => [256 * a]
  | [] => []

/-- One's complement sum. -/
def ocSum (l : List Nat) : Nat := (words l).foldl oc 0

/-- The checksum as transmitted: the complement of the sum, most significant byte first. -/
def rfc1071 (l : List Nat) : List Nat := [(65535 - ocSum l) / 256, (65535 - ocSum l) % 256]

/-- A receiver's check: the sum over everything including the checksum is all ones. -/
def Verifies (l : List Nat) : Prop := ocSum l = 65535

def Bytes (l : List Nat) : Prop := ∀ b ∈ l, b < 256

/-! ### Characterisation of the sum -/

/-- `r` is the 16-bit one's complement representation of the natural number `n`, with the "all ones" form of zero for
every non-zero multiple. -/
def Reduced (n r : Nat) : Prop := r < 65536 ∧ r % 65535 = n % 65535 ∧ (r = 0 ↔ n = 0)

theorem Reduced.unique {n r r' : Nat} (h : Reduced n r) (h' : Reduced n r') : r = r' := by
  obtain ⟨a1, a2, a3⟩ := h
  obtain ⟨b1, b2, b3⟩ := h'
  by_cases hn : n = 0
  · rw [a3.2 hn, b3.2 hn]
  · have := mt a3.1 hn
    have := mt b3.1 hn
    omega

theorem foldl_oc : ∀ (l : List Nat) (n r : Nat), (∀ w ∈ l, w < 65536) → Reduced n r → Reduced (n + l.sum) (l.foldl oc r)
  | [], n, r, _, h => by simpa using h
  | w :: l, n, r, hw, h => by
    have hw0 := hw w (by simp)
    obtain ⟨a1, a2, a3⟩ := h
    have : Reduced (n + w) (oc r w) := by
      unfold oc
      split
      · refine ⟨by omega, by omega, by omega⟩
      · refine ⟨by omega, by omega, by omega⟩
    have ih := foldl_oc l (n + w) (oc r w) (fun x hx => hw x (by simp [hx])) this
    rw [List.foldl_cons, List.sum_cons, ← Nat.add_assoc]
    exact ih

theorem words_lt : ∀ {l : List Nat}, Bytes l → ∀ w ∈ words l, w < 65536
  | [], _, w, h => by simp [words] at h
  | [a], hb, w, h => by
    simp only [words, List.mem_singleton] at h
    have := hb a (by simp)
    omega
  | a :: b :: l, hb, w, h => by
    simp only [words, List.mem_cons] at h
    have h1 := hb a (by simp)
    have h2 := hb b (by simp)
    rcases h with rfl | h
    · omega
    · exact words_lt (fun x hx => hb x (by simp [hx])) w h

theorem ocSum_reduced {l : List Nat} (h : Bytes l) : Reduced (words l).sum (ocSum l) := by
  have := foldl_oc (words l) 0 0 (words_lt h) ⟨by omega, rfl, by simp⟩
  rw [Nat.zero_add] at this
  exact this

/-- Sum of the little-endian words. -/
def leSum : List Nat → Nat
  | a :: b :: l => a + 256 * b + leSum l
  | [a] => a
  | [] => 0

/-- Swapping the bytes of all words multiplies the sum by 256 modulo 65535. -/
theorem leSum_swap : ∀ (l : List Nat), (words l).sum % 65535 = (256 * leSum l) % 65535 ∧ ((words l).sum = 0 ↔ leSum l = 0)
  | [] => by simp [words, leSum]
  | [a] => by simp [words, leSum]; omega
  | a :: b :: l => by
    have ih := leSum_swap l
    simp only [words, leSum, List.sum_cons]
    omega

theorem leSum_bound : ∀ {l : List Nat}, Bytes l → leSum l ≤ 65535 * ((l.length + 1) / 2)
  | [], _ => by simp [leSum]
  | [a], h => by have := h a (by simp); simp [leSum]; omega
  | a :: b :: l, h => by
    have h1 := h a (by simp)
    have h2 := h b (by simp)
    have ih := leSum_bound (l := l) (fun x hx => h x (by simp [hx]))
    simp only [leSum, List.length_cons]
    omega

theorem fold_reduced {s : Nat} (h : s < 4294967296) :
    Reduced s ((s / 65536 + s % 65536 + (s / 65536 + s % 65536) / 65536) % 65536) := by
  obtain ⟨q, t, e, ht⟩ : ∃ q t, s = 65536 * q + t ∧ t < 65536 := ⟨s / 65536, s % 65536, by omega, by omega⟩
  have hq : q < 65536 := by omega
  have e1 : s / 65536 = q := by omega
  have e2 : s % 65536 = t := by omega
  rw [e1, e2]
  by_cases hf : q + t < 65536
  · have e3 : (q + t) / 65536 = 0 := by omega
    rw [e3, Nat.add_zero, Nat.mod_eq_of_lt hf, e]
    refine ⟨hf, by omega, by omega⟩
  · have e3 : (q + t) / 65536 = 1 := by omega
    have e4 : (q + t + 1) % 65536 = q + t - 65535 := by omega
    rw [e3, e4, e]
    refine ⟨by omega, by omega, by omega⟩

/-- A little-endian result stored natively is the big-endian checksum. -/
theorem store_swap {l : List Nat} (hb : Bytes l) {r : Nat} (h : Reduced (leSum l) r) :
    store (65535 - r) = rfc1071 l := by
  have hs := ocSum_reduced hb
  obtain ⟨e1, e2⟩ := leSum_swap l
  obtain ⟨a1, a2, a3⟩ := h
  have : ocSum l = 256 * (r % 256) + r / 256 := by
    refine hs.unique ⟨by omega, ?_, by omega⟩
    rw [e1]
    have q1 : (256 * (r % 256) + r / 256) % 65535 = (256 * r) % 65535 := by omega
    have q2 : (256 * r) % 65535 = (256 * (leSum l)) % 65535 := by omega
    omega
  unfold store rfc1071
  rw [this]
  obtain ⟨u, v, hu, hv, e⟩ : ∃ u v, u < 256 ∧ v < 256 ∧ r = (255 - u) + 256 * (255 - v) :=
    ⟨255 - r % 256, 255 - r / 256, by omega, by omega, by omega⟩
  have f3 : 65535 - r = u + 256 * v := by omega
  have f4 : 65535 - (256 * (r % 256) + r / 256) = 256 * u + v := by
    have : r % 256 = 255 - u := by omega
    have : r / 256 = 255 - v := by omega
    omega
  rw [f3, f4]
  rw [Nat.add_mul_mod_self_left, Nat.mod_eq_of_lt hu, Nat.add_mul_div_left _ _ (by omega), Nat.div_eq_of_lt hu,
    Nat.mul_add_div (by omega), Nat.div_eq_of_lt hv, Nat.mul_add_mod, Nat.mod_eq_of_lt hv]
  simp

theorem sumLoop_ok : ∀ (l : List Nat) (s : Nat), s + leSum l ≤ 2147483647 → sumLoop s l = .ok (s + leSum l)
  | [], s, _ => by simp [sumLoop, leSum]
  | [a], s, h => by simp only [leSum] at h; simp [sumLoop, addInt, leSum, h]
  | a :: b :: l, s, h => by
    simp only [leSum] at h ⊢
    simp only [sumLoop, addInt]
    rw [if_pos (by omega)]
    simp only []
    rw [sumLoop_ok l _ (by omega)]
    congr 1; omega

/-- For every byte string of up to 65535 bytes, `rtpp_in_cksum` neither overflows nor differs from RFC 1071: the two
bytes stored are exactly the transmitted checksum. -/
theorem C37_in_cksum (l : List Nat) (hb : Bytes l) (hl : l.length < 65536) :
    ∃ c, inCksum l = .ok c ∧ store c = rfc1071 l := by
  have hbd := leSum_bound hb
  have : leSum l ≤ 2147483647 := by
    have : (l.length + 1) / 2 ≤ 32768 := by omega
    omega
  refine ⟨_, ?_, store_swap hb (fold_reduced (s := leSum l) (by omega))⟩
  unfold inCksum
  rw [sumLoop_ok l 0 (by omega)]
  simp

/-- The assumption "less than 2^16 bytes" of the C code is needed: there is a longer string that overflows. -/
theorem C37_in_cksum_long : ∃ l, Bytes l ∧ l.length = 65540 ∧ inCksum l = .error .ub := by
  refine ⟨List.replicate 65540 255, ?_, List.length_replicate, ?_⟩
  · intro b hb
    rw [List.eq_of_mem_replicate hb]
    omega
  · have key : ∀ (n s : Nat), s + 65535 * n > 2147483647 → s ≤ 2147483647 →
        sumLoop s (List.replicate (2 * n) 255) = .error .ub := by
      intro n
      induction n with
      | zero => intro s h1 h2; omega
      | succ n ih =>
        intro s h1 h2
        rw [show 2 * (n + 1) = 2 * n + 1 + 1 by omega, List.replicate_succ, List.replicate_succ]
        simp only [sumLoop, addInt]
        by_cases hc : s + (255 + 256 * 255) ≤ 2147483647
        · rw [if_pos hc]
          simp only []
          exact ih _ (by omega) hc
        · rw [if_neg hc]
    unfold inCksum
    rw [show 65540 = 2 * 32770 by omega, key 32770 0 (by omega) (by omega)]

theorem words_append : ∀ (l1 l2 : List Nat), l1.length % 2 = 0 → words (l1 ++ l2) = words l1 ++ words l2
  | [], l2, _ => rfl
  | [a], l2, h => by simp at h
  | a :: b :: l, l2, h => by
    simp only [List.cons_append, words]
    rw [words_append l l2 (by simp at h; omega)]

theorem leSum_append : ∀ (l1 l2 : List Nat), l1.length % 2 = 0 → leSum (l1 ++ l2) = leSum l1 + leSum l2
  | [], l2, _ => by simp [leSum]
  | [a], l2, h => by simp at h
  | a :: b :: l, l2, h => by
    simp only [List.cons_append, leSum]
    rw [leSum_append l l2 (by simp at h; omega)]
    omega

/-- Inserting the checksum in its (zero, even-aligned) field makes the packet verify at the receiver. -/
theorem C37_inserted_verifies (pre post : List Nat) (hp : Bytes (pre ++ [0, 0] ++ post)) (he : pre.length % 2 = 0)
    (hl : (pre ++ [0, 0] ++ post).length < 65536) :
    ∃ c, inCksum (pre ++ [0, 0] ++ post) = .ok c ∧ Verifies (pre ++ store c ++ post) := by
  obtain ⟨c, e, h⟩ := C37_in_cksum _ hp hl
  refine ⟨c, e, ?_⟩
  have hr := ocSum_reduced hp
  have hb2 : Bytes (pre ++ store c ++ post) := by
    intro b hb
    rw [h] at hb
    simp only [List.append_assoc, List.mem_append] at hb
    rcases hb with hb | hb | hb
    · exact hp b (by simp [hb])
    · have : ocSum (pre ++ [0, 0] ++ post) < 65536 := hr.1
      simp only [rfc1071, List.mem_cons, List.not_mem_nil, or_false] at hb
      omega
    · exact hp b (by simp [hb])
  refine (ocSum_reduced hb2).unique ⟨by omega, ?_, ?_⟩ <;> rw [h] <;>
    rw [List.append_assoc, words_append _ _ he, rfc1071] <;>
    simp only [List.cons_append, List.nil_append, words, List.sum_append, List.sum_cons] <;>
    rw [List.append_assoc, words_append _ _ he] at hr <;>
    simp only [List.cons_append, List.nil_append, words, List.sum_append, List.sum_cons] at hr <;>
    rw [List.append_assoc] at * <;>
    obtain ⟨r1, r2, r3⟩ := hr <;>
    simp only [List.cons_append, List.nil_append] at * <;> omega

/-- An IPv4 header. -/
example : (inCksum [0x45, 0, 0, 60, 0x1c, 0x46, 0x40, 0, 64, 6, 0, 0, 172, 16, 10, 99, 172, 16, 10, 12]).toOption.map store =
    some [0xb1, 0xe6] := by decide

/-! ### UDP -/

theorem update_ok : ∀ (l : List Nat) (w : Nat), l.length % 2 = 0 → w + leSum l < 4294967296 → update w l = w + leSum l
  | [], w, _, _ => by simp [update, leSum]
  | [a], w, h, _ => by simp at h
  | a :: b :: l, w, h, hb => by
    simp only [leSum] at hb ⊢
    rw [update, Nat.mod_eq_of_lt (by omega), update_ok l _ (by simp at h; omega) (by omega)]
    omega

theorem updateData_ok : ∀ (l : List Nat) (w : Nat), w + leSum l < 4294967296 → updateData w l = w + leSum l
  | [], w, _ => by simp [updateData, leSum]
  | [a], w, h => by simp only [leSum] at h; simp [updateData, leSum, Nat.mod_eq_of_lt h]
  | a :: b :: l, w, hb => by
    simp only [leSum] at hb ⊢
    rw [updateData, Nat.mod_eq_of_lt (by omega), updateData_ok l _ (by omega)]
    omega

theorem fin_eq {s : Nat} (h : s < 4294967296) :
    fin s = 65535 - (s / 65536 + s % 65536 + (s / 65536 + s % 65536) / 65536) % 65536 := by
  unfold fin
  simp only []
  rw [Nat.mod_eq_of_lt (b := 4294967296) (by omega)]

/-- RFC 768 pseudo-header followed by the UDP header (checksum zero) and the data. -/
def pseudo4 (src dst sport dport ulen data : List Nat) : List Nat :=
  src ++ (dst ++ ([0, 17] ++ (ulen ++ (sport ++ (dport ++ (ulen ++ ([0, 0] ++ data)))))))

/-- RFC 8200 pseudo-header (upper-layer length in 32 bits, three zeros, next header) and the rest. -/
def pseudo6 (src dst sport dport ulen ulen32 data : List Nat) : List Nat :=
  src ++ (dst ++ (ulen32 ++ ([0, 0, 0, 17] ++ (sport ++ (dport ++ (ulen ++ ([0, 0] ++ data)))))))

theorem leSum_zeros (l : List Nat) : leSum ([0, 0] ++ l) = leSum l := by simp [leSum]

/-- The UDP checksum put in a recorded IPv4 packet is the RFC 1071 checksum of pseudo-header, header and data, for
every address, port and data. -/
theorem C37_udp4 (src dst sport dport ulen data : List Nat) (h1 : src.length = 4) (h2 : dst.length = 4)
    (h3 : sport.length = 2) (h4 : dport.length = 2) (h5 : ulen.length = 2) (h6 : data.length < 65536)
    (hb : Bytes (pseudo4 src dst sport dport ulen data)) :
    store (udp4 src dst sport dport ulen data) = rfc1071 (pseudo4 src dst sport dport ulen data) := by
  have hlen : (pseudo4 src dst sport dport ulen data).length = 20 + data.length := by
    simp [pseudo4, h1, h2, h3, h4, h5]; omega
  have hbd := leSum_bound hb
  rw [hlen] at hbd
  have hle : leSum (pseudo4 src dst sport dport ulen data) = leSum src + leSum dst + leSum [0, 17] + leSum ulen + leSum sport
      + leSum dport + leSum ulen + leSum data := by
    unfold pseudo4
    rw [leSum_append _ _ (by omega), leSum_append _ _ (by omega), leSum_append _ _ (by simp), leSum_append _ _ (by omega),
      leSum_append _ _ (by omega), leSum_append _ _ (by omega), leSum_append _ _ (by omega), leSum_zeros]
    omega
  have hmax : leSum (pseudo4 src dst sport dport ulen data) < 4294967296 := by omega
  refine Eq.trans ?_ (store_swap hb (fold_reduced hmax))
  congr 1
  refine Eq.trans ?_ (fin_eq hmax)
  unfold udp4
  simp only []
  have u0 := update_ok src (0) (by first | omega | simp) (by omega)
  have u1 := update_ok dst (0 + leSum src) (by first | omega | simp) (by omega)
  have u2 := update_ok [0, 17] (0 + leSum src + leSum dst) (by first | omega | simp) (by omega)
  have u3 := update_ok ulen (0 + leSum src + leSum dst + leSum [0, 17]) (by first | omega | simp) (by omega)
  have u4 := update_ok sport (0 + leSum src + leSum dst + leSum [0, 17] + leSum ulen) (by first | omega | simp) (by omega)
  have u5 := update_ok dport (0 + leSum src + leSum dst + leSum [0, 17] + leSum ulen + leSum sport) (by first | omega | simp) (by omega)
  have u6 := update_ok ulen (0 + leSum src + leSum dst + leSum [0, 17] + leSum ulen + leSum sport + leSum dport) (by first | omega | simp) (by omega)
  have u7 := updateData_ok data (0 + leSum src + leSum dst + leSum [0, 17] + leSum ulen + leSum sport + leSum dport + leSum ulen) (by omega)
  rw [u0, u1, u2, u3, u4, u5, u6, u7, hle]
  exact congrArg fin (by omega)


theorem C37_udp6 (src dst sport dport ulen ulen32 data : List Nat) (h1 : src.length = 16) (h2 : dst.length = 16)
    (h3 : sport.length = 2) (h4 : dport.length = 2) (h5 : ulen.length = 2) (h5' : ulen32.length = 4) (h6 : data.length < 65536)
    (hb : Bytes (pseudo6 src dst sport dport ulen ulen32 data)) :
    store (udp6 src dst sport dport ulen ulen32 data) = rfc1071 (pseudo6 src dst sport dport ulen ulen32 data) := by
  have hlen : (pseudo6 src dst sport dport ulen ulen32 data).length = 48 + data.length := by
    simp [pseudo6, h1, h2, h3, h4, h5, h5']; omega
  have hbd := leSum_bound hb
  rw [hlen] at hbd
  have hle : leSum (pseudo6 src dst sport dport ulen ulen32 data) = leSum src + leSum dst + leSum ulen32 + leSum [0, 0, 0, 17]
      + leSum sport + leSum dport + leSum ulen + leSum data := by
    unfold pseudo6
    rw [leSum_append _ _ (by omega), leSum_append _ _ (by omega), leSum_append _ _ (by omega), leSum_append _ _ (by simp),
      leSum_append _ _ (by omega), leSum_append _ _ (by omega), leSum_append _ _ (by omega), leSum_zeros]
    omega
  have hmax : leSum (pseudo6 src dst sport dport ulen ulen32 data) < 4294967296 := by omega
  refine Eq.trans ?_ (store_swap hb (fold_reduced hmax))
  congr 1
  refine Eq.trans ?_ (fin_eq hmax)
  unfold udp6
  simp only []
  have u0 := update_ok src (0) (by first | omega | simp) (by omega)
  have u1 := update_ok dst (0 + leSum src) (by first | omega | simp) (by omega)
  have u2 := update_ok ulen32 (0 + leSum src + leSum dst) (by first | omega | simp) (by omega)
  have u3 := update_ok [0, 0, 0, 17] (0 + leSum src + leSum dst + leSum ulen32) (by first | omega | simp) (by omega)
  have u4 := update_ok sport (0 + leSum src + leSum dst + leSum ulen32 + leSum [0, 0, 0, 17]) (by first | omega | simp) (by omega)
  have u5 := update_ok dport (0 + leSum src + leSum dst + leSum ulen32 + leSum [0, 0, 0, 17] + leSum sport) (by first | omega | simp) (by omega)
  have u6 := update_ok ulen (0 + leSum src + leSum dst + leSum ulen32 + leSum [0, 0, 0, 17] + leSum sport + leSum dport) (by first | omega | simp) (by omega)
  have u7 := updateData_ok data (0 + leSum src + leSum dst + leSum ulen32 + leSum [0, 0, 0, 17] + leSum sport + leSum dport + leSum ulen) (by omega)
  rw [u0, u1, u2, u3, u4, u5, u6, u7, hle]
  exact congrArg fin (by omega)


example : Bytes (pseudo4 [10, 0, 0, 1] [10, 0, 0, 2] [0x13, 0x88] [0x13, 0x8a] [0, 11] [1, 2, 3]) ∧
    store (udp4 [10, 0, 0, 1] [10, 0, 0, 2] [0x13, 0x88] [0x13, 0x8a] [0, 11] [1, 2, 3]) = [0xc0, 0xc1] := by
  refine ⟨by unfold Bytes; decide, by decide⟩

/-- RFC 768 (and RFC 8200, where it is mandatory) reserve an all-zero UDP checksum for "no checksum" and ask for
all ones to be sent instead.  The code does not do that: a packet can be recorded with checksum zero, which an IPv6
receiver must discard. -/
theorem C37_udp_zero_checksum_counterexample :
    ¬ ∀ src dst sport dport ulen ulen32 data : List Nat, src.length = 16 → dst.length = 16 → sport.length = 2 →
      dport.length = 2 → ulen = [0, 10] → ulen32 = [0, 0, 0, 10] → data.length = 2 →
      Bytes (pseudo6 src dst sport dport ulen ulen32 data) → udp6 src dst sport dport ulen ulen32 data ≠ 0 := by
  intro h
  exact h (List.replicate 16 0) (List.replicate 16 0) [0, 1] [0, 1] [0, 10] [0, 0, 0, 10] [0xff, 0xd8]
    rfl rfl rfl rfl rfl rfl rfl (by unfold Bytes; decide) (by decide)

end Verif.Cksum
