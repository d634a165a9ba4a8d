import Verif.Record.Spec

/-!
# The headers the recorder makes are what a reader expects
-/

namespace Verif.Record
open Verif.Cksum

theorem cut_app {n : Nat} {a : List Nat} (b : List Nat) (h : a.length = n) : cut n (a ++ b) = some (a, b) := by
  unfold cut
  rw [if_pos (by rw [List.length_append]; omega), ← h]
  simp

theorem cut_all {n : Nat} {a : List Nat} (h : a.length = n) : cut n a = some (a, []) := by
  have := cut_app (a := a) [] h
  rwa [List.append_nil] at this

theorem big_be16 {x : Nat} (h : x < 65536) : big (be16 x) = x := by
  simp only [big, be16, List.foldl_cons, List.foldl_nil]; omega

theorem little_le32 {x : Nat} (h : x < 4294967296) : little (le32 x) = x := by
  simp only [little, big, le32, List.reverse_cons, List.reverse_nil, List.nil_append, List.cons_append, List.foldl_cons,
    List.foldl_nil]; omega

theorem little_le16 {x : Nat} (h : x < 65536) : little (le16 x) = x := by
  simp only [little, big, le16, List.reverse_cons, List.reverse_nil, List.nil_append, List.cons_append, List.foldl_cons,
    List.foldl_nil]; omega

theorem be16_bytes (x : Nat) : Bytes (be16 x) := by
  intro b hb; simp only [be16, List.mem_cons, List.not_mem_nil, or_false] at hb; omega

theorem be32_bytes (x : Nat) : Bytes (be32 x) := by
  intro b hb; simp only [be32, List.mem_cons, List.not_mem_nil, or_false] at hb; omega

theorem bytes_app {a b : List Nat} (ha : Bytes a) (hb : Bytes b) : Bytes (a ++ b) := by
  intro x hx
  rcases List.mem_append.1 hx with h | h
  · exact ha x h
  · exact hb x h

theorem rfc_inserted {pre post : List Nat} (hp : Bytes (pre ++ [0, 0] ++ post)) (he : pre.length % 2 = 0)
    (hl : (pre ++ [0, 0] ++ post).length < 65536) : Verifies (pre ++ rfc1071 (pre ++ [0, 0] ++ post) ++ post) := by
  obtain ⟨c, h1, h2⟩ := C37_inserted_verifies pre post hp he hl
  obtain ⟨c', h3, h4⟩ := C37_in_cksum _ hp hl
  rw [h1] at h3
  cases h3
  rw [← h4]; exact h2

theorem store_length (c : Nat) : (store c).length = 2 := rfl
theorem be16_length (c : Nat) : (be16 c).length = 2 := rfl
theorem le16_length (c : Nat) : (le16 c).length = 2 := rfl
theorem le32_length (c : Nat) : (le32 c).length = 4 := rfl

theorem foldMac_length (ra : List Nat) (h : 6 ≤ ra.length) : (foldMac ra).length = 6 := by
  unfold foldMac
  generalize List.range' 6 (ra.length - 6) = is
  have : ∀ (is m : List Nat), m.length = 6 →
      (is.foldl (fun m i => m.modify (i % 6) (fun b => Nat.xor b (ra.getD i 0))) m).length = 6 := by
    intro is
    induction is with
    | nil => exact fun m h => h
    | cons i is ih => intro m hm; exact ih _ (by simpa using hm)
  exact this is _ (by rw [List.length_take]; omega)

theorem mac_length {a : Sa} (h : a.Ok) : (mac a).length = 6 := by
  have hl := h.len
  unfold mac
  cases hf : a.fam with
  | v4 => rw [hf] at hl; simp only [List.length_append, hl]; rfl
  | v6 => rw [hf] at hl; exact foldMac_length _ (by simp only [hl]; omega)

theorem udp_length (p : Pkt) (s d : Sa) : (udp p s d).length = 8 := by
  unfold udp; simp [be16_length, store_length]

theorem readUdp_ok4 {p : Pkt} {s d : Sa} (hs : s.Ok) (hd : d.Ok) (hfs : s.fam = .v4) (hfd : d.fam = .v4) (hb : Bytes p.data)
    (hl : p.data.length ≤ 8192) :
    readUdp .v4 (s.addr ++ d.addr ++ [0, 17] ++ [(8 + p.data.length) / 256, (8 + p.data.length) % 256]) s.addr d.addr
      (udp p s d ++ p.data) = some (s, d, p.data) := by
  obtain ⟨sl, sb, sp⟩ := hs
  obtain ⟨dl, db, dp⟩ := hd
  rw [hfs] at sl
  rw [hfd] at dl
  simp only at sl dl
  have hulen : (udp p s d ++ p.data).length = 8 + p.data.length := by
    rw [List.length_append, udp_length]
  have hbe : [(8 + p.data.length) / 256, (8 + p.data.length) % 256] = be16 (8 + p.data.length) := by
    unfold be16
    rw [Nat.mod_eq_of_lt (a := (8 + p.data.length) / 256) (by omega)]
  have hpb : Bytes (pseudo4 s.addr d.addr (be16 s.port) (be16 d.port) (be16 (8 + p.data.length)) p.data) := by
    unfold pseudo4
    refine bytes_app sb (bytes_app db (bytes_app ?_ (bytes_app (be16_bytes _) (bytes_app (be16_bytes _) (bytes_app (be16_bytes _)
      (bytes_app (be16_bytes _) (bytes_app ?_ hb)))))))
    · intro b hb; simp only [List.mem_cons, List.not_mem_nil, or_false] at hb; omega
    · intro b hb; simp only [List.mem_cons, List.not_mem_nil, or_false] at hb; omega
  have hck := C37_udp4 s.addr d.addr (be16 s.port) (be16 d.port) (be16 (8 + p.data.length)) p.data sl dl rfl rfl rfl (by omega) hpb
  have hsplit : pseudo4 s.addr d.addr (be16 s.port) (be16 d.port) (be16 (8 + p.data.length)) p.data =
      (s.addr ++ d.addr ++ [0, 17] ++ be16 (8 + p.data.length) ++ be16 s.port ++ be16 d.port ++ be16 (8 + p.data.length)) ++ [0, 0] ++
        p.data := by
    simp [pseudo4]
  have hver : Verifies ((s.addr ++ d.addr ++ [0, 17] ++ be16 (8 + p.data.length) ++ be16 s.port ++ be16 d.port ++
      be16 (8 + p.data.length)) ++ store (udp4 s.addr d.addr (be16 s.port) (be16 d.port) (be16 (8 + p.data.length)) p.data) ++ p.data) := by
    rw [hck, hsplit]
    apply rfc_inserted
    · rw [← hsplit]; exact hpb
    · simp [sl, dl, be16_length]
    · simp [sl, dl, be16_length]; omega
  unfold readUdp
  rw [hbe]
  have hu : udp p s d ++ p.data = be16 s.port ++ (be16 d.port ++ (be16 (8 + p.data.length) ++
      (store (udp4 s.addr d.addr (be16 s.port) (be16 d.port) (be16 (8 + p.data.length)) p.data) ++ p.data))) := by
    simp [udp, hfs]
  have hver' : ocSum (s.addr ++ d.addr ++ [0, 17] ++ be16 (8 + p.data.length) ++ (udp p s d ++ p.data)) = 65535 := by
    rw [hu]
    have := hver
    unfold Verifies at this
    simpa [List.append_assoc] using this
  rw [hver', hulen, hu]
  simp only [cut_app _ (be16_length _), cut_app _ (store_length _), Option.bind_eq_bind, Option.bind_some, big_be16 sp, big_be16 dp,
    big_be16 (show 8 + p.data.length < 65536 by omega), guard, if_true]
  cases s; cases d
  simp only at hfs hfd
  subst hfs; subst hfd
  rfl

theorem readUdp_ok6 {p : Pkt} {s d : Sa} (hs : s.Ok) (hd : d.Ok) (hfs : s.fam = .v6) (hfd : d.fam = .v6) (hb : Bytes p.data)
    (hl : p.data.length ≤ 8192) :
    readUdp .v6 (s.addr ++ d.addr ++ [0, 0, (8 + p.data.length) / 256, (8 + p.data.length) % 256] ++ [0, 0, 0, 17]) s.addr d.addr
      (udp p s d ++ p.data) = some (s, d, p.data) := by
  obtain ⟨sl, sb, sp⟩ := hs
  obtain ⟨dl, db, dp⟩ := hd
  rw [hfs] at sl
  rw [hfd] at dl
  simp only at sl dl
  have hulen : (udp p s d ++ p.data).length = 8 + p.data.length := by
    rw [List.length_append, udp_length]
  have hbe : [0, 0, (8 + p.data.length) / 256, (8 + p.data.length) % 256] = be32 (8 + p.data.length) := by
    unfold be32
    rw [Nat.mod_eq_of_lt (a := (8 + p.data.length) / 256) (by omega), show (8 + p.data.length) / 16777216 = 0 by omega,
      show (8 + p.data.length) / 65536 = 0 by omega]
  have hpb : Bytes (pseudo6 s.addr d.addr (be16 s.port) (be16 d.port) (be16 (8 + p.data.length)) (be32 (8 + p.data.length)) p.data) := by
    unfold pseudo6
    refine bytes_app sb (bytes_app db (bytes_app (be32_bytes _) (bytes_app ?_ (bytes_app (be16_bytes _) (bytes_app (be16_bytes _)
      (bytes_app (be16_bytes _) (bytes_app ?_ hb)))))))
    · intro b hb; simp only [List.mem_cons, List.not_mem_nil, or_false] at hb; omega
    · intro b hb; simp only [List.mem_cons, List.not_mem_nil, or_false] at hb; omega
  have hck := C37_udp6 s.addr d.addr (be16 s.port) (be16 d.port) (be16 (8 + p.data.length)) (be32 (8 + p.data.length)) p.data sl dl
    rfl rfl rfl rfl (by omega) hpb
  have hsplit : pseudo6 s.addr d.addr (be16 s.port) (be16 d.port) (be16 (8 + p.data.length)) (be32 (8 + p.data.length)) p.data =
      (s.addr ++ d.addr ++ be32 (8 + p.data.length) ++ [0, 0, 0, 17] ++ be16 s.port ++ be16 d.port ++ be16 (8 + p.data.length)) ++ [0, 0] ++
        p.data := by
    simp [pseudo6]
  have hver : Verifies ((s.addr ++ d.addr ++ be32 (8 + p.data.length) ++ [0, 0, 0, 17] ++ be16 s.port ++ be16 d.port ++
      be16 (8 + p.data.length)) ++ store (udp6 s.addr d.addr (be16 s.port) (be16 d.port) (be16 (8 + p.data.length)) (be32 (8 + p.data.length)) p.data) ++ p.data) := by
    rw [hck, hsplit]
    apply rfc_inserted
    · rw [← hsplit]; exact hpb
    · simp [sl, dl, be16_length, be32]
    · simp [sl, dl, be16_length, be32]; omega
  unfold readUdp
  rw [hbe]
  have hu : udp p s d ++ p.data = be16 s.port ++ (be16 d.port ++ (be16 (8 + p.data.length) ++
      (store (udp6 s.addr d.addr (be16 s.port) (be16 d.port) (be16 (8 + p.data.length)) (be32 (8 + p.data.length)) p.data) ++ p.data))) := by
    simp [udp, hfs]
  have hver' : ocSum (s.addr ++ d.addr ++ be32 (8 + p.data.length) ++ [0, 0, 0, 17] ++ (udp p s d ++ p.data)) = 65535 := by
    rw [hu]
    have := hver
    unfold Verifies at this
    simpa [List.append_assoc] using this
  rw [hver', hulen, hu]
  simp only [cut_app _ (be16_length _), cut_app _ (store_length _), Option.bind_eq_bind, Option.bind_some, big_be16 sp, big_be16 dp,
    big_be16 (show 8 + p.data.length < 65536 by omega), guard, if_true]
  cases s; cases d
  simp only at hfs hfd
  subst hfs; subst hfd
  rfl

theorem readFrame4 {p : Pkt} {s d : Sa} (ipid : Nat) (hs : s.Ok) (hd : d.Ok) (hfs : s.fam = .v4) (hfd : d.fam = .v4)
    (hb : Bytes p.data) (hl : p.data.length ≤ 8192) :
    ∃ c, inCksum (ip4 p.data.length ipid s d [0, 0]) = .ok c ∧
      readFrame (mac d ++ mac s ++ [0x08, 0x00] ++ ip4 p.data.length ipid s d (store c) ++ udp p s d ++ p.data) =
        some (s, d, p.data) := by
  have sl := hs.len
  have dl := hd.len
  rw [hfs] at sl
  rw [hfd] at dl
  simp only at sl dl
  have hsplit : ∀ sum, ip4 p.data.length ipid s d sum =
      ([0x45, 0] ++ be16 (20 + 8 + p.data.length) ++ be16 ipid ++ [0, 0, 127, 17]) ++ sum ++ (s.addr ++ d.addr) := by
    intro sum; simp [ip4]
  have hbytes : Bytes (([0x45, 0] ++ be16 (20 + 8 + p.data.length) ++ be16 ipid ++ [0, 0, 127, 17]) ++ [0, 0] ++ (s.addr ++ d.addr)) := by
    refine bytes_app (bytes_app (bytes_app (bytes_app (bytes_app ?_ (be16_bytes _)) (be16_bytes _)) ?_) ?_) (bytes_app hs.bytes hd.bytes) <;>
      (intro b hb; simp only [List.mem_cons, List.not_mem_nil, or_false] at hb; omega)
  obtain ⟨c, h1, h2⟩ := C37_inserted_verifies _ _ hbytes (by simp [be16_length]) (by simp [be16_length, sl, dl])
  rw [← hsplit] at h1 h2
  refine ⟨c, h1, ?_⟩
  have hip : (ip4 p.data.length ipid s d (store c)).length = 20 := by
    rw [hsplit]; simp [be16_length, store_length, sl, dl]
  have hm : (mac d ++ mac s).length = 12 := by simp [mac_length hs, mac_length hd]
  unfold Verifies at h2
  unfold readFrame
  rw [show mac d ++ mac s ++ [0x08, 0x00] ++ ip4 p.data.length ipid s d (store c) ++ udp p s d ++ p.data =
    (mac d ++ mac s) ++ ([0x08, 0x00] ++ (ip4 p.data.length ipid s d (store c) ++ (udp p s d ++ p.data))) by simp]
  have h20 : ([0x08, 0x00] : List Nat).length = 2 := rfl
  simp only [cut_app _ hm, cut_app _ h20, Option.bind_eq_bind, Option.bind_some, if_true]
  unfold readIp4
  have hflen : (ip4 p.data.length ipid s d (store c) ++ (udp p s d ++ p.data)).length = 20 + 8 + p.data.length := by
    simp [hip, udp_length]; omega
  have hulen : (udp p s d ++ p.data).length = 8 + p.data.length := by
    rw [List.length_append, udp_length]
  rw [hflen]
  simp only [cut_app _ hip, Option.bind_eq_bind, Option.bind_some, h2, hulen]
  rw [show ip4 p.data.length ipid s d (store c) = [0x45, 0] ++ (be16 (20 + 8 + p.data.length) ++ (be16 ipid ++ ([0, 0] ++ ([127, 17] ++
    (store c ++ (s.addr ++ d.addr)))))) by simp [ip4]]
  have e1 : ([0x45, 0] : List Nat).length = 2 := rfl
  have e2 : ([0, 0] : List Nat).length = 2 := rfl
  have e3 : ([127, 17] : List Nat).length = 2 := rfl
  simp only [cut_app _ e1, cut_app _ e2, cut_app _ e3, cut_app _ (be16_length _), cut_app _ (store_length _), cut_app _ sl,
    Option.bind_some, guard, big_be16 (show 20 + 8 + p.data.length < 65536 by omega), if_true]
  exact readUdp_ok4 hs hd hfs hfd hb hl

theorem readFrame6 {p : Pkt} {s d : Sa} (hs : s.Ok) (hd : d.Ok) (hfs : s.fam = .v6) (hfd : d.fam = .v6)
    (hb : Bytes p.data) (hl : p.data.length ≤ 8192) :
    readFrame (mac d ++ mac s ++ [0x86, 0xdd] ++ ip6 p.data.length s d ++ udp p s d ++ p.data) = some (s, d, p.data) := by
  have sl := hs.len
  have dl := hd.len
  rw [hfs] at sl
  rw [hfd] at dl
  simp only at sl dl
  have hm : (mac d ++ mac s).length = 12 := by simp [mac_length hs, mac_length hd]
  unfold readFrame
  rw [show mac d ++ mac s ++ [0x86, 0xdd] ++ ip6 p.data.length s d ++ udp p s d ++ p.data =
    (mac d ++ mac s) ++ ([0x86, 0xdd] ++ ([0x60, 0, 0, 0] ++ (be16 (8 + p.data.length) ++ ([17, 64] ++ (s.addr ++ (d.addr ++
      (udp p s d ++ p.data))))))) by simp [ip6]]
  have e1 : ([0x86, 0xdd] : List Nat).length = 2 := rfl
  have e2 : ([0x60, 0, 0, 0] : List Nat).length = 4 := rfl
  have e3 : ([17, 64] : List Nat).length = 2 := rfl
  have hulen : (udp p s d ++ p.data).length = 8 + p.data.length := by
    rw [List.length_append, udp_length]
  unfold readIp6
  simp only [cut_app _ hm, cut_app _ e1, cut_app _ e2, cut_app _ e3, cut_app _ (be16_length _), cut_app _ sl, cut_app _ dl,
    Option.bind_eq_bind, Option.bind_some, guard, big_be16 (show 8 + p.data.length < 65536 by omega), hulen, if_true]
  rw [if_neg (by decide)]
  exact readUdp_ok6 hs hd hfs hfd hb hl

/-- The record header and a frame of the announced length. -/
theorem readRec_ok {p : Pkt} {fam : Fam} {f : List Nat} {x : Sa × Sa × List Nat} (hp : p.Ok) (rest : List Nat)
    (hf : f.length = pcapSize fam - 16 + p.data.length) (hx : readFrame f = some x) :
    readRec (recHdr p fam ++ f ++ rest) = some (⟨p.sec, p.usec, x.1, x.2.1, x.2.2⟩, rest) := by
  have hn : pcapSize fam - 16 + p.data.length < 4294967296 := by
    have := hp.size
    cases fam <;> simp only [pcapSize] <;> omega
  unfold readRec
  rw [show recHdr p fam ++ f ++ rest = le32 p.sec ++ (le32 p.usec ++ (le32 (pcapSize fam - 16 + p.data.length) ++
    (le32 (pcapSize fam - 16 + p.data.length) ++ (f ++ rest)))) by simp [recHdr]]
  simp only [cut_app _ (le32_length _), Option.bind_eq_bind, Option.bind_some, guard, little_le32 hn, if_true, cut_app _ hf, hx,
    little_le32 hp.sec, little_le32 hp.usec]
  rfl

theorem prep4 {p : Pkt} {s d : Sa} (ipid : Nat) (hp : p.Ok) (hs : s.Ok) (hd : d.Ok) (hfs : s.fam = .v4) (hfd : d.fam = .v4) :
    ∃ c, inCksum (ip4 p.data.length ipid s d [0, 0]) = .ok c ∧
      (recHdr p .v4 ++ (mac d ++ mac s ++ [0x08, 0x00]) ++ ip4 p.data.length ipid s d (store c) ++ udp p s d).length = pcapSize .v4 ∧
      ∀ rest, readRec (recHdr p .v4 ++ (mac d ++ mac s ++ [0x08, 0x00]) ++ ip4 p.data.length ipid s d (store c) ++ udp p s d ++
        p.data ++ rest) = some (⟨p.sec, p.usec, s, d, p.data⟩, rest) := by
  obtain ⟨c, h1, h2⟩ := readFrame4 (p := p) ipid hs hd hfs hfd hp.data hp.size
  have sl := hs.len
  have dl := hd.len
  rw [hfs] at sl
  rw [hfd] at dl
  simp only at sl dl
  refine ⟨c, h1, ?_, ?_⟩
  · simp [recHdr, le32_length, mac_length hs, mac_length hd, ip4, be16_length, store_length, sl, dl, udp_length, pcapSize]
  · intro rest
    have := readRec_ok (fam := .v4) hp rest ?_ h2
    · simpa [List.append_assoc] using this
    · simp [mac_length hs, mac_length hd, ip4, be16_length, store_length, sl, dl, udp_length, pcapSize]; omega

theorem prep6 {p : Pkt} {s d : Sa} (hp : p.Ok) (hs : s.Ok) (hd : d.Ok) (hfs : s.fam = .v6) (hfd : d.fam = .v6) :
    (recHdr p .v6 ++ (mac d ++ mac s ++ [0x86, 0xdd]) ++ ip6 p.data.length s d ++ udp p s d).length = pcapSize .v6 ∧
      ∀ rest, readRec (recHdr p .v6 ++ (mac d ++ mac s ++ [0x86, 0xdd]) ++ ip6 p.data.length s d ++ udp p s d ++
        p.data ++ rest) = some (⟨p.sec, p.usec, s, d, p.data⟩, rest) := by
  have h2 := readFrame6 (p := p) hs hd hfs hfd hp.data hp.size
  have sl := hs.len
  have dl := hd.len
  rw [hfs] at sl
  rw [hfd] at dl
  simp only at sl dl
  refine ⟨?_, ?_⟩
  · simp [recHdr, le32_length, mac_length hs, mac_length hd, ip6, be16_length, sl, dl, udp_length, pcapSize]
  · intro rest
    have := readRec_ok (fam := .v6) hp rest ?_ h2
    · simpa [List.append_assoc] using this
    · simp [mac_length hs, mac_length hd, ip6, be16_length, sl, dl, udp_length, pcapSize]; omega

theorem ok_port {a : Sa} (h : a.Ok) {n : Nat} (hn : n < 65536) : ({ a with port := n } : Sa).Ok := ⟨h.len, h.bytes, hn⟩

/-- The two ends and their replacement. -/
theorem ends_ok {single : Bool} {e : Env} {p : Pkt} {o : Out} (h : Fits .pcap single (e, p, o)) :
    ∃ src dst, ends p o (single && !o.rtp) = (src, dst) ∧ src.Ok ∧ dst.Ok ∧ dst.fam = src.fam ∧ src.fam = p.raddr.fam ∧
      ((subst e (single && !o.rtp) src dst = none ∧ want single e p o = none) ∨
       ∃ s d, subst e (single && !o.rtp) src dst = some (s, d) ∧ s.Ok ∧ d.Ok ∧ s.fam = src.fam ∧ d.fam = src.fam ∧
         want single e p o = some ⟨p.sec, p.usec, s, d, p.data⟩) := by
  obtain ⟨hl, hp, ho, hs⟩ := h
  simp only at hl hp ho hs
  cases hface : (single && !o.rtp) with
  | false =>
    refine ⟨p.raddr, p.laddr, rfl, hp.raddr, hp.laddr, hp.fam, rfl, ?_⟩
    unfold subst want asReceived Sa.null
    rw [hface]
    simp only [Bool.false_eq_true, if_false]
    by_cases hw : p.laddr.addr.all (· == 0) ∧ ¬ p.raddr.addr.all (· == 0)
    · rw [if_pos hw]
      cases hq : e.l4r p.raddr with
      | none => left; exact ⟨rfl, rfl⟩
      | some a =>
        obtain ⟨k1, k2⟩ := hl _ _ hq
        right
        exact ⟨_, _, rfl, hp.raddr, ok_port k1 hp.laddr.port, rfl, k2, rfl⟩
    · rw [if_neg hw]
      right
      exact ⟨_, _, rfl, hp.raddr, hp.laddr, rfl, hp.fam, rfl⟩
  | true =>
    have hsame : o.laddr.fam = p.raddr.fam := by
      rw [Bool.and_eq_true] at hface
      exact hs trivial hface.1 (by simpa using hface.2)
    have hdest : o.dest.Ok ∧ o.dest.fam = o.laddr.fam := by
      unfold Out.dest
      cases hr : o.rem with
      | some a => exact ho.rem a hr
      | none =>
        refine ⟨⟨?_, ?_, by simp⟩, rfl⟩
        · cases o.laddr.fam <;> simp
        · intro b hb
          simp only [Option.getD_none] at hb
          rw [List.eq_of_mem_replicate hb]; omega
    refine ⟨o.laddr, o.dest, ?_, ho.laddr, hdest.1, hdest.2, hsame, ?_⟩
    · unfold ends Out.dest
      cases o.rem <;> rfl
    · unfold subst want asSent Sa.null
      rw [hface]
      simp only [if_true]
      by_cases hw : o.laddr.addr.all (· == 0) ∧ ¬ o.dest.addr.all (· == 0)
      · rw [if_pos hw]
        cases hq : e.l4r o.dest with
        | none => left; exact ⟨rfl, rfl⟩
        | some a =>
          obtain ⟨k1, k2⟩ := hl _ _ hq
          right
          exact ⟨_, _, rfl, ok_port k1 ho.laddr.port, hdest.1, k2.trans hdest.2, hdest.2, rfl⟩
      · rw [if_neg hw]
        right
        exact ⟨_, _, rfl, ho.laddr, hdest.1, rfl, hdest.2, rfl⟩

/-- The header of a packet of a capture. -/
theorem hdrPcap_ok {single : Bool} {e : Env} {p : Pkt} {o : Out} (ipid : Nat) (h : Fits .pcap single (e, p, o)) :
    ∃ r, hdrPcap e ipid p o (single && !o.rtp) = .ok r ∧ r.bytes.length = pcapSize p.raddr.fam ∧
      ((r.ok = false ∧ want single e p o = none) ∨
       (r.ok = true ∧ ∃ x, want single e p o = some x ∧ ∀ rest, readRec (r.bytes ++ p.data ++ rest) = some (x, rest))) := by
  obtain ⟨src, dst, he, h1, h2, h3, h4, h5⟩ := ends_ok h
  unfold hdrPcap
  rw [he]
  simp only
  rw [if_neg (by rw [h3]; simp)]
  rcases h5 with ⟨k1, k2⟩ | ⟨s, d, k1, k2, k3, k4, k5, k6⟩
  · rw [k1]
    refine ⟨_, rfl, ?_, .inl ⟨rfl, k2⟩⟩
    rw [← h4]
    cases src.fam <;> simp [recHdr, le32_length, pcapSize]
  · rw [k1]
    simp only
    cases hf : src.fam with
    | v4 =>
      obtain ⟨c, c1, c2, c3⟩ := prep4 ipid h.pkt k2 k3 (k4.trans hf) (k5.trans hf)
      simp only
      rw [c1]
      exact ⟨_, rfl, by rw [← h4, hf]; exact c2, .inr ⟨rfl, _, k6, c3⟩⟩
    | v6 =>
      obtain ⟨c2, c3⟩ := prep6 h.pkt k2 k3 (k4.trans hf) (k5.trans hf)
      exact ⟨_, rfl, by rw [← h4, hf]; exact c2, .inr ⟨rfl, _, k6, c3⟩⟩

/-- The header of the recorder's own format. -/
theorem hdrAdhoc_ok {p : Pkt} (h : p.Ok) : (hdrAdhoc p).length = 30 ∧
    ∀ rest, readOwn (hdrAdhoc p ++ p.data ++ rest) = some ((p.raddr, p.time8, p.data), rest) := by
  have hl := h.raddr.len
  have ht := h.time
  have hsz := h.size
  rcases hr : p.raddr with ⟨fam, addr, port⟩
  rw [hr] at hl
  simp only at hl
  have hport : port < 65536 := by have := h.raddr.port; rwa [hr] at this
  unfold readOwn
  cases fam with
  | v4 =>
    simp only at hl
    have hh : hdrAdhoc p = (le16 2 ++ (be16 port ++ (addr ++ List.replicate 12 0))) ++ (p.time8 ++ le16 p.data.length) := by
      simp [hdrAdhoc, hr]
    have h20 : (le16 2 ++ (be16 port ++ (addr ++ List.replicate 12 0))).length = 20 := by
      simp [le16_length, be16_length, hl]
    refine ⟨by rw [hh, List.length_append, h20]; simp [ht, le16_length], fun rest => ?_⟩
    rw [hh, show ∀ a b c d r : List Nat, a ++ (b ++ c) ++ d ++ r = a ++ (b ++ (c ++ (d ++ r))) by intros; simp]
    simp only [cut_app _ h20, cut_app _ ht, cut_app _ (le16_length _), Option.bind_eq_bind, Option.bind_some,
      little_le16 (show p.data.length < 65536 by omega), cut_app _ (be16_length _), big_be16 hport]
    rw [cut_app _ rfl]
    simp only [Option.bind_some]
    rw [if_pos (by rfl), List.take_append_of_le_length (by omega), List.take_of_length_le (by omega)]
    rfl
  | v6 =>
    simp only at hl
    have hh : hdrAdhoc p = (le16 10 ++ (be16 port ++ addr)) ++ (p.time8 ++ le16 p.data.length) := by
      simp [hdrAdhoc, hr]
    have h20 : (le16 10 ++ (be16 port ++ addr)).length = 20 := by
      simp [le16_length, be16_length, hl]
    refine ⟨by rw [hh, List.length_append, h20]; simp [ht, le16_length], fun rest => ?_⟩
    rw [hh, show ∀ a b c d r : List Nat, a ++ (b ++ c) ++ d ++ r = a ++ (b ++ (c ++ (d ++ r))) by intros; simp]
    simp only [cut_app _ h20, cut_app _ ht, cut_app _ (le16_length _), Option.bind_eq_bind, Option.bind_some,
      little_le16 (show p.data.length < 65536 by omega), cut_app _ (be16_length _), big_be16 hport]
    rw [cut_app _ rfl]
    simp only [Option.bind_some]
    rw [if_neg (by decide), if_pos (by rfl)]
    rfl

end Verif.Record
