import Verif.Hep.Handle

/-!
# What a collector makes of a datagram of the module
-/

namespace Verif.Hep

/-- What the datagram for `p` with payload `t` says. -/
def said (id : Int) (p : Pkt) (t : List UInt8) : Rec :=
  ⟨p.family, 17, p.src, p.dst, p.sport, p.dport, p.sec, p.usec, 5, (id % 65536).toNat * 65536, p.callId, t⟩

theorem num_agent (n : Nat) (h : n < 65536) : num (be16 n ++ [0, 0]) = n * 65536 := by
  simp only [num, be16, List.cons_append, List.nil_append, List.foldl_cons, List.foldl_nil, UInt8.toNat_ofNat', UInt8.toNat_zero]
  omega

theorem decode_datagram (id : Int) (p : Pkt) (t : List UInt8) (hg : Good p) (hf : 129 + p.callId.length + t.length ≤ 65535) :
    decode (datagram id p t) = some (said id p t) := by
  have hbl := body_len id p hg t
  have hlen : (datagram id p t).length = 6 + (body id p t).length := by
    simp [datagram, magic, be16_length]; omega
  have hd : datagram id p t = 0x48 :: 0x45 :: 0x50 :: 0x33 :: UInt8.ofNat ((6 + (body id p t).length) / 256) ::
    UInt8.ofNat (6 + (body id p t).length) :: body id p t := by simp [datagram, magic, be16]
  have hn : num [UInt8.ofNat ((6 + (body id p t).length) / 256), UInt8.ofNat (6 + (body id p t).length)] = 6 + (body id p t).length :=
    num_be16 _ (by omega)
  have hcs : chunks (body id p t).length (body id p t) = some ((fixed (info p) id ++ rest p t).map fun x => ⟨0, x.1, x.2⟩) := by
    refine chunks_fuel _ _ _ _ (wire_length_ge _) (chunks_wire _ ?_)
    intro x hx
    rcases hg.fam with ⟨h, h1, h2⟩ | ⟨h, h1, h2⟩ <;> simp [fixed, rest, h] at hx <;>
      rcases hx with rfl | rfl | rfl | rfl | rfl | rfl | rfl | rfl | rfl | rfl | rfl | rfl <;>
      refine ⟨by omega, ?_⟩ <;> simp [be16_length, be32_length, h1, h2] <;> omega
  have hrec : record ((fixed (info p) id ++ rest p t).map fun x => ⟨0, x.1, x.2⟩) = some (said id p t) := by
    have a1 := num_be16 p.sport hg.sport
    have a2 := num_be16 p.dport hg.dport
    have a3 := num_be32 p.sec hg.sec
    have a4 := num_be32 p.usec hg.usec
    have a5 := num_agent (id % 65536).toNat (by omega)
    rcases hg.fam with ⟨h, h1, h2⟩ | ⟨h, h1, h2⟩
    · simp only [record, only, fixed, rest, info, h, if_true, List.map_cons, List.map_nil, List.cons_append, List.nil_append]
      simp [a1, a2, a3, a4, a5, h1, h2, be16_length, be32_length, said, h]
      decide
    · have hne : ¬ ((10 : Nat) = 2) := by omega
      simp only [record, only, fixed, rest, info, h, if_neg hne, List.map_cons, List.map_nil, List.cons_append, List.nil_append]
      simp [a1, a2, a3, a4, a5, h1, h2, be16_length, be32_length, said, h]
      decide
  rw [hd]
  unfold decode
  simp only
  rw [← hd, hn, if_pos hlen.symm, hcs]
  exact hrec

end Verif.Hep
