import Verif.Record.Model

/-! # C35: the made-up Ethernet addresses -/

namespace Verif.Record

theorem fold_length (f : List Nat → Nat → List Nat) (hf : ∀ m i, (f m i).length = m.length) :
    ∀ (l : List Nat) (m : List Nat), (l.foldl f m).length = m.length
  | [], _ => rfl
  | i :: l, m => by rw [List.foldl_cons, fold_length f hf l, hf]

/-- C35. An Ethernet address in a capture has six bytes; that of an IPv4 host is not one of a group, and no other IPv4 host
has it. -/
theorem C35_ether (a : Sa) (h : a.addr.length = match a.fam with | .v4 => 4 | .v6 => 16) : (mac a).length = 6 ∧
    (a.fam = .v4 → (∃ x t, mac a = x :: t ∧ x % 2 = 0) ∧ ∀ b : Sa, b.fam = .v4 → mac a = mac b → a.addr = b.addr) := by
  obtain ⟨fam, addr, port⟩ := a
  cases fam with
  | v4 =>
    refine ⟨by simp only [mac, List.length_append, List.length_cons, List.length_nil]; simp only at h; omega, fun _ => ⟨⟨0, 0 :: addr, rfl, rfl⟩, ?_⟩⟩
    rintro ⟨fam', addr', port'⟩ rfl he
    simp only [mac, List.cons_append, List.nil_append, List.cons.injEq, true_and] at he
    exact he
  | v6 =>
    simp only at h
    refine ⟨?_, fun hc => by cases hc⟩
    simp only [mac, foldMac]
    rw [fold_length _ (fun m i => by rw [List.length_modify]), List.length_take]; omega

/-- For instance. -/
example : mac ⟨.v4, [10, 0, 0, 1], 5000⟩ = [0, 0, 10, 0, 0, 1] := by decide

/-- C35. Two IPv6 hosts may be given the same Ethernet address, and one of a group. -/
theorem C35_ether_counterexample :
    mac ⟨.v6, [0x20, 1, 0, 0, 0, 0, 0, 0, 0, 0, 0, 0, 0x11, 0, 0, 0], 0⟩ = [0x31, 1, 0, 0, 0, 0] ∧
    mac ⟨.v6, [0x20, 1, 0, 0, 0, 0, 0x11, 0, 0, 0, 0, 0, 0, 0, 0, 0], 0⟩ = [0x31, 1, 0, 0, 0, 0] := by decide +kernel

end Verif.Record
