import Verif.Icecand.Props

/-!
# Concrete cases for C87
-/

namespace Verif.Icecand

theorem dec1 {c : UInt8} (h1 : 48 ≤ c.toNat) (h2 : c.toNat ≤ 57) : Decimal [c] (c.toNat - 48) := by
  simpa using Decimal.snoc .nil h1 h2

/-- A line with a related address and port, in the order the grammar does not ask for, and a pair of another name. -/
def exArgs : List Bytes :=
  [bs "f", bs "1", bs "Udp", bs "77", bs "192.0.2.1", bs "9", bs "typ", bs "srflx", bs "rport", bs "5", bs "x", bs "y",
    bs "raddr", bs "192.0.2.1"]

def exCand : Cand := ⟨.srflx, 1, 77, ⟨.v4 3221225985, 9⟩, ⟨.v4 3221225985, 5⟩, bs "f"⟩

/-- Case for `C87_candidate`. -/
example : Line exPton exArgs exCand := by
  refine ⟨bs "1", bs "Udp", bs "77", bs "192.0.2.1", bs "9", bs "typ", bs "srflx",
    [(bs "rport", bs "5"), (bs "x", bs "y"), (bs "raddr", bs "192.0.2.1")], rfl, by decide +kernel, by decide +kernel,
    dec1 (c := 49) (by decide) (by decide), by decide, ?_, by decide, dec1 (c := 57) (by decide) (by decide), by decide,
    by decide +kernel, by decide +kernel, .inr (.inl ⟨rfl, by decide +kernel⟩), by decide +kernel, ?_, ?_⟩
  · exact Decimal.snoc (w := [55]) (n := 7) (c := 55) (dec1 (c := 55) (by decide) (by decide)) (by decide) (by decide)
  · have : lastOf (bs "raddr") [(bs "rport", bs "5"), (bs "x", bs "y"), (bs "raddr", bs "192.0.2.1")] =
        some (bs "192.0.2.1") := by decide +kernel
    rw [this]
    decide +kernel
  · have : lastOf (bs "rport") [(bs "rport", bs "5"), (bs "x", bs "y"), (bs "raddr", bs "192.0.2.1")] =
        some (bs "5") := by decide +kernel
    rw [this]
    exact ⟨dec1 (c := 53) (by decide) (by decide), by decide⟩

/-- The same through the decoder, and a second time. -/
example : decode exPton true [] exArgs = some [exCand] ∧ decode exPton true [exCand] exArgs = some [exCand] := by
  decide +kernel

/-- Cases for `C87_once`, `C87_stay` and `C87_refused`. -/
example : (after exPton [(true, ex "2" "7" "9" "host"), (false, ex "3" "7" "9" "host"), (true, exArgs)]).map Cand.comp = [1, 2] ∧
    decode exPton true [] (exArgs.take 7) = none ∧ decode exPton true [] (exArgs.take 13 ++ [bs "name"]) = none := by
  decide +kernel

/-- Cases for `C87_answer_partial` and `C87_answer_safe`. -/
example : (start (bs "abcd") (bs "0123456789012345678901") [[bs "f1", bs " ", bs "1", bs " typ ", bs "host"]]).toOption =
      some (some (bs "abcd 0123456789012345678901 c:f1%201%20typ%20host")) ∧
    (start (bs "abcd") (bs "0123456789012345678901") (List.replicate 99 [bs "host"])).toOption = some none := by
  decide +kernel

/-- Case for `C87_letter`. -/
example : classify (bs "c") 9 = some .cand ∧ classify (bs "C") 8 = none ∧ classify (bs "x") 1 = none := by decide +kernel

end Verif.Icecand
