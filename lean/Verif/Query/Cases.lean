import Verif.Query.Props
import Verif.Analyze.Props

/-! # C77: cases, and what does not hold -/

namespace Verif.Query

open Verif.Cmd (Rep)
open Verif.Analyze (fl0 pk)

def ttl60 : Bool → Int := fun l => if l then 60 else 45

/-- Numbers in the examples are printed as whole numbers. -/
def fm0 : Fmt Unit := ⟨fun x => Cmd.fmtD x.num, fun _ => [48], fun _ => [48], fun _ => [48]⟩

/-- The state after the first `m` events. -/
def stOf (h : List Ev) (m : Nat) : St Unit := match run fl0 (init fl0 ttl60) (h.take m) with
  | .ok s => s
  | .error _ => init fl0 ttl60

def fine (h : List Ev) (m : Nat) : Bool := match run fl0 (init fl0 ttl60) (h.take m) with
  | .ok _ => true
  | .error _ => false

theorem stOf_run {h : List Ev} {m : Nat} (hf : fine h m = true) : run fl0 (init fl0 ttl60) (h.take m) = .ok (stOf h m) := by
  unfold fine at hf
  unfold stOf
  cases hr : run fl0 (init fl0 ttl60) (h.take m) with
  | ok s => rfl
  | error f => rw [hr] at hf; cases hf

/-- `a` events have happened before read `n`, and `b` from then on. -/
def shift (a b n k : Nat) : Nat := if k < n then a else b

theorem shift_sched {h : List Ev} {a b n : Nat} (hab : a ≤ b) (ha : fine h a = true) (hb : fine h b = true) :
    Sched fl0 ttl60 h (shift a b n) (fun k => stOf h (shift a b n k)) := by
  refine ⟨fun k => ?_, fun k => ?_⟩
  · unfold shift; split <;> split <;> omega
  · apply stOf_run
    unfold shift; split <;> assumption

/-- A reply that starts with `n` bytes. -/
def rep (n : Nat) : Rep := ⟨List.replicate 1024 97, n, n, 0⟩

theorem rep_roomy {n : Nat} (h : n ≤ 1000) : Roomy (rep n) := ⟨List.length_replicate, rfl, rfl, h⟩

/-- The answer, without the first `n` bytes. -/
def ask (h : List Ev) (a b c n : Nat) (mods : List UInt8) (args : List (List UInt8)) (subc : List Cmd.SubRes) : Option (List UInt8) :=
  match query (fun k => stOf h (shift a b c k)) fm0 false (rep n) mods args subc with
  | .ok l => some (l.drop n)
  | .error _ => none

def h1 : List Ev := [.rcv false 1, .ana false (pk 5), .relay, .rcv true 2, .drop, .timer true 30, .rcv false 4, .ana false (pk 7),
  .ana false (pk 7), .ana false none]

/-- The hypotheses of the theorems are met, with events happening while the command is carried out. -/
example : Sched fl0 ttl60 h1 (shift 6 10 3) (fun k => stOf h1 (shift 6 10 3 k)) :=
  shift_sched (by decide) (by decide +kernel) (by decide +kernel)
example : Roomy (rep 20) := rep_roomy (by decide)

/-- Without names. -/
example : ask h1 6 10 3 2 [] [] [] = some (str "30 2 1 1 1\n") ∧
    ask h1 6 10 3 2 [118] [] [⟨0, []⟩, ⟨-1, []⟩] =
      some (str "ttl=30 npkts_ina=2 npkts_ino=1 nrelayed=1 ndropped=1 && 0 && -1\n") := by decide +kernel

/-- The number of packets is that before the fourth read also when asked for again; the timer is read anew. -/
example : ask h1 4 10 4 2 [] [str "npkts_ina", str "ttl", str "npkts_ina", str "ttl", str "longest_ipi"] [] = some (str "1 45 1 30 0\n") ∧
    ask h1 10 10 0 2 [86] [str "longest_ipi", str "rtpa_nlost", str "rtpa_nrcvd", str "rtpa_ndups", str "rtpa_perrs"] [] =
      some (str "longest_ipi=3 rtpa_nlost=1 rtpa_nrcvd=2 rtpa_ndups=1 rtpa_perrs=1\n") := by decide +kernel

/-- Errors. -/
example : ask h1 6 10 3 2 [120] [] [] = some (str "E19\n") ∧ ask h1 6 10 3 2 [] [str "ttl", str "tt"] [] = some (str "E62\n") ∧
    ask h1 6 10 3 1000 [118] [str "npkts_ina", str "ndropped", str "npkts_ino"] [] = some (str "E26\n") := by decide +kernel

/-- Two packets are analysed, in order and without loss; the second one while the command looks at the analyzer.  It reads
the sequence number of the first packet and the number of packets after the second: the number of packets lost is 2^32 - 1. -/
theorem C77_race_counterexample :
    Sched fl0 ttl60 [.ana false (pk 5), .ana false (pk 6)] (shift 1 2 6)
      (fun k => stOf [.ana false (pk 5), .ana false (pk 6)] (shift 1 2 6 k)) ∧
    ask [.ana false (pk 5), .ana false (pk 6)] 1 2 6 2 [] [str "rtpa_nlost"] [] = some (str "4294967295\n") ∧
    ask [.ana false (pk 5), .ana false (pk 6)] 1 1 0 2 [] [str "rtpa_nlost"] [] = some (str "0\n") ∧
    ask [.ana false (pk 5), .ana false (pk 6)] 2 2 0 2 [] [str "rtpa_nlost"] [] = some (str "0\n") :=
  ⟨shift_sched (by decide) (by decide +kernel) (by decide +kernel), by decide +kernel, by decide +kernel, by decide +kernel⟩

/-- A query without names whose answer does not fit is answered by an empty line; for the same names it is an error. -/
theorem C77_empty_counterexample : ask h1 6 10 3 1000 [118] [] [] = some [10] ∧
    ask h1 6 10 3 1000 [118] basic [] = some (str "E26\n") := by decide +kernel

/-- A reply of 1023 bytes: there is no room for the end of the line, and the assertion fails. -/
theorem C77_full_counterexample : (rep 1000).ulen = 1000 ∧
    (match query (fun k => stOf h1 (shift 6 10 3 k)) fm0 false (rep 1000) [] (List.replicate 12 (str "npkts_ina")) [] with
      | .error .abort => true | _ => false) = true ∧
    (ask h1 6 10 3 1000 [] (List.replicate 11 (str "npkts_ina")) []).isSome = true ∧
    ask h1 6 10 3 1000 [] (List.replicate 13 (str "npkts_ina")) [] = some (str "E26\n") := by decide +kernel

/-- When the clock shows zero at the first packet, the gap after it is not seen; when it goes back, the way back counts. -/
theorem C77_gap_counterexample :
    ask [.rcv false 0, .rcv false 9, .rcv false 10] 3 3 0 2 [] [str "longest_ipi"] [] = some (str "1\n") ∧
    longest [0, 9, 10] = 9 ∧
    ask [.rcv false 9, .rcv false 10, .rcv false 4] 3 3 0 2 [] [str "longest_ipi"] [] = some (str "6\n") ∧
    longest [9, 10, 4] = 1 := by decide +kernel

end Verif.Query
