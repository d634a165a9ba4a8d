import Verif.Stats.Model

/-!
# What the statistics ought to hold

Functions of the events only.
-/

namespace Verif.Stats

/-- The index is found by a hash that was built for the names, whatever the random values. -/
def Exact (look : Look) : Prop := ∃ rs h, Pearson.build names rs = some h ∧ look = getidx h

/-- What the event adds to the statistic called `name`, the `i`-th of the table. -/
def Ev.plus (name : List UInt8) (i : Nat) : Ev → Nat
  | .add m n => if m = name then n else 0
  | .addIdx j n => if j = i then n else 0
  | _ => 0

def Ev.plusD (name : List UInt8) : Ev → Rat
  | .addD m x => if m = name then x else 0
  | _ => 0

/-- The sum of all that was added. -/
def given (name : List UInt8) (i : Nat) (es : List Ev) : Nat := (es.map (Ev.plus name i)).sum
def givenD (name : List UInt8) (es : List Ev) : Rat := (es.map (Ev.plusD name)).sum

def Ev.isTick : Ev → Bool
  | .tick _ => true
  | _ => false

def Ev.isTock : Ev → Bool
  | .tock => true
  | _ => false

/-- Callers use each statistic with its own type: whole numbers are not added to the two statistics that are doubles, nor
fractions to the others; the derived statistic is not added to. -/
def Ev.typed : Ev → Prop
  | .add m _ => m ≠ bytes "total_duration" ∧ m ≠ bytes "pps_in"
  | .addIdx i _ => i ≠ 17 ∧ i ≠ 28
  | .addD m _ => m ∉ names ∨ m = bytes "total_duration"
  | _ => True

/-- The reply that a `G` starts with has the cookie committed in it and room for an error. -/
def Ev.roomy : Ev → Prop
  | .gStart b _ _ => b.r.length = 1024 ∧ b.clen = b.ulen ∧ b.rlen = 0 ∧ b.ulen ≤ 1000
  | _ => True

/-- The text of `"name="` if asked for. -/
def label (verbose : Bool) (name : List UInt8) : List UInt8 := if verbose then name ++ [61] else []

/-- The items separated by spaces. -/
def spaced : List (List UInt8) → List UInt8
  | [] => []
  | [x] => x
  | x :: y :: l => x ++ 32 :: spaced (y :: l)

/-- One item of an answer: the name, the text printed, and what had happened when the statistic was read. -/
structure Read where
  name : List UInt8
  text : List UInt8
  past : List Ev

def Read.item (verbose : Bool) (r : Read) : List UInt8 := label verbose r.name ++ r.text

/-- The text is the value of the statistic after the events `p`: the sum of all additions modulo 2^64 in decimal, the sum
of the durations, or the rate. -/
def Shown (look : Look) (fmtF : Rat → List UInt8) (t0 : Rat) (p : List Ev) (n w : List UInt8) : Prop :=
  n ∈ names ∧
  (∀ i, names[i]? = some n → i ≠ 17 → i ≠ 28 → w = Dec.dec (given n i p % 2 ^ 64)) ∧
  (n = bytes "total_duration" → w = fmtF (givenD n p)) ∧
  (n = bytes "pps_in" → ∃ s, run look fmtF (init t0) p = some (.ok s) ∧ w = fmtF (s.d dst))

/-- The items were read one after the other, each at some moment between `from_` and `upto`. -/
structure Reads (look : Look) (fmtF : Rat → List UInt8) (t0 : Rat) (from_ upto : List Ev)
    (rd : List Read) : Prop where
  each : ∀ r ∈ rd, Shown look fmtF t0 r.past r.name r.text ∧ from_ <+: r.past ∧ r.past <+: upto
  order : rd.Pairwise fun r r' => r.past <+: r'.past

/-- `t` is a proper reply to a `G` received during `es`. -/
def Answer (look : Look) (fmtF : Rat → List UInt8) (t0 : Rat) (es : List Ev) (t : List UInt8) : Prop :=
  ∃ (es1 : List Ev) (b : Verif.Cmd.Rep) (v : Bool) (ns : List (List UInt8)) (rd : List Read),
    (es1 ++ [.gStart b v ns]) <+: es ∧ Reads look fmtF t0 (es1 ++ [.gStart b v ns]) es rd ∧
    -- everything asked for
    ((rd.map Read.name = ns ∧ t = b.r.take b.ulen ++ spaced (rd.map (Read.item v)) ++ [10]) ∨
    -- "E25": too long
    (∃ n rest, ns = rd.map Read.name ++ n :: rest ∧ t = b.r.take b.ulen ++ [69, 50, 53, 10] ∧
      1024 ≤ b.ulen + (spaced (rd.map (Read.item v) ++ [label v n])).length) ∨
    -- "E68": an unknown name, or too long
    (∃ n rest, ns = rd.map Read.name ++ n :: rest ∧ t = b.r.take b.ulen ++ [69, 54, 56, 10] ∧
      (n ∉ names ∨ ∃ w p, Shown look fmtF t0 p n w ∧ p <+: es ∧ 1024 ≤ b.ulen + (spaced (rd.map (Read.item v) ++ [label v n ++ w])).length)))

end Verif.Stats
