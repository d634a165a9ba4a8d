import Verif.Ended.Model

/-!
# What the numbers should be
-/

namespace Verif.Ended

/-- The packets of a stream, in the order in which they were counted. -/
def arrivals (h : List Act) (id : Nat) (k : Strm) : List Ts :=
  h.filterMap fun
    | .packet i j t => if i = id ∧ j = k then some t else none
    | _ => none

/-- `c` is a true account of the packets `ts`: how many, the first, the latest, and no pause was longer than `gap`; which, when the times do not go
back, is the longest pause between one packet and the next, and 0 if there is none. -/
structure Describes (c : Cnt) (ts : List Ts) : Prop where
  number : c.n = ts.length
  first : ∀ t r, ts = t :: r → c.first = t
  last : ts ≠ [] → c.last ∈ ts ∧ ∀ t ∈ ts, t.mono ≤ c.last.mono
  pauses : ∀ a ∈ ts, ∀ b ∈ ts, a.mono ≤ b.mono → (∀ t ∈ ts, ¬ (a.mono < t.mono ∧ t.mono < b.mono)) → b.mono - a.mono ≤ c.gap
  span : ∀ lo, (∀ t ∈ ts, lo ≤ t.mono) → ts ≠ [] → 0 ≤ c.gap ∧ c.gap ≤ c.last.mono - lo
  longest : ts.Pairwise (fun a b => a.mono ≤ b.mono) → c.gap = 0 ∨ ∃ l a b r, ts = l ++ a :: b :: r ∧ c.gap = b.mono - a.mono

/-- The end of the session has begun, at the time `t`. -/
def Began (h : List Act) (id : Nat) (t : Int) : Prop := ∃ a b, h = a ++ .destroy id t :: b ∧ ∀ u, Act.destroy id u ∉ a

end Verif.Ended
