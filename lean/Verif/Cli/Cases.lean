import Verif.Cli.Props

/-! C83: counterexamples and concrete cases. -/

namespace Verif.Cli

/-- A system with the user 100 in the group 200, named by any name, with no module and one listening address. -/
def sys : Sys :=
  { pw := fun _ => some (100, 200)
    gr := fun _ => some 300
    target := fun d _ => d.length < 64
    limit := fun _ => true
    dso := fun _ => false
    file := fun _ => true
    bind := fun _ l _ => some (l.length == 2)
    root := false }

def num? (k : Num) (l : List Opt) : Option Int := match init sys l 0 with | .ok c => some (c.num k) | .exit _ => none
def adv? (l : List Opt) : Option (Option Bytes × Option Bytes) := match init sys l 0 with | .ok c => some c.adv | .exit _ => none
def mode? (l : List Opt) : Option Nat := match init sys l 0 with | .ok c => some c.creds.sockMode | .exit _ => none

/-- Not every number outside of what is allowed is refused: with `-T 4294967297` sessions time out after a second. -/
theorem C83_number_counterexample :
    let s : Bytes := [52, 50, 57, 52, 57, 54, 55, 50, 57, 55]
    Str.Numeral s 4294967297 ∧ num? .ttl [.num .ttl s] = some 1 := by
  refine ⟨Str.Numeral.plain (ws := []) (by simp) (Str.digitsDenote_of (by simp) (by decide)), by decide⟩

/-- An option given again does not undo what it has said before: `-A a/b -A c` advertises `c` and `b`.  And of the two addresses the first may be
missing: `-A /b` is accepted. -/
theorem C83_advertised_counterexample :
    adv? [.adv [97, 47, 98], .adv [99]] = some (some [99], some [98]) ∧ adv? [.adv [47, 98]] = some (some [], some [98]) := by decide

/-- The order of `-u` and `-w` does matter: `-w 0 -u a:b` leaves the control socket open to all, `-u a:b -w 0` is what the user says. -/
theorem C83_order_counterexample :
    mode? [.mode [48], .user [97, 58, 98]] = some 0o755 ∧ mode? [.user [97, 58, 98], .mode [48]] = some 0 := by decide

/-- The mode is not read as modes are written: with `-w 770`, which is to keep others out, others may write to the control socket and the group may
not. -/
theorem C83_mode_counterexample :
    ∃ m, mode? [.user [97, 58, 98], .mode [55, 55, 48]] = some m ∧ m ≠ 0o770 ∧ m &&& 0o002 ≠ 0 ∧ m &&& 0o070 = 0 :=
  ⟨770, by decide, by decide, by decide, by decide⟩

/-! ### Concrete cases -/

/-- `-l a -6 b -T 30 -W 5 -T 40 -m 3001 -M 4000 -f -s stdio: -d warn:LOCAL1 -d INFO -w 511 -u a:b` -/
def line : List Opt :=
  [.listen false [97], .listen true [98], .num .ttl [51, 48], .num .setup [53], .num .ttl [52, 48], .num .pmin [51, 48, 48, 49],
   .num .pmax [52, 48, 48, 48], .flag .nodaemon, .sock [115, 116, 100, 105, 111, 58],
   .log [119, 97, 114, 110, 58, 76, 79, 67, 65, 76, 49], .log [73, 78, 70, 79], .mode [53, 49, 49], .user [97, 58, 98]]

def got? (l : List Opt) (e : Nat) : Option (List Int × List Bool × Option Level × Option Bytes) := match init sys l e with
  | .ok c => some ([c.num .ttl, c.num .setup, c.num .tos, c.num .pmin, c.num .pmax, c.creds.sockMode], [c.on .aforce, c.on .nodaemon, c.on .recall],
    c.level, c.fac)
  | .exit _ => none

def code? (l : List Opt) (e : Nat) : Option Nat := match init sys l e with | .ok _ => none | .exit n => some n

example : got? line 0 = some ([40, 5, 184, 3002, 3998, 511], [true, true, false], some .info, some [108, 111, 99, 97, 108, 49]) := by decide

example : ∃ c, init sys line 0 = .ok c := by
  have h : got? line 0 ≠ none := by decide
  unfold got? at h
  cases hi : init sys line 0 with
  | ok c => exact ⟨c, rfl⟩
  | exit n => rw [hi] at h; exact absurd rfl h

/-- Left over arguments, `-s stdio:` without `-f`, `-S` without `-r`, a range without room, an unknown level, `-v`. -/
example : code? line 1 = some 1 := by decide
example : code? [.sock [115, 116, 100, 105, 111, 58]] 0 = some 1 := by decide
example : code? [.name .sdir [97]] 0 = some 1 ∧ code? [.name .sdir [97], .name .rdir [98]] 0 = none := by decide
example : code? [.num .pmin [52, 48], .num .pmax [52, 48]] 0 = some 1 ∧ code? [.num .pmin [52, 48], .num .pmax [52, 49]] 0 = none := by decide
example : code? [.log [97]] 0 = some 1 ∧ code? [.flag .recall, .info, .log [97]] 0 = some 0 := by decide
example : code? (List.replicate 16 (.listen false [97])) 0 = none ∧ code? (List.replicate 17 (.listen false [97])) 0 = some 1 := by decide

/-- Two lines that are alike. -/
example : Alike [.num .ttl [49], .flag .recall, .num .tos [49], .num .ttl [50]] [.num .tos [49], .num .ttl [49], .num .ttl [50], .flag .recall] := by
  intro a
  cases a with
  | num k => cases k <;> decide
  | flag k => cases k <;> decide
  | name k => cases k <;> decide
  | _ => decide

/-- A number that is not allowed: `-t 300`. -/
example : Str.CStr [51, 48, 48] ∧ Str.Numeral [51, 48, 48] 300 ∧ ¬ Allowed .tos 300 := by
  refine ⟨by unfold Str.CStr; decide, Str.Numeral.plain (ws := []) (by simp) (Str.digitsDenote_of (by simp) (by decide)), by simp [Allowed]⟩

end Verif.Cli
