import Verif.Subc.Props

/-! # C76: counterexamples and concrete cases -/

namespace Verif.Subc

/-! ## Where the full claims fail -/

/-- **C76, counterexample.**  `S ttl=4294967301` is accepted as `ttl=5`, and `Sx` as `S`. -/
theorem C76_number_counterexample :
    Str.Numeral [52, 50, 57, 52, 57, 54, 55, 51, 48, 49] 4294967301 ∧
    parseS [[83], key .ttl ++ [52, 50, 57, 52, 57, 54, 55, 51, 48, 49]] = some ⟨false, .ttl, 5⟩ ∧
    parseS [[83, 120], key .ttl ++ [53]] = some ⟨false, .ttl, 5⟩ :=
  ⟨Str.Numeral.plain (ws := []) (by simp) (Str.digitsDenote_of (by simp) (by decide)), by decide +kernel, by decide +kernel⟩

def exC : Conf := ⟨60, 30, 16, false⟩
def exL : Look := ⟨false, none, true, true⟩

/-- `U` creates a session; `L` comes; a packet of stream 1 begins to restart its timer; `Q` with `S ttl=5` shortens the
time; the packet ends. -/
def exStale : List Ev := [.cmd (.ul true exL []), .load true, .cmd (.q true [.set ⟨false, .ttl, 5⟩ true true]), .store 0]

/-- **C76, counterexample.**  The leg was given 5 ticks and the reply said so, but 30 are left. -/
theorem C76_stale_counterexample :
    history exC true true true [] exStale = [.look true false, .set true .ttl 5] ∧
    ∃ st, run (start exC true true true []) exStale = some st ∧ st.s.maxTtl (cell st.s true) = 5 ∧ st.s.ttl (cell st.s true) = 30 :=
  ⟨by decide +kernel, _, rfl, by decide +kernel, by decide +kernel⟩

/-- **C76, counterexample.**  A subcommand that fails may have half of its effect: the media socket has the new type of
service, the control one has not.  On addresses of the new family `S tos=` never succeeds. -/
theorem C76_tos_counterexample :
    ((cmd (create exC true true true) (.q false [.set ⟨false, .tos, 8⟩ true false])).2 = some [-1] ∧
      (cmd (create exC true true true) (.q false [.set ⟨false, .tos, 8⟩ true false])).1.sock false = some 8 ∧
      (cmd (create exC true true true) (.q false [.set ⟨false, .tos, 8⟩ true false])).1.sockC false = some 16) ∧
    ∀ (s : Sess) (inn : Bool) (v : Int) (rev ok okC : Bool), (∀ d, s.v4 d = false) →
      (sub1 s inn (.set ⟨rev, .tos, v⟩ ok okC)).2.2 = -1 := by
  refine ⟨by decide +kernel, fun s inn v rev ok okC h => ?_⟩
  have h1 : ∀ d, setTos s d v ok = (s, false) := fun d => by unfold setTos; rw [if_pos (h d)]
  simp only [sub1, setH, h1]

/-- **C76, counterexample.**  A session counts as complete, and gets the time of complete sessions, when the caller asks
for a new port although no callee was ever looked up. -/
theorem C76_complete_counterexample :
    ∃ st, run (start exC true true true []) [.cmd (.ul false { exL with newPort := true } [])] = some st ∧
      st.s.complete = true ∧ st.s.sock true = none ∧ st.s.maxTtl (cell st.s false) = 30 :=
  ⟨_, rfl, by decide +kernel, by decide +kernel, by decide +kernel⟩

/-! ## Concrete cases -/

/-- `S` of both kinds, in both directions, with a look-up between; one fails. -/
def exXs : List Sub := [.set ⟨false, .ttl, 7⟩ true true, .set ⟨true, .tos, 8⟩ true true, .other 0, .look exL,
  .set ⟨false, .ttl, 9⟩ true true, .other 3, .set ⟨false, .tos, 1⟩ true true]

example : (subs (create exC true true true) true exXs).2 = [0, 0, 0, 0, 0, 3] := by decide +kernel
example : did true exXs (subs (create exC true true true) true exXs).2 =
    [.set true .ttl 7, .set false .tos 8, .look true false, .set false .ttl 9] := by decide +kernel

def exEs : List Ev := [.load true, .store 0, .tick, .cmd (.ul false exL [.set ⟨true, .ttl, 11⟩ true true]), .tick,
  .cmd (.q true [.set ⟨false, .tos, 24⟩ true true])]

example : ((run (start exC true true true exXs) exEs).map fun st =>
    ([st.s.maxTtl false, st.s.maxTtl true, st.s.ttl false, st.s.ttl true], [st.s.sock false, st.s.sock true])) =
    some ([11, 7, 10, 6], [some 8, some 24]) := by decide +kernel
example : history exC true true true exXs exEs = [.set true .ttl 7, .set false .tos 8, .look true false, .set false .ttl 9,
    .look false false, .set false .ttl 11, .set true .tos 24] := by decide +kernel
/-- The hypotheses of `C76_tos_partial` and `C76_bound_partial` hold for this history. -/
example : (∀ x ∈ exXs, x.fine) ∧ (∀ e ∈ exEs, e.fine) ∧ 0 ≤ exC.tos := by
  refine ⟨?_, ?_, by decide⟩
  · intro x hx
    simp only [exXs, List.mem_cons, List.not_mem_nil, or_false] at hx
    rcases hx with rfl | rfl | rfl | rfl | rfl | rfl | rfl <;> simp [Sub.fine, Look.fine, exL]
  · intro e he
    simp only [exEs, List.mem_cons, List.not_mem_nil, or_false] at he
    rcases he with rfl | rfl | rfl | rfl | rfl | rfl <;> simp [Ev.fine, Sub.fine, Look.fine, exL]
example : calm (start exC true true true exXs) exEs := by
  refine ⟨by nofun, by nofun, by nofun, ?_, by nofun, ?_, trivial⟩ <;> intro c _ <;> rfl

/-- A shared timer: setting it for one leg sets it for both. -/
example : ((run (start ⟨60, 30, 16, true⟩ true true true []) [.cmd (.ul true exL [.set ⟨true, .ttl, 11⟩ true true])]).map fun st =>
    (st.s.maxTtl (cell st.s false), st.s.maxTtl (cell st.s true))) = some (11, 11) := by decide +kernel

/-- `C76_split`: the hypotheses hold and both sides are a session with two legs. -/
example : (cmd (create exC true true true) (.ul false exL [.set ⟨false, .ttl, 7⟩ true true])).2 = some [0] ∧
    (cmd (create exC true true true) (.ul false exL ([.set ⟨false, .ttl, 7⟩ true true] ++ .look exL :: [.other 0]))).2 = some [0, 0, 0] := by
  decide +kernel

/-- `Sr tos=184`. -/
example : parseS [[83, 114], key .tos ++ [49, 56, 52]] = some ⟨true, .tos, 184⟩ := by decide +kernel
/-- Zero, no number, an unknown parameter, a missing argument. -/
example : parseS [[83], key .tos ++ [48]] = none ∧ parseS [[83], key .ttl ++ [53, 120]] = none ∧
    parseS [[83], [102, 111, 111, 61, 53]] = none ∧ parseS [[83]] = none := by decide +kernel

end Verif.Subc
