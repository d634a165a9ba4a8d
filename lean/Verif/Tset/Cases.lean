import Verif.Tset.Props

/-!
# C64: concrete cases and what does not hold
-/

namespace Verif.Tset

/-- A name written as a string. -/
def nm (s : String) : Bytes := s.toList.map (fun c => UInt8.ofNat c.toNat)

/-- A resolver that knows two hosts. -/
def res2 : Bytes → Option Nat := fun h => if h = nm "a" then some 1 else if h = nm "b" then some 2 else none

/-- Four names: two paths, a host, and the controller's host. -/
def opts : List Ev :=
  [.conf (nm "unix:/run/x") true true, .conf (nm "/run/y") true true, .conf (nm "tcp:a:80") true true,
   .conf (nm "tcp:%%CC_SELF%%:9000") true true, .conf (nm "tcp:c:80") true true]

def after (es : List Ev) : Option (St × List Ans) := (run false res2 {} es).toOption

/-- The set after these options; the last one is refused (the host is not known). -/
example : after opts = some
    ({ tps := [⟨some (nm "unix:/run/x"), .unix (nm "/run/x"), none⟩, ⟨some (nm "unix:/run/y"), .unix (nm "/run/y"), none⟩,
               ⟨some (nm "tcp:a:80"), .inet 1 80, none⟩],
       wps := [⟨nm "tcp:%%CC_SELF%%:9000", 9000⟩] },
     [.took true, .took true, .took true, .took true, .took false]) := by decide +kernel

/-- The hypotheses of `C64_named_partial` and `C64_self` hold for these names. -/
example : Means false res2 (nm "/run/y") (.to (.unix (nm "/run/y"))) :=
  .bare (by decide) (by decide) (by decide)

example : Means false res2 (nm "tcp:a:80") (.to (.inet 1 80)) :=
  .host (h := nm "a") (ds := nm "80") (by decide) (by decide) (by decide) (by decide)
    (.snoc (.one (d := 8) (by decide) (by decide)) (d := 0) (by decide) (by decide)) (by decide) (by decide)

example : Means true res2 (nm "fd:7") (.to (.fd 7)) :=
  .fd (ds := nm "7") (n := 7) rfl (.one (d := 7) (by decide) (by decide)) (by decide)

theorem means_self : Means false res2 (nm "tcp:%%CC_SELF%%:9000") (.self 9000) :=
  .self (ds := nm "9000")
    (.snoc (.snoc (.snoc (.one (d := 9) (by decide) (by decide)) (d := 0) (by decide) (by decide)) (d := 0) (by decide) (by decide))
      (d := 0) (by decide) (by decide)) (by decide) (by decide)

/-- Commands: by the full name, without the prefix, an unknown one; from two hosts, from a local socket, from the first
host again. -/
example : (after (opts ++
    [.ask (nm "unix:/run/y") none none true true, .ask (nm "/run/x") none none true true, .ask (nm "/run/z") none none true true,
     .ask (nm "tcp:%%CC_SELF%%:9000") (some (.inet 5 4000)) (some (.inet 9 22222)) true true,
     .ask (nm "tcp:%%CC_SELF%%:9000") (some (.inet 6 4000)) (some (.inet 9 22222)) true true,
     .ask (nm "tcp:%%CC_SELF%%:9000") none none true true,
     .ask (nm "tcp:%%CC_SELF%%:9000") (some (.inet 5 4001)) (some (.inet 9 22222)) true true])).map
      (fun r => (r.1.tps.drop 3, r.2.drop 5)) = some
    ([⟨none, .inet 5 9000, some (.inet 9 0)⟩, ⟨none, .inet 6 9000, some (.inet 9 0)⟩, ⟨none, .inet 2130706433 9000, none⟩],
     [.found (some 1), .found (some 0), .found none, .found (some 3), .found (some 4), .found (some 5), .found (some 3)]) := by
  decide +kernel

/-- A path with a colon, given without `unix:`, is accepted but the same name does not select it
(rtpp_tnotify_set.c:392-410). -/
theorem C64_colon_counterexample :
    Means false res2 (nm "/run/a:b") (.to (.unix (nm "/run/a:b"))) ∧
    (after [.conf (nm "/run/a:b") true true, .ask (nm "/run/a:b") none none true true]).map (·.2) =
      some [.took true, .found none] :=
  ⟨.bare (by decide) (by decide) (by decide), by decide +kernel⟩

/-- The port is read with `atoi` (rtpp_tnotify_set.c:146): what follows the digits is ignored, and a number that does not fit is
reduced. -/
theorem C64_port_counterexample :
    (after [.conf (nm "tcp:a:80x") true true, .conf (nm "tcp:a:4294967376") true true]).map (fun r => (r.1.tps.map (·.dest), r.2)) =
      some ([.inet 1 80, .inet 1 80], [.took true, .took true]) := by decide +kernel

/-- A path longer than the address structure is cut off, and something else is notified (rtpp_tnotify_set.c:209). -/
theorem C64_path_counterexample (p : Bytes) (hp : 107 < p.length) :
    ∃ q, q ≠ p ∧ append false res2 true true (unixP ++ p) {} = ({ tps := [⟨some (unixP ++ p), .unix q, none⟩] }, true) := by
  refine ⟨p.take 107, ?_, ?_⟩
  · intro e
    have := congrArg List.length e
    rw [List.length_take] at this
    omega
  · unfold append
    rw [parse_unix (by intro e; subst e; simp at hp)]
    simp

/-- The address a command was received at matters for the first command of a host only: later ones get a target that
sends from the first address (rtpp_tnotify_set.c:331-345). -/
theorem C64_source_counterexample :
    ∃ (es : List Ev) (t : St) (as : List Ans), run false res2 {} es = .ok (t, as) ∧
      nm "tcp:%%CC_SELF%%:9000" ∈ accepted es as ∧
      ∃ h, lookup (nm "tcp:%%CC_SELF%%:9000") (some (.inet 5 4000)) (some (.inet 8 1)) true true t = .ok (t, some h) ∧
        (t.tps[h]?.map (·.src)) = some (some (.inet 7 0)) := by
  refine ⟨[.conf (nm "tcp:%%CC_SELF%%:9000") true true,
      .ask (nm "tcp:%%CC_SELF%%:9000") (some (.inet 5 4000)) (some (.inet 7 1)) true true],
    { tps := [⟨none, .inet 5 9000, some (.inet 7 0)⟩], wps := [⟨nm "tcp:%%CC_SELF%%:9000", 9000⟩] },
    [.took true, .found (some 0)], by rfl, by decide, 0, by rfl, by decide⟩

/-- After 64 hosts the next one gets no target, though the name is permitted: there is no way to give up a target. -/
theorem C64_full_counterexample :
    ((after (.conf (nm "tcp:%%CC_SELF%%:9000") true true ::
      (List.range 65).map (fun i => .ask (nm "tcp:%%CC_SELF%%:9000") (some (.inet i 4000)) none true true))).map
        (fun r => r.2.getLast?)) = some (some (.found none)) := by decide +kernel

end Verif.Tset
