import Verif.Setup.Props

/-!
# C80: concrete cases and what does not hold
-/

namespace Verif.Setup.Cases

open Verif.Setup

/-- Modifiers: none. -/
def o0 : Ulopt.Opts := ⟨false, false, -1, none, 1, 1, 2, none, false, false, none⟩

/-- A request with an address. -/
def req (update : Bool) (o : Ulopt.Opts) (h p : Nat) : Req :=
  ⟨update, o, ⟨some ((h, p), (h, p + 1)), false, none⟩, none, 5⟩

/-- The rest of the program; a listener is created at `p`. -/
def env (p : Option Nat) : Env := ⟨true, fun n => if n = [110] then some 7 else none, p, true, false, true, true⟩

/-- Offer by 10.0.0.1 with codecs, answer by 10.0.0.2 that asks for 20 ms, new offer that is put on hold. -/
def r0 : Req := { req true { o0 with codecs := some [48] } 101 4000 with notify := some ([110], [116]) }
def r1 : Req := req false { o0 with ptime := 20, asym := true } 102 5000
def r2 : Req := { req true o0 0 0 with peer := ⟨none, true, none⟩ }
def es : List Ev := [.cmd true r1 (env (some 35002)), .rtp true 6 ⟨⟨101, 4000⟩, some (1, 1)⟩ false, .cmd false r2 (env none)]

/-- Decidable view of a session for the cases. -/
def view (s : S) : Side × Side × Option (Nat × Bytes) := (s.side false, s.side true, s.tmo)

def made : S := ((create r0 (env (some 35000))).1).getD ⟨fun _ => side0 0, none⟩

theorem made_eq : create r0 (env (some 35000)) = (some made, .ok 35000 1) := rfl

/-- The first party gets 35000, the second 35002, the first keeps its port. -/
example : (hist made es).map (·.2) = [some (.ok 35002 1), none, some (.ok 35000 1)] := by decide +kernel

example : Bound (run made es) false 1 35000 ∧ Bound (run made es) true 1 35002 := by
  unfold Bound; decide +kernel

example : ∀ e ∈ es, Smooth e := by
  intro e he
  simp only [es, List.mem_cons, List.not_mem_nil, or_false] at he
  rcases he with rfl | rfl | rfl
  · exact ⟨⟨rfl, by simp [env]⟩, by simp [env]⟩
  · trivial
  · refine ⟨⟨rfl, by simp [env]⟩, fun _ h => ?_⟩
    revert h; decide

/-- The answer is in force, the codecs of the offer are not any more, and the first party is on hold. -/
example : ((run made es).side false).rtp.l.asym = true ∧ ((run made es).side true).ptime = 20 ∧
    ((run made es).side false).resizer = some 20 ∧ ((run made es).side true).codecs = none ∧
    ((run made es).side true).rtp.hold = true ∧ (made.side true).codecs = some [48] := by decide +kernel

/-- Another port on another address. -/
example : (exec (run made es) false (req true { o0 with newPort := true, loc := some 2 } 101 4000) (env (some 35004))).2 =
    .ok 35004 2 := by decide +kernel

/-- Bridging: the first direction is the second party's side. -/
example :
    let c := create (req true { o0 with lia1 := 2, lia0 := 1, lidx1 := 0 } 101 4000) (env (some 35000))
    c.2 = .ok 35000 1 ∧
    (c.1.map fun s => (exec s true (req false o0 102 5000) (env (some 35002))).2) = some (.ok 35002 2) := by decide +kernel

/-- The text: port and address, 6 for IPv6, and nothing but the port for a socket bound to every address. -/
example : text ⟨false, none, [49, 46, 50], false⟩ 35000 = [51, 53, 48, 48, 48, 32, 49, 46, 50] ∧
    text ⟨false, none, [58, 58, 49], true⟩ 35000 = [51, 53, 48, 48, 48, 32, 58, 58, 49, 32, 54] ∧
    text ⟨true, none, [48], false⟩ 35000 = [51, 53, 48, 48, 48] := by decide +kernel

/-- A command that asks for another port on another address and is refused for want of one leaves the address behind:
the next command is answered with the old port on the new address, where nothing listens. -/
theorem C80_address_counterexample :
    let s1 := (exec made false (req true { o0 with newPort := true, loc := some 2 } 101 4000) (env none))
    s1.2 = .err ∧ (exec s1.1 false (req true o0 101 4000) (env none)).2 = .ok 35000 2 ∧
    ((exec s1.1 false (req true o0 101 4000) (env none)).1.side false).rtp.sock = some ⟨1, 35000⟩ := by
  decide +kernel

/-- If the new sockets cannot be registered, the command is granted all the same, with a port that has been closed. -/
theorem C80_unregistered_counterexample :
    let x := exec made false (req true { o0 with newPort := true } 101 4000) { env (some 35004) with reg := false }
    x.2 = .ok 35004 1 ∧ (x.1.side false).rtp.sock = some ⟨1, 35000⟩ := by
  decide +kernel

/-- The local address of the RTCP stream, used for recorded packets, does not follow. -/
theorem C80_rtcp_address_counterexample :
    let x := exec made false (req true { o0 with newPort := true, loc := some 2 } 101 4000) (env (some 35004))
    x.2 = .ok 35004 2 ∧ (x.1.side false).rtcp.sock = some ⟨2, 35005⟩ ∧ (x.1.side false).rtcp.laddr = 1 := by
  decide +kernel

/-- A U that names an unknown target is granted, and the handler there was is gone. -/
theorem C80_notify_counterexample :
    let x := exec made false { req true o0 101 4000 with notify := some ([120], [116]) } (env none)
    made.tmo = some (7, [116]) ∧ x.2 = .ok 35000 1 ∧ x.1.tmo = none := by
  decide +kernel

/-- An advertised address is not told if the socket is bound to every address. -/
theorem C80_advertised_counterexample :
    text ⟨true, some [49, 46, 50], [48], false⟩ 35000 = text ⟨true, none, [48], false⟩ 35000 := by decide +kernel

/-- A party that receives RTP at port 65535 is sent RTCP at port 0. -/
theorem C80_last_port_counterexample :
    (match Ulopt.peer false (fun _ _ _ => some (9, 65535)) (fun _ _ => none) false [49, 46, 49, 46, 49, 46, 49] [54] with
      | .ok p => p.ia
      | .error _ => none) = some ((9, 65535), (9, 0)) := by
  decide +kernel

end Verif.Setup.Cases
