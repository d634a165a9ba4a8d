import Verif.Notify.Props

/-!
# C46: cases and counterexamples
-/

namespace Verif.Notify

/-- A local socket and a TCP socket with a local address, both not yet connected. -/
def sock : Target := ⟨false, false, none, false⟩
def tcp : Target := ⟨false, true, none, false⟩

/-- A target given by a descriptor. -/
def fdTgt (f : Nat) : Target := ⟨true, false, some f, true⟩

def tagA : List UInt8 := [65]
def tagB : List UInt8 := [66, 67]

/-- The other end of target 0 goes away: the first notification is sent, the second needs a new connection, which is refused; the third goes to
target 1, and the fourth gets through to target 0 again. -/
def items0 : List (Nat × List UInt8) := [(0, tagA), (0, tagB), (1, tagA), (0, tagA)]
def env0 : List Ans := [.fd 7, .ok, .ok, .intr, .fail, .fd 8, .fail, .fd 7, .ok, .ok, .ok, .fd 8, .ok, .ok]

theorem ready0 : Ready [sock, tcp] := by
  intro t ht
  rcases List.mem_cons.1 ht with rfl | ht
  · exact ⟨(fun h => by cases h), (fun h => by cases h)⟩
  · rw [List.mem_singleton.1 ht]
    exact ⟨(fun h => by cases h), (fun h => by cases h)⟩

example : (run [sock, tcp] env0 items0).toOption.map (fun r => r.2.2) = some
    [[.socket 0 7, .connect 0 7 true, .send 0 7 [65, 10] (some 2)],
     [.send 0 7 [66, 67, 10] none, .close 0 7, .socket 0 8, .connect 0 8 false, .close 0 8],
     [.socket 1 7, .bind 1 7 true, .connect 1 7 true, .send 1 7 [65, 10] (some 2)],
     [.socket 0 8, .connect 0 8 true, .send 0 8 [65, 10] (some 2)]] := by decide +kernel

example : Held [sock, tcp] (fun _ => none) := by
  refine ⟨?_, ?_, fun f h => absurd rfl h⟩
  · intro i t ht
    have : t = sock ∨ t = tcp := by simpa using List.mem_of_getElem? ht
    rcases this with rfl | rfl <;> rfl
  · intro i j t u f ht _ hf _
    have : t = sock ∨ t = tcp := by simpa using List.mem_of_getElem? ht
    rcases this with rfl | rfl <;> cases hf

/-- Four attempts at most. -/
example : ((run [sock] (.fd 7 :: .ok :: .fail :: .fd 8 :: .ok :: .fail :: .fd 7 :: .ok :: .fail :: .fd 8 :: .ok :: .fail :: .fd 7 :: .ok :: [.ok])
    [(0, tagA)]).toOption.map fun r => (r.2.2.flatten.countP Ev.isSend, r.2.1.length)) = some (4, 3) := by decide +kernel

def outcome (r : Except Fault (List Target × List Ans × List (List Ev))) : Option Fault :=
  match r with
  | .error e => some e
  | .ok _ => none

/-- A target given by a descriptor: one failed send, and the assertion in `reconnect_handler` stops the process. -/
theorem C46_fd_counterexample : Ready [fdTgt 5] ∧ outcome (run [fdTgt 5] [.fail] [(0, tagA)]) = some .abort := by
  refine ⟨?_, by decide +kernel⟩
  intro t ht
  rw [List.mem_singleton.1 ht]
  exact ⟨fun _ => by simp [fdTgt], fun _ => rfl⟩

/-- A send that takes only a part counts as done: the rest is lost, and the next notification continues the line.  Two notifications `BC` and `A`
arrive as the one line `BA`. -/
theorem C46_short_counterexample : (run [sock] [.fd 7, .ok, .short 1, .ok] [(0, tagB), (0, tagA)]).toOption.map (fun r => r.2.2) =
    some [[.socket 0 7, .connect 0 7 true, .send 0 7 [66, 67, 10] (some 1)], [.send 0 7 [65, 10] (some 2)]] := by decide +kernel

end Verif.Notify
