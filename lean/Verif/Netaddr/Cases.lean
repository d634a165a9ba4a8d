import Verif.Netaddr.Props

/-! # Cases -/

namespace Verif.Netaddr

def shown (past : List Ev) : Option (List Obs) :=
  match run past with
  | .ok s => some s.log
  | .error _ => none

/-- Thread 1 is setting an address while thread 2 wants to read one, thread 3 asks whether there is one and thread 4 compares
(latest event first). -/
def busy : List Ev :=
  [.go 4, .go 4, .go 4, .go 4, .go 2, .go 2, .go 2, .go 2, .go 2, .isempty 3, .go 1, .go 4, .isempty 3, .go 1, .go 1, .go 2,
   .isempty 3, .go 1, .go 1, .call 4 (.wantCmp [2, 8]), .call 2 (.wantGet 128), .call 1 (.wantSet [2, 7])]

example : Proper busy := by
  intro t p h
  simp only [busy, List.mem_cons, Ev.call.injEq, reduceCtorEq, false_or, List.not_mem_nil, or_false] at h
  rcases h with ⟨-, rfl⟩ | ⟨-, rfl⟩ | ⟨-, rfl⟩ <;> simp [Method]

/-- The address is there once its length is; it is read whole; the other one is not the same. -/
example : shown busy = some [.compared 4 [2, 8] false, .read 2 [2, 7], .empty 3 false, .empty 3 false, .wrote 1 [2, 7], .empty 3 true] := by
  decide +kernel

/-- While thread 1 is in the middle, thread 2 waits, and what is in memory is neither the old address nor the new one. -/
def middle : List Ev :=
  [.go 2, .go 1, .go 1, .call 2 (.wantGet 128), .call 1 (.wantSet [5, 6]), .go 3, .go 3, .go 3, .go 3, .go 3, .call 3 (.wantSet [2, 7])]

example : (match run middle with
    | .ok s => some (s.sas.take 2, s.lock, s.pc 2, value s.log)
    | .error _ => none) = some ([5, 7], some 1, .wantGet 128, [2, 7]) := by decide +kernel

/-- Host and port of an IPv4 address (`struct sockaddr_in`: family, port, host and eight bytes that mean nothing). -/
def host4 (a : Bytes) : Bytes := a.take 8

/-- C86. Addresses are compared with the bytes that mean nothing: the same host and port may compare as different. -/
theorem C86_padding_counterexample : ∃ a b past, Proper past ∧ host4 a = host4 b ∧ a.length = 16 ∧ b.length = 16 ∧
    shown past = some [.compared 2 b false, .wrote 1 a] := by
  refine ⟨[2, 0, 19, 136, 10, 0, 0, 1, 0, 0, 0, 0, 0, 0, 0, 0], [2, 0, 19, 136, 10, 0, 0, 1, 0, 0, 0, 0, 0, 0, 0, 1],
    List.replicate 19 (.go 2) ++ [.call 2 (.wantCmp [2, 0, 19, 136, 10, 0, 0, 1, 0, 0, 0, 0, 0, 0, 0, 1])] ++
      List.replicate 19 (.go 1) ++ [.call 1 (.wantSet [2, 0, 19, 136, 10, 0, 0, 1, 0, 0, 0, 0, 0, 0, 0, 0])], ?_, rfl, rfl, rfl,
    by decide +kernel⟩
  intro t p h
  simp only [List.mem_append, List.mem_replicate, List.mem_singleton, Ev.call.injEq, reduceCtorEq, and_false, false_or, or_false] at h
  rcases h with ⟨-, rfl⟩ | ⟨-, rfl⟩ <;> simp [Method]

end Verif.Netaddr
