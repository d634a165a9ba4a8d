import Verif.Heard.Props

/-! # Cases, and where the plain claim fails -/

namespace Verif.Heard

def shown (past : List Ev) : Option (List Out) :=
  match run past with
  | .ok (_, l) => some l
  | .error _ => none

/-- A call with a recording, a copy, digits caught but not hidden, something played in between, and packets all along
(latest event first). -/
def call : List Ev :=
  [.pkt 7 101 true, .stop, .inject 6 0 true, .pkt 5 0 true, .play, .pkt 4 101 true, .dtmf 101 false, .pkt 3 0 true,
   .copy 9, .pkt 2 0 true, .record true, .pkt 1 0 true, .addr true, .pkt 0 0 true]

example : Proper call ∧ Open call := by simp [call, Proper, Open, playing, copiedTo]

example : shown call = some [.relayed 1, .recorded 2, .relayed 2, .recorded 3, .copied 9 3, .relayed 3, .recorded 4, .copied 9 4,
    .caught 4, .relayed 4, .copied 9 6, .relayed 6, .recorded 7, .copied 9 7, .caught 7, .relayed 7] := by decide +kernel

example : shown (call.filter fun e => !listening e) =
    some [.relayed 1, .relayed 2, .relayed 3, .relayed 4, .relayed 6, .relayed 7] := by decide +kernel

/-- For `C84_complete_partial`: everything up to the recording, and after it. -/
example : Proper ([Ev.pkt 3 101 true, .dtmf 101 true, .pkt 2 0 true] ++ .record true :: [.addr true]) ∧
    Ev.record false ∉ [Ev.pkt 3 101 true, .dtmf 101 true, .pkt 2 0 true] := by simp [Proper]

/-- C84. A digit to be hidden from the peer is in the recording all the same, and in the copy that was asked for before
the catching, but not in the one asked for after it. -/
theorem C84_hidden_counterexample :
    Proper [.pkt 1 101 true, .copy 2, .dtmf 101 true, .copy 1, .record true, .addr true] ∧
    shown [.pkt 1 101 true, .copy 2, .dtmf 101 true, .copy 1, .record true, .addr true] =
      some [.recorded 1, .copied 1 1, .caught 1] := by
  refine ⟨by simp [Proper, copiedTo], by decide +kernel⟩

/-- C84. A packet that is not sent on, the peer having no address yet, is in the recording. -/
theorem C84_unsent_counterexample : shown [.pkt 1 0 true, .record true] = some [.recorded 1] := by decide +kernel

/-- C84. Catching digits without hiding them can cost the peer a digit: when there is no memory or the queue of the
worker is full the packet is dropped, and not reported either. -/
theorem C84_lost_counterexample :
    shown [.pkt 1 101 false, .dtmf 101 false, .addr true] = some [] ∧
    shown [.pkt 1 101 false, .addr true] = some [.relayed 1] := by
  constructor <;> decide +kernel

/-- C84. What is played to the peer is not in the recording of what the peer hears. -/
theorem C84_prompt_counterexample :
    Proper [.inject 1 0 true, .play, .record true, .addr true] ∧
    shown [.inject 1 0 true, .play, .record true, .addr true] = some [.relayed 1] := by
  refine ⟨by simp [Proper, playing], by decide +kernel⟩

end Verif.Heard
