import Verif.Sinfo.Props

/-!
# Examples, and what happens when there is no memory
-/

namespace Verif.Sinfo

instance (w : World) (o : Op) : Decidable (Ok w o) := by
  cases o <;> unfold Ok <;> infer_instance

/-- The rules are kept all along. -/
def okRun : World → List Op → Bool
  | _, [] => true
  | w, o :: os => decide (Ok w o) && (match step w o with | .ok w' => okRun w' os | .error _ => false)

theorem reach_run {w w' : World} (h : Reach w) {os : List Op} (ok : okRun w os = true) (e : run w os = .ok w') : Reach w' := by
  induction os generalizing w with
  | nil => cases e; exact h
  | cons o os ih =>
    rw [okRun, Bool.and_eq_true, decide_eq_true_iff] at ok
    cases hs : step w o with
    | error f => rw [run, hs] at e; cases e
    | ok w1 =>
      rw [hs] at ok
      rw [run, hs] at e
      exact ih (.step o h ok.1 hs) ok.2 e

def w0 : World := ⟨Pipe.new, Pipe.new⟩

/-- What can be compared of a pipe. -/
structure View where
  table : List (Nat × Nat)
  ep : List Nat
  fds : List (Nat × Nat)
  ulen : Nat
  busy : Option (Nat × Nat)
  deriving DecidableEq, Repr

def view (p : Pipe) : View := ⟨p.table, p.ep, p.fds, p.ulen, p.busy⟩

def viewAll (os : List Op) : Option (View × View) := (run w0 os).toOption.map fun w => (view w.rtp, view w.rtcp)

/-- Sides of sessions get sockets; the sockets of one are replaced while the thread is at work, one goes away. -/
def trace : List Op :=
  [.append 1 10 11 true true, .append 2 20 21 true true, .beginRtp true, .turnRtp, .update 1 30 31 true true, .append 3 40 41 true true,
   .turnRtp, .remove 2 true true, .beginRtcp true, .turnRtcp, .turnRtcp, .beginRtp true, .turnRtcp, .turnRtcp, .turnRtp]

example : okRun w0 trace = true := by decide +kernel

/-- The thread of RTP has replaced the socket of the first and has two entries left; that of RTCP one. -/
example : viewAll trace = some
    (⟨[(1, 30), (2, 20)], [20, 30], [(1, 30), (3, 40)], 0, some (1, 3)⟩,
     ⟨[(1, 31), (2, 21), (3, 41)], [21, 31, 41], [(1, 31), (3, 41)], 0, some (4, 5)⟩) := by decide +kernel

/-- And then all is done. -/
example : viewAll (trace ++ [.turnRtp, .turnRtcp, .turnRtp]) = some
    (⟨[(1, 30), (3, 40)], [30, 40], [(1, 30), (3, 40)], 0, none⟩, ⟨[(1, 31), (3, 41)], [31, 41], [(1, 31), (3, 41)], 0, none⟩) := by
  decide +kernel

example : okRun w0 (trace ++ [.turnRtp, .turnRtcp, .turnRtp]) = true := by decide +kernel

/-- As many additions as the log has room for. -/
def ten : List Op := (List.range 10).map fun i => .append i (2 * i + 100) (2 * i + 101) true true

/-- No memory for one more: nothing happens. -/
example : okRun w0 (ten ++ [.append 10 200 201 true false, .update 3 300 301 true false]) = true ∧
    viewAll (ten ++ [.append 10 200 201 true false, .update 3 300 301 true false]) = viewAll ten := by decide +kernel

/-- If there is no memory for the table, the synchronisation throws the log away (lines 474-485).  The stream of the new session is never polled,
though its socket is open and its port has been given to the caller. -/
theorem C29_lost_counterexample :
    viewAll [.append 1 10 11 true true, .beginRtp false, .beginRtp true, .turnRtp, .beginRtp true] =
      some (⟨[], [], [(1, 10)], 0, none⟩, ⟨[], [], [(1, 11)], 1, none⟩) := by decide +kernel

def outcome (os : List Op) : Option Fault :=
  match run w0 os with
  | .error f => some f
  | .ok _ => none

/-- And when the session ends, the assertion of line 448 stops the proxy. -/
theorem C29_abort_counterexample :
    outcome [.append 1 10 11 true true, .beginRtp false, .remove 1 true true, .beginRtp true, .turnRtp] = some .abort := by decide +kernel

/-- If there is no memory for the entry of a removal, nothing is recorded: the table keeps the socket that the stream has given up. The kernel
watches it for good, and when the stream gets another one it is in the table twice. -/
theorem C29_twice_counterexample :
    (run w0 ([.append 20 10 11 true true, .beginRtp true, .turnRtp] ++ ten ++ [.remove 20 false true, .append 20 12 13 true true, .beginRtp true] ++
      List.replicate 11 .turnRtp)).toOption.map (fun w => (w.rtp.table.filter (fun x => x.1 = 20), w.rtp.busy, w.rtp.ulen, fdOf w.rtp 20))
      = some ([(20, 10), (20, 12)], none, 0, some 12) := by decide +kernel

/-- And its reference from `get_skt` is never given back. -/
theorem C29_leak_counterexample :
    (run w0 ([.append 20 10 11 true true, .beginRtp true, .turnRtp] ++ ten ++ [.remove 20 false true])).toOption.map
      (fun w => (w.rtp.refs 10, w.rtp.held 10)) = some (2, 1) := by decide +kernel

/-- That the streams lose their sockets after `remove` matters: `remove` itself leaves them, and to remove the same stream again would fail an
assertion in the thread. -/
theorem C29_clear_necessary :
    ∃ p p' p'', pappend Pipe.new 1 10 = .ok p ∧ premove p 1 = .ok p' ∧ premove p' 1 = .ok p'' ∧
      (match turn (begin p'' true) with
       | .error _ => none
       | .ok a => match turn a with
         | .error _ => none
         | .ok b => match turn b with
           | .error f => some f
           | .ok _ => none) = some .abort := by
  refine ⟨_, _, _, rfl, rfl, rfl, ?_⟩
  decide +kernel

end Verif.Sinfo
