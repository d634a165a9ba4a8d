import Verif.Spmc.Props

/-!
# The ring when loads may be reordered

SPMCQueue.c:298 reads `readIdx` with `memory_order_relaxed` and SPMCQueue.c:303 reads `writeIdx` with
`memory_order_acquire`.  Acquire keeps later accesses from moving up; it does not keep the earlier relaxed load of
another location from being satisfied after it.  C11 (and, for instance, ARMv8) allows the pair to return a
`writeIdx` that is older than the `readIdx`.  This file adds just this to the interleaving model: a consumer may look
at `writeIdx` when its call starts and use what it saw when it comes to the load.  Nothing else is reordered.
-/

namespace Verif.Spmc.Relaxed

inductive Ev where
  | base (e : Spmc.Ev)
  /-- The load of `writeIdx` is satisfied early. -/
  | early (tid : Nat)
  /-- The consumer comes to the load and uses what was loaded early. -/
  | late (tid : Nat)
  deriving DecidableEq, Repr

structure St where
  q : Spmc.St
  /-- What the consumers have loaded early. -/
  seen : List (Nat × Nat)

def step (s : St) : Ev → Except Stop St
  | .base e => match Spmc.step s.q e with
    | .error x => .error x
    | .ok q => .ok { s with q }
  | .early tid => match s.q.cons[tid]? with
    | some (.loadR _) => .ok { s with seen := (tid, s.q.wIdx) :: s.seen }
    | _ => .error .disabled
  | .late tid => match s.q.cons[tid]?, s.seen.find? (·.1 = tid) with
    | some (.loadW n r), some (_, w) =>
      .ok { q := setC s.q tid (.storeC n r w), seen := s.seen.filter (·.1 ≠ tid) }
    | _, _ => .error .disabled

def run (s : St) : List Ev → Except Stop St
  | [] => .ok s
  | e :: es => match step s e with
    | .error x => .error x
    | .ok s' => run s' es

def init (cap threads : Nat) (garbage : Nat → Nat) : St := ⟨Spmc.init cap threads garbage, []⟩

/-- Without early loads this is the interleaving model. -/
theorem run_base : ∀ (es : List Spmc.Ev) (s : St), (run s (es.map .base)).map (·.q) = Spmc.run s.q es
  | [], s => rfl
  | e :: es, s => by
    simp only [List.map_cons, run, step, Spmc.run]
    cases h : Spmc.step s.q e with
    | error x => rfl
    | ok q => exact run_base es { s with q }

/-- Consumer 0 loads `writeIdx` early; an item is pushed; consumer 1 takes it; consumer 0 then loads `readIdx`. -/
def race : List Ev :=
  [.base (.pop 0 1), .early 0, .base (.push [some 7]), .base .prod, .base .prod,
   .base (.pop 1 1), .base (.cons 1), .base (.cons 1), .base (.cons 1), .base (.cons 1), .base (.cons 1), .base (.cons 1),
   .base (.cons 0), .base (.cons 0), .late 0, .base (.cons 0)]

def isAbort : Except Stop St → Bool
  | .error (.fault .abort) => true
  | _ => false

/-- The assertion SPMCQueue.c:308 fails (a release build tells the compiler it cannot, SPMCQueue.c:17-31, and goes on
to copy a huge number of slots). -/
theorem C56_relaxed_load_counterexample : isAbort (run (init 4 2 fun _ => 0) race) = true := by decide

end Verif.Spmc.Relaxed
