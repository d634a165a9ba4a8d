import Verif.Basic

/-!
# Model of the packet processor chain (`src/advanced/pproc_manager.c`)

What a processor does with a packet is a parameter: its `taste` and `enqueue` callbacks are functions of the packet
(`P`).  The action bits (`enum pproc_action`, packet_processor.h:33-38) are a record of booleans.  The debug-only
recursion counter and assertions are left out.  Memory is not exhausted.  `auxp` is not modelled.
-/

namespace Verif.Pproc

/-- `enum pproc_action`, packet_processor.h:33-38. -/
structure Act where
  tee : Bool
  take : Bool
  drop : Bool
  deriving DecidableEq, Repr

def Act.nop : Act := ⟨false, false, false⟩
def Act.or (a b : Act) : Act := ⟨a.tee || b.tee, a.take || b.take, a.drop || b.drop⟩

/-- `struct pproc_handler`, pproc_manager.c:50-53. -/
structure Proc (P : Type) where
  order : Nat
  key : Nat
  /-- `none`: no callback, everything is to its taste. -/
  taste : Option (P → Bool)
  /-- The action and the location it is attributed to. -/
  enqueue : P → Act × Nat

/-- The index found by the loop at pproc_manager.c:151-153. -/
def place {P : Type} (o : Nat) : List (Proc P) → Nat
  | [] => 0
  | p :: ps => if p.order > o then 0 else place o ps + 1

/-- `rtpp_pproc_mgr_register`, pproc_manager.c:135-171. -/
def register {P : Type} (t : List (Proc P)) (p : Proc P) : List (Proc P) :=
  let i := place p.order t
  t.take i ++ p :: t.drop i

/-- The index found by the loop at pproc_manager.c:268-272. -/
def position {P : Type} (key : Nat) : List (Proc P) → Option Nat
  | [] => none
  | p :: ps => if p.key = key then some 0 else (position key ps).map (· + 1)

/-- `rtpp_pproc_mgr_unregister`, pproc_manager.c:259-298. -/
def unregister {P : Type} (t : List (Proc P)) (key : Nat) : Except Fault (List (Proc P)) :=
  match position key t with
  | none => .error .abort
  | some i => .ok (t.take i ++ t.drop (i + 1))

/-- `rtpp_pproc_mgr_lookup`, pproc_manager.c:237-257. -/
def lookup {P : Type} (t : List (Proc P)) (key : Nat) : Option (Proc P) :=
  match position key t with
  | none => none
  | some i => t[i]?

/-- The packet is to the processor's taste: the test at pproc_manager.c:207 passes. -/
def Proc.likes {P : Type} (p : Proc P) (pkt : P) : Bool :=
  match p.taste with
  | none => true
  | some f => f pkt

/-- The loop of `rtpp_pproc_mgr_handleat`, pproc_manager.c:202-218: accumulated action, location of the last one run,
and the processors run (in order). -/
def loop {P : Type} (startat : Nat) (pkt : P) : List (Proc P) → Act → Nat → List (Proc P) → Act × Nat × List (Proc P)
  | [], res, loc, ran => (res, loc, ran)
  | p :: ps, res, loc, ran =>
    if startat > 0 ∧ p.order < startat then loop startat pkt ps res loc ran
    else if p.likes pkt = false then loop startat pkt ps res loc ran
    else
      let al := p.enqueue pkt
      let res := res.or al.1
      if res.take || res.drop then (res, al.2, ran ++ [p]) else loop startat pkt ps res al.2 (ran ++ [p])

/-- What `rtpp_pproc_mgr_handleat` leaves behind. -/
structure Out (P : Type) where
  act : Act
  ran : List (Proc P)
  /-- The reference to the packet was given up (pproc_manager.c:221). -/
  released : Bool
  /-- The packet was counted as dropped, and where (pproc_manager.c:222-228). -/
  counted : Option Nat

/-- `rtpp_pproc_mgr_handleat`, pproc_manager.c:180-235; `here` is the location at line 187, `lgen` the flag
`PPROC_FLAG_LGEN`. -/
def handleat {P : Type} (t : List (Proc P)) (here : Nat) (lgen : Bool) (startat : Nat) (pkt : P) : Out P :=
  let (res, loc, ran) := loop startat pkt t Act.nop here []
  let rel := !res.take || res.drop
  ⟨res, ran, rel, if rel && !lgen then some loc else none⟩

inductive Op (P : Type) where
  | reg (p : Proc P)
  | unreg (key : Nat)

def apply {P : Type} (t : List (Proc P)) : List (Op P) → Except Fault (List (Proc P))
  | [] => .ok t
  | .reg p :: ops => apply (register t p) ops
  | .unreg k :: ops => match unregister t k with
    | .error e => .error e
    | .ok t' => apply t' ops

end Verif.Pproc
