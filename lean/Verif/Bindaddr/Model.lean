import Verif.Basic

/-!
# Model of the registry of local addresses (`src/rtpp_bindaddrs.c`) and of its set-up (`src/rtpp_bindargs.c`)

An address is its family and host number (`ishostseq`, rtpp_network.c:52-75, compares nothing else).  A string is the list of
its bytes, `none` a string whose `s` is NULL.  The lists are protected by a mutex, so a call that takes it once is one
event; `host2bindaddr` takes it twice.  Resolving is an oracle.  Objects are named by numbers.
-/

namespace Verif.Bindaddr

structure Addr where
  v6 : Bool
  host : Nat
  deriving DecidableEq, Repr

/-- `struct rtpp_bindaddr_params`. -/
structure Params where
  label : Option (List UInt8)
  adv : Option (List UInt8)
  deriving DecidableEq, Repr

/-- `struct bindaddr_list`, rtpp_bindaddrs.c:54-57. -/
structure Entry where
  id : Nat
  addr : Addr
  params : Params
  deriving DecidableEq, Repr

/-- `rtpp_str_match`, rtpp_str.h:69-70, for strings that may be NULL with length 0. -/
def strMatch (a b : Option (List UInt8)) : Bool := a.getD [] == b.getD []

/-- The list at `bindaddr_list`, newest first; `next` is the name of the next object. -/
structure Reg where
  list : List Entry
  next : Nat
  deriving DecidableEq, Repr

def Reg.init : Reg := ⟨[], 0⟩

/-- The test of the loop at rtpp_bindaddrs.c:77-86. -/
def wanted (a : Addr) (p : Option Params) (e : Entry) : Bool :=
  e.addr == a && (match p with | none => true | some p => strMatch p.label e.params.label)

/-- `addr2bindaddr_i`, rtpp_bindaddrs.c:67-103; `oom` if the allocation fails. -/
def get (r : Reg) (a : Addr) (p : Option Params) (oom : Bool) : Reg × Option Nat :=
  match r.list.find? (wanted a p) with
  | some e => (r, some e.id)
  | none =>
    if oom then (r, none)
    else (⟨⟨r.next, a, p.getD ⟨none, none⟩⟩ :: r.list, r.next + 1⟩, some r.next)

/-- `label2bindaddr`, rtpp_bindaddrs.c:113-128. -/
def label2 (r : Reg) (l : List UInt8) : Option Nat :=
  (r.list.find? fun e => match e.params.label with | none => false | some m => m == l).map (·.id)

/-- `bindaddr4af`, rtpp_bindaddrs.c:164-180. -/
def foraf (r : Reg) (v6 : Bool) : Option Nat := (r.list.find? fun e => e.addr.v6 == v6).map (·.id)

/-- Lines 138-141 of `host2bindaddr`: is the label taken? -/
def labelTaken (r : Reg) (p : Option Params) : Bool :=
  match p with
  | none => false
  | some p => match p.label with | none => false | some l => (label2 r l).isSome

/-- `host2bindaddr`, rtpp_bindaddrs.c:130-162, undisturbed.  `a` is what the resolver says (`none`: it fails). -/
def host2 (r : Reg) (a : Option Addr) (p : Option Params) (oom : Bool) : Reg × Option Nat :=
  if labelTaken r p then (r, none)
  else match a with
    | none => (r, none)
    | some a => get r a p oom

/-! ## Threads -/

structure St where
  reg : Reg
  /-- what a thread between the two halves of `host2bindaddr` is about to ask for -/
  pend : Nat → Option (Option Params)
  /-- the answers given so far to requests for an address: what was asked for, which object was returned -/
  log : List (Addr × Option Params × Nat)

def St.init : St := ⟨.init, fun _ => none, []⟩

inductive Ev where
  /-- `addr2bindaddr` -/
  | addr2 (a : Addr) (oom : Bool)
  /-- first half of `host2bindaddr` by thread `t` -/
  | check (t : Nat) (p : Option Params)
  /-- second half: the resolver's answer -/
  | add (t : Nat) (a : Option Addr) (oom : Bool)

def answer (s : St) (a : Addr) (p : Option Params) (oom : Bool) : St :=
  let r := get s.reg a p oom
  { s with reg := r.1, log := match r.2 with | none => s.log | some i => (a, p, i) :: s.log }

def step (s : St) : Ev → St
  | .addr2 a oom => answer s a none oom
  | .check t p =>
    if labelTaken s.reg p then s else { s with pend := fun u => if u = t then some p else s.pend u }
  | .add t a oom =>
    match s.pend t with
    | none => s
    | some p =>
      let s := { s with pend := fun u => if u = t then none else s.pend u }
      match a with
      | none => s
      | some a => answer s a p oom

def run (s : St) (evs : List Ev) : St := evs.foldl step s

/-! ## Set-up of the listening addresses -/

/-- `struct bindarg`; `h` is `none` for NULL. -/
structure Barg where
  h : Option (List UInt8)
  params : Params
  v6 : Bool
  deriving DecidableEq, Repr

/-- `strchr(h, '/')`: what is before and after it. -/
def slash (h : List UInt8) : Option (List UInt8 × List UInt8) :=
  if (47 : UInt8) ∈ h then some (h.takeWhile (· != 47), (h.dropWhile (· != 47)).drop 1) else none

/-- `ba_firstidx`, rtpp_bindargs.c:63-71. -/
def firstIdx (bs : List Barg) (v6 : Bool) : Option Nat := bs.findIdx? (fun b => b.v6 == v6)

/-- The loop at lines 88-107, one round: the arguments and the external address found so far; `none` is an error. -/
def extRound (bs : List Barg) (ext : Option Barg) (v6 : Bool) : Option (List Barg × Option Barg) :=
  match firstIdx bs v6 with
  | none => some (bs, ext)
  | some i =>
    match bs[i]? with
    | none => some (bs, ext)
    | some b =>
      match b.h with
      | none => some (bs, ext)
      | some h =>
        match slash h with
        | none => some (bs, ext)
        | some (inn, out) =>
          if ext.isSome then none
          else some (bs.set i { b with h := if inn = [] then none else some inn }, some { b with h := some out })

/-- The loop at lines 109-122, one round: the internal address. -/
def intRound (bs : List Barg) (int : Option Barg) (v6 : Bool) : Option (List Barg × Option Barg) :=
  match firstIdx bs v6 with
  | none => some (bs, int)
  | some i =>
    match bs[i]? with
    | none => some (bs, int)
    | some b =>
      match b.h with
      | none => some (bs, int)
      | some _ => if int.isSome then none else some (bs.set i { b with h := none }, some b)

/-- What can be configured: the two primary addresses and whether there is an external interface. -/
structure Cfg where
  b0 : Option Nat
  b1 : Option Nat
  bmode : Bool
  deriving DecidableEq, Repr

/-- Resolver: host and family to an address. -/
abbrev Resolver := List UInt8 → Bool → Option Addr

/-- The loop at lines 157-181. -/
def labelled (rs : Resolver) : List Barg → Reg → Cfg → Option (Reg × Cfg)
  | [], r, c => some (r, c)
  | b :: bs, r, c =>
    match b.h with
    | none => labelled rs bs r c
    | some h =>
      if c.b0.isSome && b.params.label.isNone then none
      else if (47 : UInt8) ∈ h then none
      else
        let g := host2 r (rs h b.v6) (some b.params) false
        match g.2 with
        | none => none
        | some i => labelled rs bs g.1 { c with b0 := if c.b0.isSome then c.b0 else some i }

/-- The bridging mode, lines 108-154, given internal and external address. -/
def bridge (rs : Resolver) (ieb : Params × Params) (i e : Barg) (r : Reg) : Option (Reg × Cfg) :=
  if ieb.1.adv.isSome && ieb.2.adv.isNone then none
  else if i.params.label.isSome || i.params.adv.isSome then none
  else
    let g := host2 r (rs (i.h.getD []) i.v6) (some ieb.1) false
    match g.2 with
    | none => none
    | some b0 =>
      if e.params.label.isSome || e.params.adv.isSome then none
      else
        let g' := host2 g.1 (rs (e.h.getD []) e.v6) (some ieb.2) false
        match g'.2 with
        | none => none
        | some b1 => some (g'.1, ⟨some b0, some b1, true⟩)

/-- `init_bindaddrs`, rtpp_bindargs.c:73-185, with enough memory; `none` is the return of -1 after a message.  The outcome
`abort` is the failure of the assertion at line 183. -/
def initAddrs (rs : Resolver) (ieb : Params × Params) (bs : List Barg) (r : Reg) : Except Fault (Option (Reg × Cfg)) :=
  let fin (x : Option (Reg × Cfg)) : Except Fault (Option (Reg × Cfg)) :=
    match x with
    | none => .ok none
    | some (r, c) => if c.b0.isSome then .ok (some (r, c)) else .error .abort
  if bs = [] then fin (labelled rs [⟨some [42], ⟨none, none⟩, false⟩] r ⟨none, none, false⟩)
  else
    match (extRound bs none false).bind (fun x => extRound x.1 x.2 true) with
    | none => .ok none
    | some (bs, none) => fin (labelled rs bs r ⟨none, none, false⟩)
    | some (bs, some e) =>
      match (intRound bs none false).bind (fun x => intRound x.1 x.2 true) with
      | none => .ok none
      | some (_, none) => .ok none
      | some (bs, some i) =>
        match bridge rs ieb i e r with
        | none => .ok none
        | some (r, c) => fin (labelled rs bs r c)

end Verif.Bindaddr
