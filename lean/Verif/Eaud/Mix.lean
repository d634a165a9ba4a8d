import Verif.Eaud.Decoder
import Mathlib.Logic.Function.Basic

/-!
# Model of the main loop of `extractaudio`

extractaudio.c:432-540 and eaud_substreams.c.  A channel is a number; the memory says what is at it, `none` after `free`.
The two lists of nodes are lists of numbers.  A decoder is anything that can be asked for the next value; the loop of
extractaudio.c:490-492 that asks again after `DECODER_SKIP` is part of it.  A node removed while the list is walked is always
the one the walk is at, so the walk is a recursion over the rest of the list.  Where `channel_insert` puts a channel in the
list of active ones depends on times of arrival: a relation `before`.  Allocations succeed.
-/

namespace Verif.Mix
open Verif.Eaud (Origin)

variable {D : Type}

inductive Got where
  | sample (x : Int)
  | eof
  | error
  deriving DecidableEq, Repr

/-- `struct channel`, session.h:94-102. -/
structure Ch (D : Type) where
  skip : Nat
  origin : Origin
  dec : D

structure Cfg (D : Type) where
  next : D → Except Fault (D × Got)
  /-- the first packet of the one came before that of the other, extractaudio.c:152-153 -/
  before : Nat → Nat → Bool
  nosync : Bool
  stereo : Bool

/-- The variables of `main`; `file` is what was given to `sf_write_short`. -/
structure St (D : Type) where
  heap : Nat → Option (Ch D)
  all : List Nat
  act : List Nat
  /-- `ap` is `&act_subset` -/
  apAct : Option Bool
  isample : Int
  sync : Int
  nch : Int
  obuf : List Int
  file : List Int
  nas : Nat
  nbs : Nat
  nws : Nat

/-- `channel_insert`, extractaudio.c:140-160: from the end of the list, after the first that is before. -/
def insertCh (before : Nat → Nat → Bool) (i : Nat) (l : List Nat) : List Nat :=
  ((l.reverse.dropWhile fun j => !before j i).reverse) ++ i :: ((l.reverse.takeWhile fun j => !before j i).reverse)

/-- `eaud_ss_syncactive`, eaud_substreams.c:47-77. -/
def syncActive (c : Cfg D) (heap : Nat → Option (Ch D)) (csample : Int) : List Nat → List Nat → Int → Except Fault (List Nat × Int)
  | [], act, m => .ok (act, m)
  | i :: all, act, m =>
    match heap i with
    | none => .error .ub
    | some ch =>
      if csample < ch.skip then
        syncActive c heap csample all act (if m < 0 then ch.skip else if (ch.skip : Int) < m then ch.skip else m)
      else if i ∈ act then syncActive c heap csample all act m
      else syncActive c heap csample all (insertCh c.before i act) m

/-- The variables of one round. -/
structure Acc where
  a : Int := 0
  b : Int := 0
  seenA : Bool := false
  seenB : Bool := false
  neof : Int := 0

/-- extractaudio.c:514-532. -/
def addSample (o : Origin) (x : Int) (m : Acc) : Acc :=
  match o with
  | .a => if m.seenA then { m with a := (m.a + x).tdiv 2 } else { m with a := m.a + x, seenA := true }
  | .b => if m.seenB then { m with b := (m.b + x).tdiv 2 } else { m with b := m.b + x, seenB := true }

/-- Is the channel passed over?  extractaudio.c:482-491. -/
def passed (c : Cfg D) (isample : Int) (ch : Ch D) (m : Acc) : Bool :=
  if c.nosync then
    match ch.origin with
    | .a => m.seenA
    | .b => m.seenB
  else isample < ch.skip

def St.count (s : St D) : Origin → St D
  | .a => { s with nas := s.nas + 1 }
  | .b => { s with nbs := s.nbs + 1 }

/-- The walk of extractaudio.c:480-533. -/
def walk (c : Cfg D) : List Nat → St D → Acc → Except Fault (St D × Acc)
  | [], s, m => .ok (s, m)
  | i :: rest, s, m =>
    match s.heap i with
    | none => .error .ub
    | some ch =>
      if passed c s.isample ch m then walk c rest s m
      else
        match c.next ch.dec with
        | .error f => .error f
        | .ok (_, .eof) =>
          if ¬ i ∈ s.all then .error .abort
          else if s.apAct = some true then
            walk c rest { s with heap := Function.update s.heap i none, all := s.all.erase i, act := s.act.erase i, nch := s.nch - 1 } m
          else .error .ub -- `MYQ_NEXT(cnp)`: the node has been freed
        | .ok (d, .error) => walk c rest { s with heap := Function.update s.heap i (some { ch with dec := d }) } { m with neof := m.neof + 1 }
        | .ok (d, .sample x) =>
          walk c rest ({ s with heap := Function.update s.heap i (some { ch with dec := d }) }.count ch.origin) (addSample ch.origin x m)

/-- The samples of a round, extractaudio.c:535-546; storing in an `int16_t` keeps sixteen bits. -/
def toS16 (x : Int) : Int := (x + 32768) % 65536 - 32768

def frame (stereo : Bool) (a b : Int) : List Int := if stereo then [toS16 a, toS16 b] else [toS16 ((a + b).tdiv 2)]

/-- extractaudio.c:534-555. -/
def output (c : Cfg D) (s : St D) (m : Acc) : Except Fault (St D) :=
  let buf := if m.neof < s.nch then s.obuf ++ frame c.stereo m.a m.b else s.obuf
  if 1024 < buf.length then .error .ub
  else if m.neof = s.nch ∨ buf.length = 1024 then .ok { s with obuf := [], file := s.file ++ buf, nws := s.nws + buf.length / 2 }
  else .ok { s with obuf := buf }

/-- Up to the walk, extractaudio.c:469-479. -/
def start (c : Cfg D) (s : St D) : Except Fault (St D) :=
  let s := { s with isample := s.isample + 1 }
  if c.nosync then .ok { s with apAct := some false }
  else if s.sync = s.isample then
    match syncActive c s.heap s.isample s.all s.act (-1) with
    | .error f => .error f
    | .ok (act, n) => .ok { s with act := act, sync := n, apAct := some true }
  else .ok s

/-- One round; the second component is whether there is another. -/
def turn (c : Cfg D) (s : St D) : Except Fault (St D × Bool) :=
  match start c s with
  | .error f => .error f
  | .ok s =>
    match s.apAct with
    | none => .error .ub
    | some w =>
      match walk c (if w then s.act else s.all) s {} with
      | .error f => .error f
      | .ok (s, m) =>
        match output c s m with
        | .error f => .error f
        | .ok s => .ok (s, decide (m.neof < s.nch))

/-- The loop, for some number of rounds; `none` if it has not ended by then. -/
def loop (c : Cfg D) : Nat → St D → Except Fault (Option (St D))
  | 0, _ => .ok none
  | n + 1, s =>
    match turn c s with
    | .error f => .error f
    | .ok (s, true) => loop c n s
    | .ok (s, false) => .ok (some s)

/-- Before the loop: extractaudio.c:242-280, 432-466. -/
def St.init (chs : List (Ch D)) : St D :=
  ⟨fun i => chs[i]?, List.range chs.length, [], none, -1, 0, chs.length, [], [], 0, 0, 0⟩

end Verif.Mix
