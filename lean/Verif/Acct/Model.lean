import Verif.Acct.Row

/-!
# Model of the writing of the accounting file (`modules/acct_csv/rtpp_acct_csv.c`)

Any number of processes write to the file with the same name.  Each has the module once, with one thread that calls it,
and other threads that open and close descriptors of their own.  Others may remove the file, rename it and bring it back,
make a new one, or empty it.  Each system call is a step; its outcome is part of the event.

Simplifications: files are told apart by a number that is never given out twice, in place of the device and the inode; a
call interrupted by a signal is made again at once; the row is given as its bytes (see Row for how it is made), and not
getting the memory for it is a failed `write`.  Closing, locking or writing to a descriptor of another thread is the
fault `ub`.
-/

namespace Verif.Acct

/-- What a descriptor refers to. -/
inductive Obj where
  /-- the file with this number, opened by the module, and the offset -/
  | csv (ino off : Nat)
  /-- something that another thread has opened -/
  | other
  deriving DecidableEq, Repr

/-- Where the thread of the module is.  Within `rtpp_acct_csv_open` it is told whether the constructor (`none`) or
`rtpp_acct_csv_do` with a row has called it. -/
inductive Pc where
  | off
  | dead
  | idle
  | stat (w : List UInt8)
  | close (k : Option (List UInt8))
  | open (k : Option (List UInt8))
  | olock (k : Option (List UInt8))
  | ofstat (k : Option (List UInt8)) (pos : Int)
  | head (k : Option (List UInt8)) (pos : Int)
  | ounlock (k : Option (List UInt8)) (pos : Int) (good : Bool)
  | lock (w : List UInt8)
  | write (w : List UInt8) (pos : Int)
  | unlock (pos : Int)
  deriving DecidableEq, Repr

/-- A process: `struct rtpp_module_priv`, rtpp_acct_csv.c:74-85, and the table of descriptors. -/
structure Proc where
  fd : Option Nat
  stt : Option Nat
  tbl : Nat → Option Obj
  pc : Pc

/-- A lock on the bytes from `s` on, up to `e` if there is an end. -/
structure Lk where
  ino : Nat
  pid : Nat
  s : Nat
  e : Option Nat
  deriving DecidableEq, Repr

structure St where
  files : List (List UInt8)
  name : Option Nat
  locks : List Lk
  procs : Nat → Proc

/-- The result of `write`. -/
inductive Wr where
  | whole
  /-- only this many bytes -/
  | part (n : Nat)
  | fail
  deriving DecidableEq, Repr

inductive Ev where
  | ctor (p : Nat)
  | begin (p : Nat) (w : List UInt8)
  /-- `false`: an error other than `ENOENT` -/
  | stat (p : Nat) (ok : Bool)
  | close (p : Nat)
  /-- the number given out, or none -/
  | open (p : Nat) (r : Option Nat)
  | olock (p : Nat) (ok : Bool)
  | ofstat (p : Nat) (ok : Bool)
  | head (p : Nat) (r : Wr)
  | ounlock (p : Nat)
  | lock (p : Nat) (ok : Bool)
  | write (p : Nat) (r : Wr)
  | unlock (p : Nat)
  | dtor (p : Nat)
  /-- the process ends, by a crash maybe -/
  | die (p : Nat)
  /-- another thread opens or closes a descriptor -/
  | fopen (p n : Nat)
  | fclose (p n : Nat)
  | unlink
  | mkfile
  | relink (i : Nat)
  | trunc (i : Nat)
  deriving DecidableEq, Repr

def St.setP (s : St) (p : Nat) (q : Proc) : St := { s with procs := fun x => if x = p then q else s.procs x }

def Proc.goto (q : Proc) (pc : Pc) : Proc := { q with pc := pc }

def Proc.bind (q : Proc) (n : Nat) (o : Option Obj) : Proc := { q with tbl := fun x => if x = n then o else q.tbl x }

/-- An `off_t` stored into an `int`. -/
def toInt (n : Nat) : Int := ((n + 2 ^ 31) % 2 ^ 32 : Nat) - 2 ^ 31

/-- Another process has a lock on a byte from `o` on. -/
def St.busy (s : St) (p i o : Nat) : Bool :=
  s.locks.any fun l => decide (l.ino = i ∧ l.pid ≠ p) && match l.e with
    | none => true
    | some e => decide (o < e)

/-- `F_UNLCK` of the bytes from `u` on. -/
def unlk (p i u : Nat) (l : Lk) : Option Lk :=
  if l.ino = i ∧ l.pid = p then
    if l.s < u then some { l with e := some (match l.e with | none => u | some e => min e u) } else none
  else some l

/-- `close`: all locks of the process on the file go. -/
def St.closeFd (s : St) (p n : Nat) : Except Fault St :=
  match (s.procs p).tbl n with
  | none => .ok s
  | some .other => .error .ub
  | some (.csv i _) =>
    .ok { s.setP p ((s.procs p).bind n none) with locks := s.locks.filter fun l => !decide (l.ino = i ∧ l.pid = p) }

/-- The descriptor of the module, with the file and the offset, if it is one. -/
def Proc.file (q : Proc) : Except Fault (Option (Nat × Nat × Nat)) :=
  match q.fd with
  | none => .ok none
  | some n => match q.tbl n with
    | none => .ok none
    | some .other => .error .ub
    | some (.csv i o) => .ok (some (n, i, o))

/-- Where `rtpp_acct_csv_open` returns to with an error: the constructor fails, `rtpp_acct_csv_do` returns. -/
def failTo : Option (List UInt8) → Pc
  | none => .dead
  | some _ => .idle

/-- Where it returns to otherwise. -/
def goodTo : Option (List UInt8) → Pc
  | none => .idle
  | some w => .lock w

/-- `write` with `O_APPEND`. -/
def St.append (s : St) (p n i : Nat) (w : List UInt8) : St :=
  let d := s.files.getD i []
  { s.setP p ((s.procs p).bind n (some (.csv i (d.length + w.length)))) with files := s.files.set i (d ++ w) }

def St.to (s : St) (p : Nat) (pc : Pc) : St := s.setP p ((s.procs p).goto pc)

/-- The end of `rtpp_acct_csv_open` at `e1`, rtpp_acct_csv.c:239-244: the descriptor is closed, `pvt->fd` is not
changed. -/
def St.e1 (s : St) (p : Nat) (k : Option (List UInt8)) : Except Fault St :=
  match (s.procs p).fd with
  | none => .ok (s.to p (failTo k))
  | some n => match s.closeFd p n with
    | .error e => .error e
    | .ok s' => .ok (s'.to p (failTo k))

/-- `close(pvt->fd)`, rtpp_acct_csv.c:210-212. -/
def doClose (s : St) (p : Nat) (k : Option (List UInt8)) : Except Fault St :=
  match (s.procs p).fd with
  | none => .ok (s.to p (.open k))
  | some n => match s.closeFd p n with
    | .error e => .error e
    | .ok s' => .ok (s'.to p (.open k))

/-- `open` with `O_CREAT`, rtpp_acct_csv.c:213-218. -/
def doOpen (s : St) (p : Nat) (k : Option (List UInt8)) : Option Nat → Option St
  | none => some (s.setP p { (s.procs p) with fd := none, pc := failTo k })
  | some n =>
    if (s.procs p).tbl n = none then
      match s.name with
      | some i => some (s.setP p { ((s.procs p).bind n (some (.csv i 0))) with fd := some n, pc := .olock k })
      | none =>
        some { s.setP p { ((s.procs p).bind n (some (.csv s.files.length 0))) with fd := some n, pc := .olock k } with
               files := s.files ++ [[]], name := some s.files.length }
    else none

/-- `rtpp_acct_csv_lockf` in `rtpp_acct_csv_open`, rtpp_acct_csv.c:219-223 and 393-409. -/
def doOlock (s : St) (p : Nat) (k : Option (List UInt8)) (ok : Bool) : Option (Except Fault St) :=
  match (s.procs p).file with
  | .error e => some (.error e)
  | .ok none => some (s.e1 p k)
  | .ok (some (_, i, o)) =>
    if ok then
      if s.busy p i o then none
      else
        let s1 : St := { s with locks := s.locks ++ [⟨i, p, o, none⟩] }
        if toInt o < 0 then some (s1.e1 p k) else some (.ok (s1.to p (.ofstat k (toInt o))))
    else some (s.e1 p k)

/-- `fstat`, rtpp_acct_csv.c:224-229.  On an error the lock is removed and the descriptor closed, which removes it as
well. -/
def doOfstat (s : St) (p : Nat) (k : Option (List UInt8)) (pos : Int) (ok : Bool) : Except Fault St :=
  match (s.procs p).file with
  | .error e => .error e
  | .ok none => s.e1 p k
  | .ok (some (_, i, _)) =>
    if ok then
      .ok (s.setP p { (s.procs p) with stt := some i,
                                       pc := if s.files.getD i [] = [] then .head k pos else .ounlock k pos true })
    else s.e1 p k

/-- The names are written, rtpp_acct_csv.c:229-237.  Nothing written at all is taken for success. -/
def doHead (s : St) (p : Nat) (k : Option (List UInt8)) (pos : Int) (r : Wr) : Option (Except Fault St) :=
  match (s.procs p).file with
  | .error e => some (.error e)
  | .ok none => some (.ok (s.to p (.ounlock k pos false)))
  | .ok (some (n, i, _)) => match r with
    | .whole => some (.ok ((s.append p n i Acct.head).to p (.ounlock k pos true)))
    | .part m =>
      if m < Acct.head.length then
        some (.ok ((s.append p n i (Acct.head.take m)).to p (.ounlock k pos (decide (m = 0)))))
      else none
    | .fail => some (.ok (s.to p (.ounlock k pos false)))

/-- `rtpp_acct_csv_unlockf`, rtpp_acct_csv.c:411-424. -/
def unlockf (s : St) (p : Nat) (pos : Int) : Except Fault St :=
  match (s.procs p).file with
  | .error e => .error e
  | .ok none => .ok s
  | .ok (some (_, i, _)) => .ok { s with locks := s.locks.filterMap (unlk p i pos.toNat) }

/-- `rtpp_acct_csv_lockf` in `rtpp_acct_csv_do`, rtpp_acct_csv.c:346-349.  The lock is not removed if the offset, as an
`int`, is negative. -/
def doLock (s : St) (p : Nat) (w : List UInt8) (ok : Bool) : Option (Except Fault St) :=
  match (s.procs p).file with
  | .error e => some (.error e)
  | .ok none => some (.ok (s.to p .idle))
  | .ok (some (_, i, o)) =>
    if ok then
      if s.busy p i o then none
      else
        let s1 : St := { s with locks := s.locks ++ [⟨i, p, o, none⟩] }
        if toInt o < 0 then some (.ok (s1.to p .idle)) else some (.ok (s1.to p (.write w (toInt o))))
    else some (.ok (s.to p .idle))

/-- The row is written, rtpp_acct_csv.c:351-388.  The result is not looked at. -/
def doWrite (s : St) (p : Nat) (w : List UInt8) (pos : Int) (r : Wr) : Option (Except Fault St) :=
  match (s.procs p).file with
  | .error e => some (.error e)
  | .ok none => some (.ok (s.to p (.unlock pos)))
  | .ok (some (n, i, _)) => match r with
    | .whole => some (.ok ((s.append p n i w).to p (.unlock pos)))
    | .part m => if m < w.length then some (.ok ((s.append p n i (w.take m)).to p (.unlock pos))) else none
    | .fail => some (.ok (s.to p (.unlock pos)))

/-- `rtpp_acct_csv_dtor`, rtpp_acct_csv.c:285-293. -/
def doDtor (s : St) (p : Nat) : Except Fault St :=
  match (s.procs p).fd with
  | none => .ok (s.to p .dead)
  | some n => match s.closeFd p n with
    | .error e => .error e
    | .ok s' => .ok (s'.to p .dead)

/-- One step; `none` if it is not possible now. -/
def step (s : St) : Ev → Option (Except Fault St)
  | .ctor p => match (s.procs p).pc with
    | .off => some (.ok (s.to p (.close none)))
    | _ => none
  | .begin p w => match (s.procs p).pc with
    | .idle => some (.ok (s.to p (.stat w)))
    | _ => none
  | .stat p ok => match (s.procs p).pc with
    -- rtpp_acct_csv.c:336-345
    | .stat w =>
      if ok then
        if s.name ≠ none ∧ s.name = (s.procs p).stt then some (.ok (s.to p (.lock w)))
        else some (.ok (s.to p (.close (some w))))
      else some (.ok (s.to p (.lock w)))
    | _ => none
  | .close p => match (s.procs p).pc with
    | .close k => some (doClose s p k)
    | _ => none
  | .open p r => match (s.procs p).pc with
    | .open k => (doOpen s p k r).map .ok
    | _ => none
  | .olock p ok => match (s.procs p).pc with
    | .olock k => doOlock s p k ok
    | _ => none
  | .ofstat p ok => match (s.procs p).pc with
    | .ofstat k pos => some (doOfstat s p k pos ok)
    | _ => none
  | .head p r => match (s.procs p).pc with
    | .head k pos => doHead s p k pos r
    | _ => none
  | .ounlock p => match (s.procs p).pc with
    | .ounlock k pos good => some ((unlockf s p pos).map fun s' => s'.to p (if good then goodTo k else failTo k))
    | _ => none
  | .lock p ok => match (s.procs p).pc with
    | .lock w => doLock s p w ok
    | _ => none
  | .write p r => match (s.procs p).pc with
    | .write w pos => doWrite s p w pos r
    | _ => none
  | .unlock p => match (s.procs p).pc with
    | .unlock pos => some ((unlockf s p pos).map fun s' => s'.to p .idle)
    | _ => none
  | .dtor p => match (s.procs p).pc with
    | .idle => some (doDtor s p)
    | _ => none
  | .die p =>
    some (.ok { s.setP p ⟨none, none, fun _ => none, .dead⟩ with locks := s.locks.filter fun l => !decide (l.pid = p) })
  | .fopen p n => if (s.procs p).tbl n = none then some (.ok (s.setP p ((s.procs p).bind n (some .other)))) else none
  | .fclose p n =>
    if (s.procs p).tbl n = some .other then some (.ok (s.setP p ((s.procs p).bind n none))) else none
  | .unlink => some (.ok { s with name := none })
  | .mkfile => some (.ok { s with files := s.files ++ [[]], name := some s.files.length })
  | .relink i => if i < s.files.length then some (.ok { s with name := some i }) else none
  | .trunc i => if i < s.files.length then some (.ok { s with files := s.files.set i [] }) else none

def run (s : St) : List Ev → Option (Except Fault St)
  | [] => some (.ok s)
  | e :: es => match step s e with
    | none => none
    | some (.error f) => some (.error f)
    | some (.ok s') => run s' es

/-- No process has the module yet, and there is no file. -/
def init : St := ⟨[], none, [], fun _ => ⟨none, none, fun _ => none, .off⟩⟩

end Verif.Acct
