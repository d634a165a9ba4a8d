import Verif.Basic
import Verif.Str.Num

/-!
# Model of the set of notification targets (src/rtpp_tnotify_set.c)

A target is what a timeout notification is sent to.  Names are given at start (option `-n`,
main.c:673-679), and a command selects a target by its name (rpcpv1_ul.c:889-906).  The name
`tcp:%%CC_SELF%%:port` stands for the host the command came from.

The set only grows; a target is identified by its position in the array (in C: by the pointer, which
stays the same).  `getaddrinfo` is the parameter `res`: the IPv4 address of a host name, if any.  The
answers of the allocator are inputs.  Strings are lists of bytes without the NUL.  Writing the port
number into a buffer and reading it back (lines 162, 219) is left out.  What is leaked when a name is refused
after it was copied (lines 272-298) is not modelled.
-/

namespace Verif.Tset

abbrev Bytes := List UInt8

/-- `"unix:"` -/
def unixP : Bytes := [117, 110, 105, 120, 58]
/-- `"tcp:"` -/
def tcpP : Bytes := [116, 99, 112, 58]
/-- `"fd:"` -/
def fdP : Bytes := [102, 100, 58]
/-- `CC_SELF_STR`, rtpp_tnotify_set.c:62 -/
def selfN : Bytes := [37, 37, 67, 67, 95, 83, 69, 76, 70, 37, 37]

/-- A `struct sockaddr`, with the host as a number. -/
inductive Sa where
  | inet (host port : Nat)
  | inet6 (host port : Nat)
  | unix (path : Bytes)
  deriving DecidableEq, Repr

/-- `socket_type` with `remote` or `fd` (rtpp_tnotify_tgt.h:46-54). -/
inductive Dest where
  | unix (path : Bytes)
  | inet (host port : Nat)
  | fd (n : Int)
  deriving DecidableEq, Repr

/-- `struct rtpp_tnotify_target`, rtpp_tnotify_tgt.h:46-54.  `name = none` marks an automatic one. -/
structure Target where
  name : Option Bytes
  dest : Dest
  src : Option Sa
  deriving DecidableEq, Repr

/-- `struct rtpp_tnotify_wildcard`, rtpp_tnotify_set.c:64-68 (the type is always `INET`). -/
structure Wild where
  name : Bytes
  port : Nat
  deriving DecidableEq, Repr

structure St where
  tps : List Target := []
  wps : List Wild := []
  deriving DecidableEq, Repr

/-- `strrchr(s, c)`: what is before and what is after the last `c`. -/
def rsplit (c : UInt8) : Bytes → Option (Bytes × Bytes)
  | [] => none
  | a :: l =>
    match rsplit c l with
    | some (p, q) => some (a :: p, q)
    | none => if a = c then some ([], l) else none

/-- `atoi`: `(int)strtol(s, NULL, 10)` as in glibc. -/
def atoi (s : Bytes) : Int := Str.toInt (Str.strtol s).val

/-- `parse_hostport`, rtpp_tnotify_set.c:134-164, with `testonly == 0`, `hsize == 512`, `psize == 10`. -/
def parseHostport (hp : Bytes) : Option (Bytes × Nat) :=
  match rsplit 58 hp with
  | none => none
  | some (h, p) =>
    if p = [] ∨ h = [] then none
    else if atoi p ≤ 0 ∨ atoi p > 65535 then none
    else if h.length + 1 > 512 then none
    else some (h, (atoi p).toNat)

inductive Parsed where
  | bad
  | target (name : Bytes) (d : Dest)
  | wild (name : Bytes) (port : Nat)
  deriving DecidableEq, Repr

/-- `parse_timeout_sock`, rtpp_tnotify_set.c:167-251, up to the copy of the name.  `lib` is
`rtpp_is_lib`.  `sun_path` has 108 bytes (Linux). -/
def parse (lib : Bool) (res : Bytes → Option Nat) (s : Bytes) : Parsed :=
  if unixP.isPrefixOf s then
    if (s.drop 5).length = 0 then .bad else .target s (.unix ((s.drop 5).take 107))
  else if tcpP.isPrefixOf s then
    match parseHostport (s.drop 4) with
    | none => .bad
    | some (h, p) =>
      if h = selfN then .wild s p
      else
        match res h with
        | none => .bad
        | some a => .target s (.inet a p)
  else if lib ∧ fdP.isPrefixOf s then
    match Str.atoiSafe (s.drop 3) with
    | .ok n => if n < 0 then .bad else .target s (.fd n)
    | _ => .bad
  else if s.length = 0 then .bad
  else .target (unixP ++ s) (.unix (s.take 107))

/-- `rtpp_tnotify_set_append`, rtpp_tnotify_set.c:253-314.  `m1`: there is memory for the name (238), `m2`: for
the entry (276, 295).  Whether it succeeded, and the set. -/
def append (lib : Bool) (res : Bytes → Option Nat) (m1 m2 : Bool) (s : Bytes) (t : St) : St × Bool :=
  match parse lib res s with
  | .bad => (t, false)
  | .target n d =>
    if !m1 then (t, false)
    else if t.tps.length = 64 then (t, false)
    else if !m2 then (t, false)
    else ({ t with tps := t.tps ++ [⟨some n, d, none⟩] }, true)
  | .wild n p =>
    if !m1 then (t, false)
    else if t.wps.length = 2 then (t, false)
    else if !m2 then (t, false)
    else ({ t with wps := t.wps ++ [⟨n, p⟩] }, true)

/-- First loop of `rtpp_tnotify_set_lookup`, rtpp_tnotify_set.c:385-391. -/
def findName (n : Bytes) : List Target → Nat → Option Nat
  | [], _ => none
  | tp :: l, i =>
    match tp.name with
    | none => findName n l (i + 1)
    | some m => if m = n then some i else findName n l (i + 1)

/-- Second loop, rtpp_tnotify_set.c:398-405: names of local sockets without their prefix.  Reading
`socket_name + 5` of a shorter name is a fault. -/
def findBare (n : Bytes) : List Target → Nat → Except Fault (Option Nat)
  | [], _ => .ok none
  | tp :: l, i =>
    match tp.name with
    | none => findBare n l (i + 1)
    | some m =>
      match tp.dest with
      | .unix _ =>
        if m.length < 5 then .error .ub
        else if m.drop 5 = n then .ok (some i)
        else findBare n l (i + 1)
      | _ => findBare n l (i + 1)

/-- Loop of `get_tp4wp`, rtpp_tnotify_set.c:331-345: an automatic target of the host and port.  `remote` of a target of type
`INET` is an IPv4 address, so that `ishostseq` compares the hosts. -/
def findAuto (host port : Nat) : List Target → Nat → Option Nat
  | [], _ => none
  | tp :: l, i =>
    match tp.name with
    | some _ => findAuto host port l (i + 1)
    | none =>
      match tp.dest with
      | .inet h p =>
        if h ≠ host then findAuto host port l (i + 1)
        else if p ≠ port then findAuto host port l (i + 1)
        else some i
      | _ => findAuto host port l (i + 1)

/-- 127.0.0.1 -/
def loopback : Nat := 2130706433

/-- `ccaddr` after rtpp_tnotify_set.c:324-330: the host of an IPv4 address, else the local one. -/
def ccHost : Option Sa → Nat
  | some (.inet h _) => h
  | _ => loopback

/-- `get_tp4wp`, rtpp_tnotify_set.c:316-373.  `m1`: there is memory for the target (351), `m2`: for the
local address (356).  `setport` asserts that the port is valid. -/
def getTp4wp (w : Wild) (cc la : Option Sa) (m1 m2 : Bool) (t : St) : Except Fault (St × Option Nat) :=
  match findAuto (ccHost cc) w.port t.tps 0 with
  | some i => .ok (t, some i)
  | none =>
    if t.tps.length = 64 then .ok (t, none)
    else if !m1 then .ok (t, none)
    else
      let add (src : Option Sa) : Except Fault (St × Option Nat) :=
        if w.port < 1 ∨ w.port > 65535 then .error .abort
        else .ok ({ t with tps := t.tps ++ [⟨none, .inet (ccHost cc) w.port, src⟩] }, some t.tps.length)
      match la with
      | some (.inet h _) => if !m2 then .ok (t, none) else add (some (.inet h 0))
      | _ => add none

/-- Third loop, rtpp_tnotify_set.c:412-419: a wildcard of that name whose family is that of the
controller's address (if there is one). -/
def findWildFam (n : Bytes) (cc : Option Sa) : List Wild → Option Wild
  | [] => none
  | w :: l =>
    if w.name ≠ n then findWildFam n cc l
    else
      match cc with
      | none => some w
      | some (.inet _ _) => some w
      | some _ => findWildFam n cc l

/-- Fourth loop, rtpp_tnotify_set.c:420-425. -/
def findWild (n : Bytes) : List Wild → Option Wild
  | [] => none
  | w :: l => if w.name ≠ n then findWild n l else some w

/-- `rtpp_tnotify_set_lookup`, rtpp_tnotify_set.c:375-427. -/
def lookup (n : Bytes) (cc la : Option Sa) (m1 m2 : Bool) (t : St) : Except Fault (St × Option Nat) :=
  match findName n t.tps 0 with
  | some i => .ok (t, some i)
  | none =>
    if n.contains 58 = false then
      match findBare n t.tps 0 with
      | .error f => .error f
      | .ok r => .ok (t, r)
    else if fdP.isPrefixOf n then .ok (t, none)
    else
      match findWildFam n cc t.wps with
      | some w => getTp4wp w cc la m1 m2 t
      | none =>
        match findWild n t.wps with
        | some w => getTp4wp w cc la m1 m2 t
        | none => .ok (t, none)

/-- `rtpp_tnotify_set_isenabled`, rtpp_tnotify_set.c:429-436. -/
def isEnabled (t : St) : Bool := t.wps.length > 0 ∨ t.tps.length > 0

/-! ### Histories -/

inductive Ev where
  /-- an option `-n` -/
  | conf (s : Bytes) (m1 m2 : Bool)
  /-- a command that names a target -/
  | ask (n : Bytes) (cc la : Option Sa) (m1 m2 : Bool)
  deriving DecidableEq, Repr

inductive Ans where
  | took (ok : Bool)
  | found (h : Option Nat)
  deriving DecidableEq, Repr

def step (lib : Bool) (res : Bytes → Option Nat) (t : St) : Ev → Except Fault (St × Ans)
  | .conf s m1 m2 => .ok ((append lib res m1 m2 s t).1, .took (append lib res m1 m2 s t).2)
  | .ask n cc la m1 m2 =>
    match lookup n cc la m1 m2 t with
    | .error f => .error f
    | .ok (t', h) => .ok (t', .found h)

def run (lib : Bool) (res : Bytes → Option Nat) (t : St) : List Ev → Except Fault (St × List Ans)
  | [] => .ok (t, [])
  | e :: es =>
    match step lib res t e with
    | .error f => .error f
    | .ok (t', a) =>
      match run lib res t' es with
      | .error f => .error f
      | .ok (t'', as) => .ok (t'', a :: as)

end Verif.Tset
