import Verif.Ctl.Model

/-! # What control sockets ought to be -/

namespace Verif.Ctl

def str (s : String) : Bytes := s.toList.map fun c => UInt8.ofNat c.toNat

/-- What `-s` takes, rtpproxy(8): the word, the kind of socket, and whether the program ends when it is closed. -/
def table : List (Bytes × Kind × Bool) := [
  (str "unix:", .ifsun, false), (str "cunix:", .ifsunC, false),
  (str "udp:", .udp4, false), (str "udp6:", .udp6, false),
  (str "tcp:", .tcp4, false), (str "tcp6:", .tcp6, false),
  (str "systemd:", .sysd, false), (str "stdio:", .stdio, false), (str "stdioc:", .stdio, true)]

/-- The name of a local socket. -/
def Local (s : Csock) : Prop := s.kind = .ifsun ∨ s.kind = .ifsunC

/-- `q` is what the name means in the directory `d`. -/
def Means (d name q : Bytes) : Prop :=
  if name.head? = some 47 then q = name else q = d ++ [47] ++ name

/-- One of the control sockets is the file `q`. -/
def Uses (c : Cfg) (q : Bytes) : Prop := ∃ s ∈ c.names, Local s ∧ Means c.cwd s.name q

/-- The owner asked for. -/
def wantUid (c : Cfg) : Nat := if c.uname ∨ c.gname then c.uid.getD c.euid else c.euid
def wantGid (c : Cfg) : Nat := if c.uname ∨ c.gname then c.gid.getD c.egid else c.egid

/-- The mode asked for: it counts if there is a group. -/
def wantMode (c : Cfg) : Nat := if c.gname ∧ c.sockMode ≠ 0 then c.sockMode else 0o777 - c.umask

/-- A file as asked for by the instance that made it. -/
def Settled (c : Cfg) (n : Node) : Prop := n.uid = wantUid c ∧ n.gid = wantGid c ∧ n.mode = wantMode c

/-- Connecting to `q` leads to instance `n.inst`. -/
def Open (s : St) (q : Bytes) (n : Node) : Prop := s.fs q = some n ∧ n.listening = true ∧ live (s.pr n.inst) = true

/-- The calls that are made in a run, successful or not. -/
def acts (cf : Nat → Cfg) : St → List Ev → List (Nat × Op)
  | _, [] => []
  | s, e :: es => match step cf s e with
    | none => []
    | some s' => (match e with
      | .call i _ => match todo (s.pr i) with
        | some (o :: _) => [(i, o)]
        | _ => []
      | _ => []) ++ acts cf s' es

/-- No other instance than `i` makes a call on `q`. -/
def Alone (cf : Nat → Cfg) (s : St) (es : List Ev) (i : Nat) (q : Bytes) : Prop :=
  ∀ a ∈ acts cf s es, a.1 ≠ i → a.2.path ≠ some q

end Verif.Ctl
