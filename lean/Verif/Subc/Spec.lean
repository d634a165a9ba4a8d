import Verif.Subc.Model

/-!
# What the subcommands ought to do

In terms of the commands and of the results in their replies.
-/

namespace Verif.Subc

/-- `ttl=` and `tos=`. -/
def key : Param → List UInt8
  | .ttl => [116, 116, 108, 61]
  | .tos => [116, 111, 115, 61]

/-- What a command has done according to its reply. -/
inductive Done where
  /-- A parameter was set for a leg. -/
  | set (leg : Bool) (p : Param) (v : Int)
  /-- A leg was looked up, with a new port asked for or not. -/
  | look (leg : Bool) (newPort : Bool)
  deriving DecidableEq, Repr

/-- The subcommands with result 0, up to the first that has another one.  The leg addressed changes with `r` for one
subcommand, and with each `L` for those after it. -/
def did (leg : Bool) : List Sub → List Int → List Done
  | .set x _ _ :: xs, r :: rs => if r = 0 then .set (leg ^^ x.rev) x.param x.val :: did leg xs rs else []
  | .look l :: xs, r :: rs => if r = 0 then .look leg l.newPort :: did (!leg) xs rs else []
  | .other _ :: xs, r :: rs => if r = 0 then did leg xs rs else []
  | _, _ => []

/-- A command and its reply. -/
def Cmd.did : Cmd → Option (List Int) → List Done
  | .ul sidx l xs, some rs => .look sidx l.newPort :: Subc.did (!sidx) xs rs
  | .q idx xs, some rs => Subc.did idx xs rs
  | _, none => []

/-- What an event has done, and its reply if it is a command. -/
def Ev.did (st : St) : Ev → List Done
  | .cmd c => c.did (Subc.cmd st.s c).2
  | _ => []

/-- Everything done by the commands of a history. -/
def done (st : St) : List Ev → List Done
  | [] => []
  | e :: es => e.did st ++ (match step st e with
      | none => []
      | some st' => done st' es)

/-- Everything done by the command that created the session and those after it. -/
def history (c : Conf) (v4a v4b tosOk : Bool) (xs : List Sub) (es : List Ev) : List Done :=
  did true xs (subs (create c v4a v4b tosOk) true xs).2 ++ done (start c v4a v4b tosOk xs) es

/-- The last value a parameter was given for a leg; with a shared timer setting either leg counts for both. -/
def last (p : Param) (both : Bool) (leg : Bool) (dflt : Int) (h : List Done) : Int :=
  h.foldl (fun a x => match x with
    | .set l q v => if q = p ∧ (both = true ∨ l = leg) then v else a
    | .look _ _ => a) dflt

/-- The second leg was looked up, or a new port was asked for: the session counts as complete. -/
def completed (h : List Done) : Bool := h.any fun x => match x with
  | .look l n => l || n
  | .set _ _ _ => false

/-- The system sets every type of service asked for, and all addresses are of the old family. -/
def Look.fine (l : Look) : Prop := l.tosOk = true ∧ l.fam ≠ some false
def Sub.fine : Sub → Prop
  | .set x ok okC => ok = true ∧ okC = true ∧ 0 < x.val
  | .look l => l.fine
  | .other _ => True
def Ev.fine : Ev → Prop
  | .cmd (.ul _ l xs) => l.fine ∧ ∀ x ∈ xs, x.fine
  | .cmd (.q _ xs) => ∀ x ∈ xs, x.fine
  | _ => True

/-- No command is executed while a packet is between its load and its store. -/
def calm (st : St) : List Ev → Prop
  | [] => True
  | e :: es => (∀ c, e = .cmd c → st.pk = []) ∧ (match step st e with
      | none => True
      | some st' => calm st' es)

end Verif.Subc
