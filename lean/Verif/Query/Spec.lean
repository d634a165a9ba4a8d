import Verif.Query.Model
import Verif.Cmd.ReplyProps
import Verif.Stats.Spec

/-!
# What `Q` ought to show

Functions of what happened to the session.
-/

namespace Verif.Query

open Verif.Stats (label spaced)
open Verif.Cmd (Rep)

variable {J : Type}

/-- The times at which packets were received for a stream. -/
def times (leg : Bool) (h : List Ev) : List Rat := h.filterMap fun e => match e with
  | .rcv l t => if l = leg then some t else none
  | _ => none

/-- The packets of a stream that were analysed. -/
def pkts (leg : Bool) (h : List Ev) : List (Option Analyze.Pkt) := h.filterMap fun e => match e with
  | .ana l p => if l = leg then some p else none
  | _ => none

def relays (h : List Ev) : Nat := h.countP fun e => match e with
  | .relay => true
  | _ => false

def drops (h : List Ev) : Nat := h.countP fun e => match e with
  | .drop => true
  | _ => false

/-- The value a timer was last given. -/
def timer (leg : Bool) (v0 : Int) (h : List Ev) : Int := h.foldl (fun a e => match e with
  | .timer l v => if l = leg then v else a
  | _ => a) v0

/-- The longest time between a packet and the next, zero if there are not two. -/
def longest : List Rat → Rat
  | t :: t' :: ts => max (t' - t) (longest (t' :: ts))
  | _ => 0

/-- The clock was past zero when the first packet came, and has not gone back. -/
def Sane (ts : List Rat) : Prop := ts.Pairwise (· ≤ ·) ∧ ∀ t ∈ ts, 0 < t

/-- What the analysis of these packets reports (C11). -/
def Reports (fl : Analyze.Fl J) (ps : List (Option Analyze.Pkt)) (r : Analyze.Report) : Prop :=
  ∃ a, Analyze.run fl (.init fl) ps = .ok a ∧ r = Analyze.report a

/-- The counters by name. -/
def table : List (List UInt8 × Nm) := [
  (str "ttl", .ttl), (str "npkts_ina", .ina), (str "npkts_ino", .ino), (str "longest_ipi", .ipi), (str "rtpa_jlast", .jlast),
  (str "rtpa_jmax", .jmax), (str "rtpa_javg", .javg), (str "nrelayed", .rel), (str "ndropped", .drp), (str "rtpa_nsent", .sent),
  (str "rtpa_nrcvd", .rcvd), (str "rtpa_ndups", .dups), (str "rtpa_nlost", .lost), (str "rtpa_perrs", .perrs)]

/-- The moments at which a command looked at the counters: how much had happened.  Those of the analyzer are looked at in
nine steps. -/
structure Mo where
  ina : Nat
  ino : Nat
  rel : Nat
  drp : Nat
  jit : Nat
  rst : Nat → Nat

/-- The moments belong to the command: each is one of the `at k`. -/
def Mo.within (at_ : Nat → Nat) (z : Mo) : Prop :=
  (∃ k, z.ina = at_ k) ∧ (∃ k, z.ino = at_ k) ∧ (∃ k, z.rel = at_ k) ∧ (∃ k, z.drp = at_ k) ∧ (∃ k, z.jit = at_ k) ∧
  ∃ k, ∀ i, z.rst i = at_ (k + i)

/-- No packet of the stream was analysed while the analyzer was being looked at. -/
def Mo.quiet (leg : Bool) (h : List Ev) (z : Mo) : Prop := pkts leg (h.take (z.rst 0)) = pkts leg (h.take (z.rst 8))

/-- The text `w` shows the counter `n` of stream `idx` after as much of `h` as the moments say. -/
def Shows (fl : Analyze.Fl J) (fm : Fmt J) (idx : Bool) (h : List Ev) (z : Mo) : Nm → List UInt8 → Prop
  | .ttl, _ => True
  | .ina, w => w = Dec.dec ((times idx (h.take z.ina)).length % 2 ^ 64)
  | .ino, w => w = Dec.dec ((times (!idx) (h.take z.ino)).length % 2 ^ 64)
  | .ipi, w => Sane (times idx (h.take z.ina)) → w = fm.f (longest (times idx (h.take z.ina)))
  | .jlast, w => ∃ a, Analyze.run fl (.init fl) (pkts idx (h.take z.jit)) = .ok a ∧ w = fm.jlast a.jit
  | .jmax, w => ∃ a, Analyze.run fl (.init fl) (pkts idx (h.take z.jit)) = .ok a ∧ w = fm.jmax a.jit
  | .javg, w => ∃ a, Analyze.run fl (.init fl) (pkts idx (h.take z.jit)) = .ok a ∧ w = fm.javg a.jit
  | .rel, w => w = Dec.dec (relays (h.take z.rel) % 2 ^ 64)
  | .drp, w => w = Dec.dec (drops (h.take z.drp) % 2 ^ 64)
  | .sent, w => z.quiet idx h → ∃ r, Reports fl (pkts idx (h.take (z.rst 0))) r ∧ w = Dec.dec r.psent
  | .rcvd, w => z.quiet idx h → ∃ r, Reports fl (pkts idx (h.take (z.rst 0))) r ∧ w = Dec.dec r.precvd
  | .dups, w => z.quiet idx h → ∃ r, Reports fl (pkts idx (h.take (z.rst 0))) r ∧ w = Dec.dec r.pdups
  | .lost, w => z.quiet idx h → ∃ r, Reports fl (pkts idx (h.take (z.rst 0))) r ∧
      (r.precvd ≤ r.psent → w = Dec.dec ((r.psent - r.precvd) % 2 ^ 32))
  | .perrs, w => ∃ r, Reports fl (pkts idx (h.take (z.rst 0))) r ∧ w = Dec.dec r.pecount

/-- The text `w` is the lesser of the two timers, looked at one after the other. -/
def ShowsTtl (ttl0 : Bool → Int) (h : List Ev) (at_ : Nat → Nat) (w : List UInt8) : Prop :=
  ∃ k, w = Cmd.fmtD (min (timer false (ttl0 false) (h.take (at_ k))) (timer true (ttl0 true) (h.take (at_ (k + 1)))))

/-- `v k` is what the session looks like after the first `at k` events. -/
structure Sched (fl : Analyze.Fl J) (ttl0 : Bool → Int) (h : List Ev) (at_ : Nat → Nat) (v : Nat → St J) : Prop where
  mono : ∀ k, at_ k ≤ at_ (k + 1)
  state : ∀ k, run fl (init fl ttl0) (h.take (at_ k)) = .ok (v k)

/-- Names with the texts shown for them: all but the timers are of one moment each, however often they are asked for. -/
def Texts (fl : Analyze.Fl J) (fm : Fmt J) (ttl0 : Bool → Int) (idx : Bool) (h : List Ev) (at_ : Nat → Nat)
    (ds : List (List UInt8 × List UInt8)) : Prop :=
  ∃ z : Mo, z.within at_ ∧
    (∀ x ∈ ds, ∃ m, (x.1, m) ∈ table ∧ Shows fl fm idx h z m x.2 ∧ (m = .ttl → ShowsTtl ttl0 h at_ x.2)) ∧
    ∀ x ∈ ds, ∀ y ∈ ds, x.1 = y.1 → x.1 ≠ str "ttl" → x.2 = y.2

/-- The text of a reply: each value labelled if asked for. -/
def body (verbose : Bool) (ds : List (List UInt8 × List UInt8)) : List UInt8 := spaced (ds.map fun x => label verbose x.1 ++ x.2)

/-- What a query without names asks for. -/
def basic : List (List UInt8) := [str "ttl", str "npkts_ina", str "npkts_ino", str "nrelayed", str "ndropped"]

/-- The line ends with the results of the subcommands, as in C19. -/
def Line (text : List UInt8) (subc : List Cmd.SubRes) (out : Except Fault (List UInt8)) : Prop :=
  text.length ≤ (if subc = [] then 1022 else 1016) → ∃ k, k ≤ (Cmd.visible (Cmd.untilFailure subc)).length ∧
    out = .ok (text ++ (((Cmd.visible (Cmd.untilFailure subc)).map Cmd.item).take k).flatten ++
      (if k = (Cmd.visible (Cmd.untilFailure subc)).length then [] else [32, 38, 38, 32, 45, 49]) ++ [10]) ∧
    (k < (Cmd.visible (Cmd.untilFailure subc)).length →
      1017 ≤ (text ++ (((Cmd.visible (Cmd.untilFailure subc)).map Cmd.item).take (k + 1)).flatten).length)

/-- The reply holds what goes before the answer, and there is room for an error. -/
def Roomy (b : Rep) : Prop := b.r.length = 1024 ∧ b.clen = b.ulen ∧ b.rlen = 0 ∧ b.ulen ≤ 1000

end Verif.Query
