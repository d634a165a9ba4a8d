import Verif.Conns.Init
import Verif.Conns.LockProps

/-!
# C50: cases and counterexamples
-/

namespace Verif.Conns

def udp : Sock := ⟨.udp4, 3, 3, false⟩
def stdin : Sock := ⟨.stdio, 0, 1, false⟩
def unix : Sock := ⟨.ifsun, 4, 4, false⟩
def tcp : Sock := ⟨.tcp4, 5, 5, false⟩
def pipeIn : Sock := ⟨.fd, 6, 6, true⟩

def outcome (r : Except Fault (Option Tbl)) : Option Fault :=
  match r with
  | .error e => some e
  | .ok _ => none

/-- A datagram socket and two kinds of accepted connections: records 1, 2, 3. -/
def start1 : Tbl := ⟨[⟨9, ⟨false, false⟩⟩, ⟨3, ⟨false, false⟩⟩], none :: some ⟨0, 3, 3, udp⟩ :: List.replicate 99 none, 2, 1, false⟩

example : (init [udp, unix, tcp] 9 true (fun _ => true)).toOption = some (some start1) := by decide +kernel

theorem holds1 : Holds start1 9 [⟨0, 3, 3, udp⟩] :=
  Holds.join (p0 := ⟨9, ⟨false, false⟩⟩) (ps := [⟨3, ⟨false, false⟩⟩]) (rest := []) (r0 := none) (crest := List.replicate 99 none)
    rfl rfl rfl rfl rfl rfl

/-- Three connections; in one turn record 1 is served and recycled, record 2 has hung up, record 3 has commands and stays; later a new connection
gets descriptor 10 again. -/
def acts1 : List Act :=
  [.accept unix 10 true true, .accept tcp 11 true true, .accept tcp 12 true true,
   .round 4 (fun i => if i = 0 then ⟨true, false⟩ else if i = 2 then ⟨true, false⟩ else if i = 3 then ⟨true, true⟩
      else if i = 4 then ⟨true, false⟩ else ⟨false, false⟩) (fun _ => 0),
   .accept tcp 10 true true, .accept tcp 11 false true, .accept tcp 11 true false, .round (-1) (fun _ => ⟨true, true⟩) (fun _ => 0),
   .round 1 (fun i => if i = 2 then ⟨true, false⟩ else ⟨false, false⟩) (fun _ => -1)]

def log1 : List Ev :=
  [.took 10, .took 11, .took 12, .drained 9, .served 1, .gone 1, .close 10, .gone 2, .close 11, .served 3, .took 10, .took 11, .close 11,
   .took 11, .close 11, .served 3, .gone 3, .close 12]

example : ((run start1 acts1).toOption.map fun r => (r.2, (r.1.pfds.take r.1.used).map (·.fd))) = some (log1, [9, 3, 10]) := by
  decide +kernel

example : kernel [9, 3, 4, 5] log1 = some [10, 9, 3, 4, 5] := by decide

example : Listens [9, 3, 4, 5] acts1 := by
  unfold acts1 Listens
  repeat (first | exact trivial | constructor | decide | simp [Listens, unix, tcp])

example : Fair [9, 3, 4, 5] log1 := by
  simp [log1, Fair]

/-- The standard input as the only socket: the program is told to stop when it ends, and its descriptor stays open. -/
example : (match (init [stdin] 9 true (fun _ => true)).toOption with
    | some (some t) => ((round t 1 (fun i => if i = 1 then ⟨false, true⟩ else ⟨false, false⟩) (fun _ => 0)).toOption.map
        fun r => (r.2, r.1.used, r.1.slow))
    | _ => none) = some ([.gone 0], 1, true) := by decide +kernel

/-- More than 100 sockets that are read themselves: the record of the 101st is written behind the end of the array. -/
theorem C50_sockets_counterexample : outcome (init (List.replicate 101 udp) 9 true (fun _ => true)) = some .ub := by decide +kernel

/-- No memory for the record of a socket: the records made before are freed, and the one at place 0, which does not exist. -/
theorem C50_memory_counterexample : outcome (init [udp, stdin] 9 true (fun i => decide (i < 2))) = some .ub := by decide +kernel

/-- A socket given as a descriptor (say a pipe): the other end is closed, and `poll` says so and nothing else.  The connection is not served and
not removed; nothing has changed, and the next `poll` says the same at once. -/
theorem C50_hangup_counterexample (t : Tbl) (w : Nat) (c : Conn) (hk : c.sock.kind = .fd) (h : Holds t w [c]) (out : Nat → Int) :
    ∃ t', round t 1 (fun i => if i = 1 then ⟨false, true⟩ else ⟨false, false⟩) out = .ok (t', []) ∧ Holds t' w [c] := by
  have hne : ¬ Ends (⟨false, true⟩ : Rev) c (out c.id) := by
    simp [Ends, Over, Served, hk]
  have hs : survivors (fun i => if i = 1 then ⟨false, true⟩ else ⟨false, false⟩) out [c] = [c] := by
    simp [survivors, answered, hne]
  obtain ⟨p0, ps, rest, r0, crest, hp, hw, hm, hr⟩ := h.split
  obtain ⟨p, rfl⟩ : ∃ p, ps = [p] := List.length_eq_one_iff.1 (by simpa using congrArg List.length hm)
  have hl : look out ⟨p.fd, ⟨false, true⟩⟩ c = ([], true) := by
    simp [look, hangup, hk, Kind.acceptable]
  obtain ⟨t', log, h1, h2, -⟩ := C50_turn t w [c] 1 (fun i => if i = 1 then ⟨false, true⟩ else ⟨false, false⟩) out h (by decide)
  rw [hs] at h2
  refine ⟨t', ?_, h2⟩
  have hlog : log = [] := by
    have hu : t.used = 2 := h.used
    unfold round at h1
    rw [if_neg (by decide)] at h1
    simp only [hp, hu, fill] at h1
    simp only [List.mapIdx_cons, List.cons_append, List.getElem?_cons_zero, List.nil_append] at h1
    rw [sweep] at h1
    simp only [hr, List.getElem?_cons_succ, List.getElem?_cons_zero, List.map_cons, List.cons_append] at h1
    simp [hl] at h1
    rw [sweep] at h1
    simp at h1
    exact h1.2
  rw [h1, hlog]

example : ∃ t, Holds t 9 [⟨0, 6, 6, pipeIn⟩] := by
  obtain ⟨t, _, h, _⟩ := C50_start_partial [pipeIn, tcp] 9 (by decide)
  exact ⟨t, h⟩

end Verif.Conns
