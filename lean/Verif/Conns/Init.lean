import Verif.Conns.Props

/-!
# C50: setting up the table
-/

namespace Verif.Conns

/-- The sockets that are read themselves: datagram sockets, the standard input, a given descriptor. -/
def direct (socks : List Sock) : List Sock := socks.filter fun s => decide (s.kind ∈ [Kind.udp4, .udp6, .stdio, .fd])

theorem direct_iff (s : Sock) : (decide (s.kind ∈ [Kind.udp4, .udp6, .stdio, .fd])) = !s.kind.acceptable := by
  obtain ⟨k, _, _, _⟩ := s
  cases k <;> rfl

theorem direct_eq (socks : List Sock) : (socks.filter fun s => !s.kind.acceptable) = direct socks := by
  unfold direct
  congr 1
  funext s
  exact (direct_iff s).symm

/-- Records for the sockets, numbered from `n`. -/
def recordsFor (n : Nat) (ss : List Sock) : List Conn := ss.mapIdx fun k s => ⟨n + k, s.fdIn, s.fdOut, s⟩

theorem recordsFor_cons (n : Nat) (s : Sock) (ss : List Sock) :
    recordsFor n (s :: ss) = ⟨n, s.fdIn, s.fdOut, s⟩ :: recordsFor (n + 1) ss := by
  simp [recordsFor, List.mapIdx_cons, Nat.add_assoc, Nat.add_comm 1]

theorem initLoop_spec (socks : List Sock) : ∀ (t : Tbl) (pre : List Pfd) (cpre crest : List (Option Conn)) (j : List Pfd),
    t.pfds = pre ++ j → j.length = (direct socks).length → t.rccs = cpre ++ crest → cpre.length = pre.length →
    (direct socks).length ≤ crest.length →
    initLoop (fun _ => true) socks pre.length t = .ok ({ t with
      pfds := pre ++ (direct socks).map (fun s => ⟨s.fdIn, ⟨false, false⟩⟩)
      rccs := cpre ++ ((recordsFor t.fresh (direct socks)).map some ++ crest.drop (direct socks).length)
      fresh := t.fresh + (direct socks).length }, pre.length + (direct socks).length) := by
  induction socks with
  | nil =>
    intro t pre cpre crest j hp hj hr _ _
    have : j = [] := by simpa [direct] using hj
    subst this
    cases t
    simp only [List.append_nil] at hp hr
    simp [initLoop, direct, recordsFor, ← hp, ← hr]
  | cons s ss ih =>
    intro t pre cpre crest j hp hj hr hl hc
    unfold initLoop
    cases ha : s.kind.acceptable with
    | true =>
      have hd : direct (s :: ss) = direct ss := by
        unfold direct
        rw [List.filter_cons, direct_iff, ha]
        rfl
      rw [hd] at hj hc ⊢
      simpa using ih t pre cpre crest j hp hj hr hl hc
    | false =>
      have hd : direct (s :: ss) = s :: direct ss := by
        unfold direct
        rw [List.filter_cons, direct_iff, ha]
        rfl
      rw [hd] at hj hc ⊢
      obtain ⟨x, j', rfl⟩ : ∃ x j', j = x :: j' := by
        cases j with
        | nil => simp at hj
        | cons x j' => exact ⟨x, j', rfl⟩
      obtain ⟨y, c', rfl⟩ : ∃ y c', crest = y :: c' := by
        cases crest with
        | nil => simp at hc
        | cons y c' => exact ⟨y, c', rfl⟩
      simp only [Bool.false_eq_true, if_false]
      rw [if_pos (by rw [hp, hr]; simp [hl]), if_pos trivial]
      have h1 : t.pfds.set pre.length ⟨s.fdIn, ⟨false, false⟩⟩ = (pre ++ [⟨s.fdIn, ⟨false, false⟩⟩]) ++ j' := by rw [hp]; simp
      have h2 : t.rccs.set pre.length (some ⟨t.fresh, s.fdIn, s.fdOut, s⟩) = (cpre ++ [some ⟨t.fresh, s.fdIn, s.fdOut, s⟩]) ++ c' := by
        rw [hr, ← hl]; simp
      rw [h1, h2]
      have := ih { t with
          pfds := (pre ++ [⟨s.fdIn, ⟨false, false⟩⟩]) ++ j'
          rccs := (cpre ++ [some ⟨t.fresh, s.fdIn, s.fdOut, s⟩]) ++ c'
          fresh := t.fresh + 1 } (pre ++ [⟨s.fdIn, ⟨false, false⟩⟩]) (cpre ++ [some ⟨t.fresh, s.fdIn, s.fdOut, s⟩]) c' j' rfl (by simpa using hj)
          rfl (by simp [hl]) (by simpa using hc)
      rw [List.length_append, List.length_singleton] at this
      rw [this, recordsFor_cons]
      congr 2
      · congr 1
        · simp
        · simp
        · simp; omega
      · simp; omega

/-- The records of the control sockets at the start.  If there is only one socket in the table and it is a stream the program ends with it. -/
def startWith (socks : List Sock) : List Conn :=
  match direct socks with
  | [s] => [⟨0, s.fdIn, s.fdOut, if s.kind ∈ [Kind.stdio, .fd] then { s with exitOnClose := true } else s⟩]
  | ss => recordsFor 0 ss

theorem recordsFor_length (n : Nat) (ss : List Sock) : (recordsFor n ss).length = ss.length := by simp [recordsFor]

/-- With memory, and no more than 100 sockets that are read themselves, the table is set up and holds one record for each of them, in the order of
the command line, behind the wake-up descriptor. -/
theorem C50_start_partial (socks : List Sock) (w : Nat) (h : (direct socks).length ≤ 100) :
    ∃ t, init socks w true (fun _ => true) = .ok (some t) ∧ Holds t w (startWith socks) ∧ t.slow = false ∧
      t.fresh = (startWith socks).length := by
  have hs := initLoop_spec socks {
      pfds := (List.replicate (1 + (direct socks).length) ⟨0, ⟨false, false⟩⟩).set 0 ⟨w, ⟨false, false⟩⟩
      rccs := List.replicate (maxConns + 1) none
      used := 1 + (direct socks).length
      fresh := 0
      slow := false } [⟨w, ⟨false, false⟩⟩] [none] (List.replicate 100 none) (List.replicate (direct socks).length ⟨0, ⟨false, false⟩⟩)
      (by simp [Nat.add_comm 1, List.replicate_succ]) (by simp) (by simp [maxConns, List.replicate_succ]) rfl (by simpa using h)
  unfold init
  dsimp only
  rw [direct_eq]
  simp only [Bool.not_true, Bool.false_eq_true, if_false]
  rw [show (1 : Nat) = ([⟨w, ⟨false, false⟩⟩] : List Pfd).length from rfl]
  simp only [List.length_singleton] at hs ⊢
  rw [hs]
  dsimp only
  have hlen : ∀ (cs : List Conn), cs.length = (direct socks).length →
      (none :: (cs.map some ++ (List.replicate 100 (none : Option Conn)).drop (direct socks).length)).length = 101 := by
    intro cs hcs
    simp only [List.length_cons, List.length_append, List.length_map, List.length_drop, List.length_replicate]
    omega
  unfold leave
  by_cases h1 : (direct socks).length = 1
  · obtain ⟨s, hss⟩ := List.length_eq_one_iff.1 h1
    rw [if_pos (by omega)]
    have hst : startWith socks = [⟨0, s.fdIn, s.fdOut, if s.kind ∈ [Kind.stdio, .fd] then { s with exitOnClose := true } else s⟩] := by
      unfold startWith
      rw [hss]
    have hk : s.kind ∈ [Kind.udp4, .udp6, .stdio, .fd] := by
      have : s ∈ direct socks := by rw [hss]; simp
      simpa [direct] using (List.mem_filter.1 this).2
    have hl := hlen (startWith socks) (by rw [hst, hss]; rfl)
    rw [hst] at hl ⊢
    simp only [hss, recordsFor, List.mapIdx_cons, List.mapIdx_nil, List.map_cons, List.map_nil, List.cons_append, List.nil_append,
      List.getElem?_cons_succ, List.getElem?_cons_zero, Nat.zero_add, List.length_cons, List.length_nil] at hl ⊢
    refine ⟨_, rfl, ?_⟩
    by_cases hst' : s.kind ∈ [Kind.stdio, .fd]
    · have hstream : s.kind.isStream = true := by
        rcases (by simpa using hst' : s.kind = .stdio ∨ s.kind = .fd) with e | e <;> rw [e] <;> rfl
      rw [if_pos hst']
      rw [if_pos hstream]
      refine ⟨?_, rfl, rfl⟩
      exact Holds.join (p0 := ⟨w, ⟨false, false⟩⟩) (ps := [⟨s.fdIn, ⟨false, false⟩⟩]) (rest := []) (r0 := none)
        (crest := (List.replicate 100 none).drop 1) rfl rfl rfl rfl rfl (by simp)
    · have hstream : s.kind.isStream = false := by
        have : s.kind = .udp4 ∨ s.kind = .udp6 := by
          simp at hk hst'
          rcases hk with e | e | e | e
          · exact .inl e
          · exact .inr e
          · exact absurd e hst'.1
          · exact absurd e hst'.2
        rcases this with e | e <;> rw [e] <;> rfl
      rw [if_neg hst']
      rw [if_neg (by rw [hstream]; simp)]
      refine ⟨?_, rfl, rfl⟩
      exact Holds.join (p0 := ⟨w, ⟨false, false⟩⟩) (ps := [⟨s.fdIn, ⟨false, false⟩⟩]) (rest := []) (r0 := none)
        (crest := (List.replicate 100 none).drop 1) rfl rfl rfl rfl rfl (by simp)
  · rw [if_neg (by omega)]
    have hst : startWith socks = recordsFor 0 (direct socks) := by
      unfold startWith
      split
      · rename_i s hss
        rw [hss] at h1
        simp at h1
      · rfl
    rw [hst]
    refine ⟨_, rfl, ?_, rfl, ?_⟩
    · refine Holds.join (p0 := ⟨w, ⟨false, false⟩⟩) (ps := (direct socks).map (fun s => ⟨s.fdIn, ⟨false, false⟩⟩)) (rest := []) (r0 := none)
        (crest := (List.replicate 100 none).drop (direct socks).length) ?_ rfl ?_ rfl ?_ ?_
      · simp
      · apply List.ext_getElem?
        intro k
        simp only [recordsFor, List.map_map, List.getElem?_map, List.getElem?_mapIdx]
        cases (direct socks)[k]? <;> rfl
      · rw [recordsFor_length]
        exact Nat.add_comm ..
      · exact hlen _ (recordsFor_length ..)
    · rw [recordsFor_length]
      exact Nat.zero_add _

end Verif.Conns
