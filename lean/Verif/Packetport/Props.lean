import Verif.Packetport.Model

/-!
# C51: the packet port
-/

namespace Verif.Packetport

/-! ## Port numbers -/

theorem counter_closed (n : Nat) : counter n = (2 * (n % 2147483647) + 2) % 4294967296 ∨
    (n % 2147483647 = 0 ∧ 0 < n ∧ counter n = 0) := by
  induction n with
  | zero => left; rfl
  | succ n ih =>
    simp only [counter, nportAlloc]
    rcases ih with ih | ⟨h1, h2, ih⟩
    · by_cases h0 : counter n = 0
      · omega
      · rw [if_neg h0]
        simp only []
        omega
    · rw [ih]
      simp only [if_true]
      left
      omega

theorem port_closed (n : Nat) : port n = 2 * (n % 2147483647) + 2 := by
  simp only [port, nportAlloc]
  rcases counter_closed n with h | ⟨h1, h2, h⟩
  · split <;> simp only [] <;> omega
  · rw [h]; simp only [if_true]; omega

/-- **C51.**  The numbers handed out are even, not zero, fit 32 bits together with the next odd number (used for
RTCP), and no number comes again before all others have been handed out. -/
theorem C51_ports (i j : Nat) : port i % 2 = 0 ∧ port i ≠ 0 ∧ port i + 1 < 4294967296 ∧
    (port i = port j ↔ i % 2147483647 = j % 2147483647) := by
  rw [port_closed, port_closed]
  omega

/-- Every even non-zero 32-bit number is handed out. -/
theorem C51_ports_all (p : Nat) (h0 : p ≠ 0) (h1 : p % 2 = 0) (h2 : p < 4294967296) : ∃ n < 2147483647, port n = p := by
  refine ⟨(p - 2) / 2, by omega, ?_⟩
  rw [port_closed]; omega

example : port 0 = 2 ∧ port 1 = 4 ∧ port 2147483646 = 4294967294 ∧ port 2147483647 = 2 := by
  simp only [port_closed]; decide

/-! ## The ring -/

/-- Everything that went through the ring, in order. -/
def Ring.history (r : Ring) : List Nat := r.gone.map (·.2) ++ r.items

theorem tick_history (env : Env) (r : Ring) : (r.tick env).history = r.history := by
  simp only [Ring.history, Ring.tick, List.map_append, List.map_map]
  rw [List.append_assoc]
  congr 1
  have : ((fun x : Fate × Nat => x.2) ∘ fun x => (Fate.delivered, x)) = id := by funext x; rfl
  rw [this, List.map_id, List.take_append_drop]

theorem tick_cap (env : Env) (r : Ring) : (r.tick env).cap = r.cap := rfl

theorem tick_len (env : Env) (r : Ring) : (r.tick env).items.length ≤ r.items.length := by
  simp only [Ring.tick, List.length_drop]; omega

/-- The items the pushing side dropped. -/
def Ring.drops (r : Ring) : List Nat := (r.gone.filter fun x => x.1 = .dropped).map (·.2)

theorem tick_drops (env : Env) (r : Ring) : (r.tick env).drops = r.drops := by
  simp only [Ring.drops, Ring.tick, List.filter_append, List.map_append]
  have : ((r.items.take (env.take r.t)).map (Fate.delivered, ·)).filter (fun x => x.1 = .dropped) = [] := by
    rw [List.filter_eq_nil_iff]
    intro x hx
    obtain ⟨y, -, rfl⟩ := List.mem_map.1 hx
    simp
  rw [this]; simp

theorem fill_spec : ∀ (keys : List (Option Nat)) (room : Nat),
    (fill keys room).2 = (keys.take (fill keys room).1).filterMap id ∧ (fill keys room).1 ≤ keys.length ∧
    (fill keys room).2.length ≤ room ∧ ((fill keys room).1 < keys.length → (fill keys room).2.length = room)
  | [], room => by simp [fill]
  | k :: ks, 0 => by cases k <;> simp [fill]
  | none :: ks, room + 1 => by
    have ih := fill_spec ks (room + 1)
    simp only [fill, Nat.succ_eq_add_one, List.take_succ_cons, List.filterMap_cons, id, List.length_cons]
    refine ⟨ih.1, by omega, ih.2.2.1, fun h => ih.2.2.2 (by omega)⟩
  | some v :: ks, room + 1 => by
    have ih := fill_spec ks room
    simp only [fill, List.take_succ_cons, List.filterMap_cons, id, List.length_cons]
    refine ⟨by rw [← ih.1], by omega, by omega, fun h => by have := ih.2.2.2 (by omega); omega⟩

theorem fill_ge (keys : List (Option Nat)) (room : Nat) : min room keys.length ≤ (fill keys room).1 := by
  obtain ⟨h1, h2, h3, h4⟩ := fill_spec keys room
  by_cases h : (fill keys room).1 < keys.length
  · have := h4 h
    have h5 : (fill keys room).2.length ≤ (fill keys room).1 := by
      rw [h1]
      exact Nat.le_trans (List.length_filterMap_le _ _) (by rw [List.length_take]; omega)
    omega
  · omega

theorem pushMany_spec (env : Env) (r : Ring) (keys : List (Option Nat)) (hle : r.items.length ≤ r.cap) :
    let c := (r.pushMany env keys).1
    let r' := (r.pushMany env keys).2
    r'.cap = r.cap ∧ c ≤ keys.length ∧ r'.history = r.history ++ (keys.take c).filterMap id ∧
    r'.items.length ≤ r.cap ∧ r'.drops = r.drops ∧ min (r.cap - r.items.length) keys.length ≤ c ∧
    r.t < r'.t := by
  simp only [Ring.pushMany]
  have l1 := tick_len env r
  have l2 := tick_len env (r.tick env)
  obtain ⟨h1, h2, h3, h4⟩ := fill_spec keys ((r.tick env).cap - (r.tick env).items.length)
  have hg := fill_ge keys ((r.tick env).cap - (r.tick env).items.length)
  generalize fill keys ((r.tick env).cap - (r.tick env).items.length) = f at h1 h2 h3 h4 hg
  obtain ⟨c, vs⟩ := f
  simp only [tick_cap] at h1 h2 h3 h4 hg ⊢
  refine ⟨trivial, h2, ?_, ?_, ?_, by omega, ?_⟩
  · show ((r.tick env).tick env).gone.map (·.2) ++ (((r.tick env).tick env).items ++ vs) = _
    rw [← List.append_assoc]
    rw [show ((r.tick env).tick env).gone.map (·.2) ++ ((r.tick env).tick env).items = ((r.tick env).tick env).history from rfl]
    rw [tick_history, tick_history, h1]
  · rw [List.length_append]; omega
  · exact (tick_drops env (r.tick env)).trans (tick_drops env r)
  · show r.t < r.t + 1 + 1; omega

theorem dropMany_spec (env : Env) (r : Ring) (n : Nat) :
    let d := (r.dropMany env n).1
    let r' := (r.dropMany env n).2
    r'.cap = r.cap ∧ r'.history = r.history ∧ r'.drops = r.drops ++ d ∧ d.length ≤ n ∧
    r'.items.length + d.length ≤ r.items.length ∧
    (d = [] → 0 < n → r'.items = []) := by
  simp only [Ring.dropMany]
  have l1 := tick_len env r
  refine ⟨rfl, ?_, ?_, ?_, ?_, ?_⟩
  · rw [← tick_history env r]
    simp only [Ring.history, List.map_append, List.map_map]
    have : ((fun x : Fate × Nat => x.2) ∘ fun x => (Fate.dropped, x)) = id := by funext x; rfl
    rw [this, List.map_id, List.append_assoc, List.take_append_drop]
  · rw [← tick_drops env r]
    simp only [Ring.drops, List.filter_append, List.map_append]
    congr 1
    rw [List.filter_eq_self.2]
    · rw [List.map_map]
      have : ((fun x : Fate × Nat => x.2) ∘ fun x => (Fate.dropped, x)) = id := by funext x; rfl
      rw [this, List.map_id]
    · intro x hx
      obtain ⟨y, -, rfl⟩ := List.mem_map.1 hx
      simp
  · rw [List.length_take]; omega
  · rw [List.length_drop, List.length_take]; omega
  · intro h h0
    have hl := congrArg List.length h
    rw [List.length_take] at hl
    simp only [List.length_nil] at hl
    have : (r.tick env).items = [] := List.length_eq_zero_iff.1 (by omega)
    rw [this, List.drop_nil]

/-! ## Batches from the library to the host -/

theorem batch_spec (env : Env) (capacity : Nat) : ∀ (fuel : Nat) (r : Ring) (ctx : Ctx) (wis : List Wi) (acc : List Nat),
    r.items.length ≤ r.cap → 0 < r.cap → acc.length + (wis.length - (r.cap - r.items.length)) ≤ capacity →
    wis.length + (if r.items.length < r.cap then 0 else 1) < fuel →
    ∃ r' d, batch env capacity fuel r ctx wis acc = some (.ok (r', wis.foldl Ctx.see ctx, acc ++ d)) ∧ r'.cap = r.cap ∧
      r'.history = r.history ++ wis.filterMap Wi.value ∧ r'.items.length ≤ r.cap ∧ r'.drops = r.drops ++ d ∧
      d.length ≤ wis.length - (r.cap - r.items.length)
  | 0, r, ctx, wis, acc, _, _, _, hf => by omega
  | fuel + 1, r, ctx, [], acc, h1, _, _, _ => ⟨r, [], by simp [batch], rfl, by simp, h1, by simp, by simp⟩
  | fuel + 1, r, ctx, w0 :: wis0, acc, h1, h2, h3, hf => by
    simp only [batch]
    generalize hw : w0 :: wis0 = wis at h3 hf
    have hpos : 0 < wis.length := by rw [← hw]; simp
    obtain ⟨p1, p2, p3, p4, p5, p6, -⟩ := pushMany_spec env r (wis.map Wi.value) h1
    generalize r.pushMany env (wis.map Wi.value) = pm at p1 p2 p3 p4 p5 p6
    obtain ⟨c, r1⟩ := pm
    simp only [List.length_map] at p1 p2 p3 p4 p5 p6 ⊢
    have hval : (List.take c (wis.map Wi.value)).filterMap id = (wis.take c).filterMap Wi.value := by
      rw [← List.map_take, List.filterMap_map]; rfl
    rw [hval] at p3
    match hd : wis.drop c with
    | [] =>
      have hc : wis.length ≤ c := List.drop_eq_nil_iff.1 hd
      have ht : wis.take c = wis := List.take_of_length_le hc
      rw [ht] at p3 ⊢
      exact ⟨r1, [], by simp, p1, p3, p4, by simpa using p5, by simp⟩
    | w :: rest =>
      have hlen : rest.length + 1 = wis.length - c := by
        have := congrArg List.length hd
        rw [List.length_drop, List.length_cons] at this; omega
      obtain ⟨d1, d2, d3, d4, d5, d6⟩ := dropMany_spec env r1 (rest.length + 1)
      simp only []
      generalize r1.dropMany env (rest.length + 1) = dm at d1 d2 d3 d4 d5 d6
      obtain ⟨d, r2⟩ := dm
      simp only [] at d1 d2 d3 d4 d5 d6 ⊢
      rw [if_pos (by omega)]
      have hroom : r2.items.length < r2.cap := by
        by_cases hn : d = []
        · rw [d6 hn (by omega)]; simp only [List.length_nil]; omega
        · have := List.length_pos_iff.2 hn; omega
      have hfuel : (w :: rest).length + (if r2.items.length < r2.cap then 0 else 1) < fuel := by
        rw [if_pos hroom, List.length_cons]
        split at hf <;> omega
      obtain ⟨r', d', e1, e2, e3, e4, e5, e6⟩ := batch_spec env capacity fuel r2 ((wis.take c).foldl Ctx.see ctx) (w :: rest)
        (acc ++ d) (by omega) (by omega) (by rw [List.length_append, List.length_cons]; omega) hfuel
      refine ⟨r', d ++ d', ?_, by omega, ?_, by omega, ?_, ?_⟩
      · rw [e1, ← hd, ← List.foldl_append, List.take_append_drop, List.append_assoc]
      · rw [e3, d2, p3, List.append_assoc, ← hd, ← List.filterMap_append, List.take_append_drop]
      · rw [e5, d3, p5, List.append_assoc]
      · rw [List.length_append]
        rw [List.length_cons] at e6
        omega

/-- **C51.**  A batch of up to `capacity` work items always goes into the ring as a whole and in order, whatever the
reader does meanwhile: the loop ends, stays inside `out_batch`, and what leaves the ring (taken by the reader or
dropped) leaves in the order it came.  No more are dropped than there are work items beyond the room that was there. -/
theorem C51_batch (env : Env) (r : Ring) (ctx : Ctx) (wis : List Wi) (hr : r.items.length ≤ r.cap) (hcap : 0 < r.cap)
    (hw : wis.length ≤ r.cap) :
    ∃ r' d, batch env r.cap (wis.length + 2) r ctx wis [] = some (.ok (r', wis.foldl Ctx.see ctx, d)) ∧
      r'.gone.map (·.2) ++ r'.items = r.gone.map (·.2) ++ r.items ++ wis.filterMap Wi.value ∧
      r'.items.length ≤ r.cap ∧ r'.drops = r.drops ++ d ∧ d.length ≤ wis.length - (r.cap - r.items.length) := by
  obtain ⟨r', d, e1, e2, e3, e4, e5, e6⟩ := batch_spec env r.cap (wis.length + 2) r ctx wis [] hr hcap (by simp only [List.length_nil]; omega)
    (by split <;> omega)
  exact ⟨r', d, e1, e3, e4, e5, e6⟩

def idleEnv : Env := ⟨fun _ => 0, fun _ => 1⟩

/-- The reader takes one item in the middle; a ring of two. -/
example : batch ⟨fun t => if t = 1 then 1 else 0, fun _ => 5⟩ 2 4 ⟨2, [1, 2], [], 0⟩ ⟨0, false, false⟩ [.data (some 3), .data (some 4)] [] =
    some (.ok (⟨2, [3, 4], [(.delivered, 1), (.dropped, 2)], 5⟩, ⟨0, false, false⟩, [2])) := rfl

/-- A signal needs no place in the ring, but costs a packet when the ring is full: the room is asked for before the
work item is looked at. -/
theorem C51_signal_drops_packet_counterexample : batch idleEnv 2 3 ⟨2, [1, 2], [], 0⟩ ⟨0, false, false⟩ [.nudge] [] =
    some (.ok (⟨2, [2], [(.dropped, 1)], 5⟩, ⟨0, false, false⟩, [1])) := rfl

/-! ## Packets from the host to the library -/

theorem push_spec (env : Env) (r : Ring) (v : Nat) (hle : r.items.length ≤ r.cap) :
    let r' := (r.push env v).2
    r'.cap = r.cap ∧ r'.items.length ≤ r.cap ∧ r'.drops = r.drops ∧
    ((r.push env v).1 = true → r'.history = r.history ++ [v]) ∧
    ((r.push env v).1 = false → r'.history = r.history ∧ r.items.length = r.cap) := by
  obtain ⟨p1, p2, p3, p4, p5, p6, -⟩ := pushMany_spec env r [some v] hle
  simp only [Ring.push]
  generalize r.pushMany env [some v] = pm at p1 p2 p3 p4 p5 p6
  obtain ⟨c, r1⟩ := pm
  simp only [List.length_singleton] at p1 p2 p3 p4 p5 p6 ⊢
  refine ⟨p1, p4, p5, ?_, ?_⟩
  · intro h
    have hc : c = 1 := by simpa using h
    subst hc
    exact p3
  · intro h
    have hc : c = 0 := by
      have : c ≠ 1 := by simpa using h
      omega
    subst hc
    refine ⟨by simpa using p3, by omega⟩

/-- **C51.**  Pushing ends after at most two rounds.  Either the packet is the newest in the ring, and at most one
packet, the oldest at that time, was dropped, and only if the ring was full; or the push is refused, nothing was
dropped, and the ring is empty. -/
theorem C51_push_partial (env : Env) (r : Ring) (v : Nat) (hr : r.items.length ≤ r.cap) :
    ∃ ok r', queue env 2 r v = some (ok, r') ∧ r'.items.length ≤ r.cap ∧
      (ok = true → r'.gone.map (·.2) ++ r'.items = r.gone.map (·.2) ++ r.items ++ [v] ∧
        (r'.drops = r.drops ∨ (r.items.length = r.cap ∧ ∃ x, r'.drops = r.drops ++ [x]))) ∧
      (ok = false → r'.gone.map (·.2) ++ r'.items = r.gone.map (·.2) ++ r.items ∧ r'.drops = r.drops ∧
        r.items.length = r.cap ∧ r'.items = []) := by
  simp only [queue]
  obtain ⟨p1, p2, p3, p4, p5⟩ := push_spec env r v hr
  generalize r.push env v = pm at p1 p2 p3 p4 p5
  obtain ⟨b, r1⟩ := pm
  simp only [] at p1 p2 p3 p4 p5
  cases b with
  | true => exact ⟨true, r1, rfl, p2, fun _ => ⟨p4 rfl, .inl p3⟩, fun h => by cases h⟩
  | false =>
    obtain ⟨q1, q2⟩ := p5 rfl
    obtain ⟨d1, d2, d3, d4, d5, d6⟩ := dropMany_spec env r1 1
    simp only []
    generalize r1.dropMany env 1 = dm at d1 d2 d3 d4 d5 d6
    obtain ⟨d, r2⟩ := dm
    simp only [] at d1 d2 d3 d4 d5 d6
    cases d with
    | nil =>
      refine ⟨false, r2, rfl, ?_, (fun h => by cases h), fun _ => ⟨?_, ?_, q2, d6 rfl Nat.one_pos⟩⟩
      · rw [d6 rfl Nat.one_pos]; exact Nat.zero_le _
      · exact d2.trans q1
      · rw [d3, p3, List.append_nil]
    | cons x d =>
      have hd : d = [] := List.length_eq_zero_iff.1 (by simp only [List.length_cons] at d4; omega)
      subst hd
      simp only [List.length_singleton] at d5
      obtain ⟨s1, s2, s3, s4, s5⟩ := push_spec env r2 v (by omega)
      simp only []
      generalize r2.push env v = pm at s1 s2 s3 s4 s5
      obtain ⟨b, r3⟩ := pm
      simp only [] at s1 s2 s3 s4 s5
      cases b with
      | false => have := (s5 rfl).2; omega
      | true =>
        refine ⟨true, r3, rfl, by omega, fun _ => ⟨?_, .inr ⟨q2, x, ?_⟩⟩, fun h => by cases h⟩
        · exact (s4 rfl).trans (by rw [d2, q1]; rfl)
        · rw [s3, d3, p3]

example : queue idleEnv 2 ⟨2, [1, 2], [], 0⟩ 3 = some (true, ⟨2, [2, 3], [(.dropped, 1)], 5⟩) := rfl

/-- The refusal happens: the ring is found full, the worker empties it, there is nothing to drop, and the newest packet
is lost although the ring is empty. -/
theorem C51_push_lost_in_race_counterexample : queue ⟨fun t => if t = 2 then 2 else 0, fun _ => 1⟩ 2 ⟨2, [1, 2], [], 0⟩ 3 =
    some (false, ⟨2, [], [(.delivered, 1), (.delivered, 2)], 3⟩) := rfl

end Verif.Packetport
