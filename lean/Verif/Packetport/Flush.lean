import Verif.Packetport.Model

/-!
# The worker of the packet port: flushing and termination (`src/rtpp_packetport.c:462-596, 698-838`)

The host and the worker interleave.  The host's stores to the ring may sit in a store buffer: `store` is the host's
`try_push`, `commit` the moment at which the worker can see it.  With `tso := false` a load of the host waits for its own
stores (sequential consistency); with `tso := true` it does not (what x86 and weaker machines do: the load at
rtpp_packetport.c:469 is relaxed and no fence precedes it).  Putting a work item takes the mutex of the queue and
waits for the stores in any case.  Room in the ring is the subject of `Verif.Packetport.Props`; here the ring is
unbounded and `drop` stands for any removal by the host.
-/

namespace Verif.Packetport.Flush

/-- The host inside `rtpp_packetport_flush`, rtpp_packetport.c:462-480; `pushed` is the number of packets it had pushed
before. -/
inductive Host where
  | idle
  | loaded (seen pushed : Nat)
  deriving DecidableEq, Repr

inductive Worker where
  /-- At the top of the loop, rtpp_packetport.c:553, 572. -/
  | idle
  /-- In `rtpp_packetport_proc_wi_batch`. -/
  | batch (wis : List Wi)
  /-- In `rtpp_packetport_drain_out` after `rtpp_packetport_out_run`. -/
  | drain
  | stopped
  deriving DecidableEq, Repr

structure St where
  tso : Bool
  capacity : Nat
  /-- `pqueue`, at most `capacity + 1` long, rtpp_packetport.c:374-378. -/
  pq : List Wi
  worker : Worker
  /-- `out_run`; `out_run_lc` is the same number, as only the worker changes it (rtpp_packetport.c:774-783). -/
  outRun : Nat
  /-- `last_flush_run`; `none` is `UINT64_MAX`. -/
  lastFlush : Option Nat
  host : Host
  /-- Packets the host has stored and the worker cannot see yet. -/
  buf : List Nat
  /-- Packets in `ext.out`. -/
  out : List Nat
  pushed : Nat
  popped : Nat
  /-- How many packets had been pushed when the last successful flush was asked for. -/
  flushed : Nat
  /-- Whether the termination signal has been accepted by the queue. -/
  termed : Bool
  deriving DecidableEq, Repr

inductive Ev where
  | store (v : Nat)
  | commit
  | drop
  /-- rtpp_packetport.c:469-473. -/
  | load
  /-- rtpp_packetport.c:474-479. -/
  | emit
  /-- `rtpp_packetport_send_pkt_na` (599-615) or `rtpp_packetport_nudge` (855-859). -/
  | put (w : Wi)
  /-- rtpp_packetport.c:540; the result is ignored. -/
  | dtor
  | get
  | proc
  /-- The timer mode: rtpp_packetport.c:576. -/
  | tick
  | pop (n : Nat)
  | done
  deriving DecidableEq, Repr

def init (tso : Bool) (capacity : Nat) : St := ⟨tso, capacity, [], .idle, 0, none, .idle, [], [], 0, 0, 0, false⟩

/-- `rtpp_queue_put_item` with the limit of rtpp_packetport.c:378. -/
def St.room (s : St) : Bool := s.pq.length < s.capacity + 1

/-- The end of `rtpp_packetport_proc_wi_batch`, rtpp_packetport.c:766-771. -/
def proc (s : St) (wis : List Wi) : St :=
  let ctx := wis.foldl Ctx.see ⟨s.outRun, false, false⟩
  if ctx.termSeen then { s with worker := .stopped }
  else if ctx.flushSeen then { s with worker := .drain, outRun := s.outRun + 1 }
  else { s with worker := .idle }

def load (s : St) : St :=
  if s.lastFlush = some s.outRun then { s with flushed := s.pushed } else { s with host := .loaded s.outRun s.pushed }

def emit (s : St) (seen pushed : Nat) : St :=
  if s.room then { s with pq := s.pq ++ [.flush seen], lastFlush := some seen, flushed := pushed, host := .idle }
  else { s with host := .idle }

def dtor (s : St) : St := if s.room then { s with pq := s.pq ++ [.term], termed := true } else s

/-- `none`: the event cannot happen now. -/
def step (s : St) : Ev → Option St
  | .store v => if s.host = .idle then some { s with buf := s.buf ++ [v], pushed := s.pushed + 1 } else none
  | .commit => match s.buf with
    | [] => none
    | v :: b => some { s with buf := b, out := s.out ++ [v] }
  | .drop => match s.out with
    | [] => none
    | _ :: o => some { s with out := o, popped := s.popped + 1 }
  | .load => if s.host = .idle ∧ (s.tso = true ∨ s.buf = []) then some (load s) else none
  | .emit => match s.host with
    | .loaded seen pushed => if s.buf = [] then some (emit s seen pushed) else none
    | .idle => none
  | .put w => match w with
    | .data _ => if s.room then some { s with pq := s.pq ++ [w] } else some s
    | .nudge => if s.room then some { s with pq := s.pq ++ [w] } else some s
    | _ => none
  | .dtor => if s.buf = [] then some (dtor s) else none
  | .get => if s.worker = .idle ∧ s.pq ≠ [] then
      some { s with worker := .batch (s.pq.take s.capacity), pq := s.pq.drop s.capacity } else none
  | .proc => match s.worker with
    | .batch wis => some (proc s wis)
    | _ => none
  | .tick => if s.worker = .idle then some { s with worker := .drain, outRun := s.outRun + 1 } else none
  | .pop n => if s.worker = .drain ∧ n ≤ s.out.length then
      some { s with out := s.out.drop n, popped := s.popped + n } else none
  | .done => if s.worker = .drain ∧ s.out = [] then some { s with worker := .idle } else none

def run (s : St) : List Ev → Option St
  | [] => some s
  | e :: es => match step s e with
    | none => none
    | some s' => run s' es

/-- A flush signal that the worker will heed is under way. -/
def Sig (s : St) : Prop := (∃ r, s.outRun ≤ r ∧ .flush r ∈ s.pq) ∨
  (∃ wis r, s.worker = .batch wis ∧ s.outRun ≤ r ∧ .flush r ∈ wis)

structure Inv (s : St) : Prop where
  sc : s.tso = false
  cnt : s.pushed = s.popped + s.out.length + s.buf.length
  vis : s.flushed ≤ s.popped + s.out.length
  pend : s.flushed ≤ s.popped ∨ s.worker = .drain ∨ s.worker = .stopped ∨ Sig s
  last : ∀ r, s.lastFlush = some r → r ≤ s.outRun
  coal : s.lastFlush = some s.outRun → s.worker = .stopped ∨ Sig s
  host : ∀ seen f, s.host = .loaded seen f → seen ≤ s.outRun ∧ f ≤ s.popped + s.out.length ∧
    (seen = s.outRun ∨ f ≤ s.popped ∨ s.worker = .drain ∨ s.worker = .stopped)

theorem see_lc : ∀ (wis : List Wi) (c : Ctx), (wis.foldl Ctx.see c).lc = c.lc
  | [], _ => rfl
  | w :: ws, c => by
    rw [List.foldl_cons, see_lc ws]
    cases w <;> simp only [Ctx.see]
    split <;> rfl

theorem see_flush : ∀ (wis : List Wi) (c : Ctx), (wis.foldl Ctx.see c).flushSeen = true ↔
    (c.flushSeen = true ∨ ∃ r, c.lc ≤ r ∧ .flush r ∈ wis)
  | [], c => by simp
  | w :: ws, c => by
    rw [List.foldl_cons, see_flush ws]
    cases w with
    | data v => simp [Ctx.see]
    | term => simp [Ctx.see]
    | nudge => simp [Ctx.see]
    | flush run =>
      simp only [Ctx.see]
      by_cases h : run ≥ c.lc
      · rw [if_pos h]
        simp only [true_or, true_iff]
        exact .inr ⟨run, h, List.mem_cons_self⟩
      · rw [if_neg h]
        constructor
        · rintro (h1 | ⟨r, h1, h2⟩)
          · exact .inl h1
          · exact .inr ⟨r, h1, List.mem_cons_of_mem _ h2⟩
        · rintro (h1 | ⟨r, h1, h2⟩)
          · exact .inl h1
          · rcases List.mem_cons.1 h2 with h3 | h3
            · cases h3; omega
            · exact .inr ⟨r, h1, h3⟩

theorem see_term : ∀ (wis : List Wi) (c : Ctx), (wis.foldl Ctx.see c).termSeen = true ↔
    (c.termSeen = true ∨ .term ∈ wis)
  | [], c => by simp
  | w :: ws, c => by
    rw [List.foldl_cons, see_term ws]
    cases w with
    | data v => simp [Ctx.see]
    | term => simp [Ctx.see]
    | nudge => simp [Ctx.see]
    | flush run => simp only [Ctx.see]; split <;> simp

theorem Inv.init (capacity : Nat) : Inv (init false capacity) :=
  ⟨rfl, rfl, Nat.zero_le _, .inl (Nat.zero_le _), (fun r h => by cases h), (fun h => by cases h), (fun a b h => by cases h)⟩

theorem Sig.put {s s' : St} (h : Sig s) (hw : s'.worker = s.worker) (ho : s'.outRun = s.outRun) (w : List Wi)
    (hq : s'.pq = s.pq ++ w) : Sig s' := by
  rcases h with ⟨r, h1, h2⟩ | ⟨wis, r, h1, h2, h3⟩
  · exact .inl ⟨r, by rw [ho]; exact h1, by rw [hq]; exact List.mem_append_left _ h2⟩
  · exact .inr ⟨wis, r, by rw [hw]; exact h1, by rw [ho]; exact h2, h3⟩

theorem Sig.same {s s' : St} (h : Sig s) (hw : s'.worker = s.worker) (ho : s'.outRun = s.outRun) (hq : s'.pq = s.pq) : Sig s' :=
  h.put hw ho [] (by rw [hq, List.append_nil])

/-- Starting to drain. -/
theorem inv_drain {s : St} (h : Inv s) (q : List Wi) : Inv { s with worker := .drain, outRun := s.outRun + 1, pq := q } := by
  refine ⟨h.sc, h.cnt, h.vis, .inr (.inl rfl), fun r hr => Nat.le_succ_of_le (h.last r hr), ?_, ?_⟩
  · intro hl
    have := h.last _ hl
    simp only [] at this
    omega
  · intro seen f hh
    obtain ⟨h1, h2, -⟩ := h.host seen f hh
    exact ⟨Nat.le_succ_of_le h1, h2, .inr (.inr (.inl rfl))⟩

theorem inv_putw {s : St} (h : Inv s) (w : Wi) : Inv { s with pq := s.pq ++ [w] } :=
  ⟨h.sc, h.cnt, h.vis,
   h.pend.imp_right (Or.imp_right (Or.imp_right fun g => g.put rfl rfl [w] rfl)), h.last,
   fun hl => (h.coal hl).imp_right fun g => g.put rfl rfl [w] rfl, h.host⟩

theorem inv_step {s s' : St} (h : Inv s) (e : Ev) (he : step s e = some s') : Inv s' := by
  have hc := h.cnt
  have hv := h.vis
  cases e with
  | store v =>
    simp only [step] at he
    split at he <;> cases he
    rename_i hi
    refine ⟨h.sc, ?_, h.vis, ?_, h.last, ?_, h.host⟩
    · simp only [List.length_append, List.length_singleton]; omega
    · exact h.pend.imp_right (Or.imp_right (Or.imp_right fun g => g.same rfl rfl rfl))
    · exact fun hl => (h.coal hl).imp_right fun g => g.same rfl rfl rfl
  | commit =>
    simp only [step] at he
    split at he <;> cases he
    rename_i v b hb
    rw [hb, List.length_cons] at hc
    refine ⟨h.sc, ?_, ?_, ?_, h.last, ?_, ?_⟩
    · simp only [List.length_append, List.length_singleton]; omega
    · simp only [List.length_append, List.length_singleton]; omega
    · exact h.pend.imp_right (Or.imp_right (Or.imp_right fun g => g.same rfl rfl rfl))
    · exact fun hl => (h.coal hl).imp_right fun g => g.same rfl rfl rfl
    · intro seen f hh
      obtain ⟨h1, h2, h3⟩ := h.host seen f hh
      refine ⟨h1, ?_, h3⟩
      simp only [List.length_append, List.length_singleton]; omega
  | drop =>
    simp only [step] at he
    split at he <;> cases he
    rename_i v o ho
    rw [ho, List.length_cons] at hc hv
    refine ⟨h.sc, ?_, ?_, ?_, h.last, ?_, ?_⟩
    · simp only []; omega
    · simp only []; omega
    · rcases h.pend with hp | hp
      · exact .inl (Nat.le_succ_of_le hp)
      · exact .inr (hp.imp_right (Or.imp_right fun g => g.same rfl rfl rfl))
    · exact fun hl => (h.coal hl).imp_right fun g => g.same rfl rfl rfl
    · intro seen f hh
      obtain ⟨h1, h2, h3⟩ := h.host seen f hh
      rw [ho, List.length_cons] at h2
      refine ⟨h1, by simp only []; omega, ?_⟩
      rcases h3 with h3 | h3 | h3
      · exact .inl h3
      · exact .inr (.inl (Nat.le_succ_of_le h3))
      · exact .inr (.inr h3)
  | load =>
    simp only [step] at he
    split at he <;> cases he
    rename_i hi
    have hb : s.buf = [] := by
      rcases hi.2 with hb | hb
      · rw [h.sc] at hb; cases hb
      · exact hb
    rw [hb, List.length_nil] at hc
    unfold load
    split
    · rename_i hl
      refine ⟨h.sc, h.cnt, ?_, ?_, h.last, ?_, h.host⟩
      · simp only []; omega
      · rcases h.coal hl with g | g
        · exact .inr (.inr (.inl g))
        · exact .inr (.inr (.inr (g.same rfl rfl rfl)))
      · exact fun hl => (h.coal hl).imp_right fun g => g.same rfl rfl rfl
    · refine ⟨h.sc, h.cnt, h.vis, ?_, h.last, ?_, ?_⟩
      · exact h.pend.imp_right (Or.imp_right (Or.imp_right fun g => g.same rfl rfl rfl))
      · exact fun hl => (h.coal hl).imp_right fun g => g.same rfl rfl rfl
      · intro seen f hh
        cases hh
        exact ⟨Nat.le_refl _, by simp only []; omega, .inl rfl⟩
  | emit =>
    simp only [step] at he
    split at he
    · rename_i seen f hh
      split at he <;> cases he
      rename_i hb
      obtain ⟨h1, h2, h3⟩ := h.host seen f hh
      unfold emit
      split
      · have hs : seen = s.outRun → Sig { s with pq := s.pq ++ [.flush seen], lastFlush := some seen, flushed := f, host := .idle } := by
          intro e
          exact .inl ⟨seen, Nat.le_of_eq e.symm, List.mem_append_right _ List.mem_cons_self⟩
        refine ⟨h.sc, h.cnt, h2, ?_, ?_, ?_, fun a b hh => by cases hh⟩
        · rcases h3 with h3 | h3 | h3 | h3
          · exact .inr (.inr (.inr (hs h3)))
          · exact .inl h3
          · exact .inr (.inl h3)
          · exact .inr (.inr (.inl h3))
        · intro r hr; cases hr; exact h1
        · intro hl
          have hl' : some seen = some s.outRun := hl
          cases hl'
          exact .inr (hs rfl)
      · refine ⟨h.sc, h.cnt, h.vis, ?_, h.last, ?_, fun a b hh => by cases hh⟩
        · exact h.pend.imp_right (Or.imp_right (Or.imp_right fun g => g.same rfl rfl rfl))
        · exact fun hl => (h.coal hl).imp_right fun g => g.same rfl rfl rfl
    · cases he
  | put w =>
    simp only [step] at he
    cases w with
    | term => cases he
    | flush r => cases he
    | data v =>
      simp only [] at he
      split at he <;> cases he
      · exact inv_putw h _
      · exact h
    | nudge =>
      simp only [] at he
      split at he <;> cases he
      · exact inv_putw h _
      · exact h
  | dtor =>
    simp only [step] at he
    split at he <;> cases he
    unfold dtor
    split
    · have := inv_putw h .term
      exact ⟨this.sc, this.cnt, this.vis, this.pend.imp_right (Or.imp_right (Or.imp_right fun g => g.same rfl rfl rfl)), this.last,
        fun hl => (this.coal hl).imp_right fun g => g.same rfl rfl rfl, this.host⟩
    · exact h
  | get =>
    simp only [step] at he
    split at he <;> cases he
    rename_i hi
    have hs : Sig s → Sig { s with worker := .batch (s.pq.take s.capacity), pq := s.pq.drop s.capacity } := by
      rintro (⟨r, h1, h2⟩ | ⟨wis, r, h1, h2, h3⟩)
      · rw [← List.take_append_drop s.capacity s.pq] at h2
        rcases List.mem_append.1 h2 with h2 | h2
        · exact .inr ⟨_, r, rfl, h1, h2⟩
        · exact .inl ⟨r, h1, h2⟩
      · rw [hi.1] at h1; cases h1
    refine ⟨h.sc, h.cnt, h.vis, ?_, h.last, ?_, ?_⟩
    · rcases h.pend with g | g | g | g
      · exact .inl g
      · rw [hi.1] at g; cases g
      · rw [hi.1] at g; cases g
      · exact .inr (.inr (.inr (hs g)))
    · intro hl
      rcases h.coal hl with g | g
      · rw [hi.1] at g; cases g
      · exact .inr (hs g)
    · intro seen f hh
      obtain ⟨h1, h2, h3⟩ := h.host seen f hh
      refine ⟨h1, h2, ?_⟩
      rcases h3 with g | g | g | g
      · exact .inl g
      · exact .inr (.inl g)
      · rw [hi.1] at g; cases g
      · rw [hi.1] at g; cases g
  | proc =>
    simp only [step] at he
    split at he
    · rename_i wis hw
      cases he
      unfold proc
      simp only []
      split
      · exact ⟨h.sc, h.cnt, h.vis, .inr (.inr (.inl rfl)), h.last, fun _ => .inl rfl,
          fun seen f hh => ⟨(h.host seen f hh).1, (h.host seen f hh).2.1, .inr (.inr (.inr rfl))⟩⟩
      · split
        · exact inv_drain h s.pq
        · rename_i hf
          have hs : Sig s → Sig { s with worker := .idle } := by
            rintro (⟨r, h1, h2⟩ | ⟨wis', r, h1, h2, h3⟩)
            · exact .inl ⟨r, h1, h2⟩
            · rw [hw] at h1; cases h1
              exact absurd ((see_flush wis _).2 (.inr ⟨r, h2, h3⟩)) hf
          refine ⟨h.sc, h.cnt, h.vis, ?_, h.last, ?_, ?_⟩
          · rcases h.pend with g | g | g | g
            · exact .inl g
            · rw [hw] at g; cases g
            · rw [hw] at g; cases g
            · exact .inr (.inr (.inr (hs g)))
          · intro hl
            rcases h.coal hl with g | g
            · rw [hw] at g; cases g
            · exact .inr (hs g)
          · intro seen f hh
            obtain ⟨h1, h2, h3⟩ := h.host seen f hh
            refine ⟨h1, h2, ?_⟩
            rcases h3 with g | g | g | g
            · exact .inl g
            · exact .inr (.inl g)
            · rw [hw] at g; cases g
            · rw [hw] at g; cases g
    · cases he
  | tick =>
    simp only [step] at he
    split at he <;> cases he
    exact inv_drain h s.pq
  | pop n =>
    simp only [step] at he
    split at he <;> cases he
    rename_i hi
    refine ⟨h.sc, ?_, ?_, .inr (.inl hi.1), h.last, ?_, ?_⟩
    · simp only [List.length_drop]; omega
    · simp only [List.length_drop]; omega
    · exact fun hl => (h.coal hl).imp_right fun g => g.same rfl rfl rfl
    · intro seen f hh
      obtain ⟨h1, h2, h3⟩ := h.host seen f hh
      exact ⟨h1, by simp only [List.length_drop]; omega, .inr (.inr (.inl hi.1))⟩
  | done =>
    simp only [step] at he
    split at he <;> cases he
    rename_i hi
    rw [hi.2, List.length_nil] at hv
    have hs : Sig s → Sig { s with worker := .idle } := by
      rintro (⟨r, h1, h2⟩ | ⟨wis', r, h1, h2, h3⟩)
      · exact .inl ⟨r, h1, h2⟩
      · rw [hi.1] at h1; cases h1
    refine ⟨h.sc, h.cnt, h.vis, .inl hv, h.last, ?_, ?_⟩
    · intro hl
      rcases h.coal hl with g | g
      · rw [hi.1] at g; cases g
      · exact .inr (hs g)
    · intro seen f hh
      obtain ⟨h1, h2, h3⟩ := h.host seen f hh
      rw [hi.2, List.length_nil] at h2
      exact ⟨h1, by rw [hi.2]; exact h2, .inr (.inl h2)⟩

theorem inv_run : ∀ (es : List Ev) {s s' : St}, Inv s → run s es = some s' → Inv s'
  | [], s, s', h, e => by cases e; exact h
  | ev :: es, s, s', h, e => by
    simp only [run] at e
    cases he : step s ev with
    | none => rw [he] at e; cases e
    | some s1 => rw [he] at e; exact inv_run es (inv_step h ev he) e

/-- **C51.**  A successful flush is never lost, coalesced or not: under sequential consistency, once the worker is back
at the top of its loop and no flush signal is waiting, every packet pushed before the last successful flush has left
the ring. -/
theorem C51_flush_partial (capacity : Nat) (es : List Ev) (s : St) (h : run (init false capacity) es = some s)
    (hw : s.worker = .idle) (hq : ∀ r, Wi.flush r ∉ s.pq) : s.flushed ≤ s.popped := by
  rcases (inv_run es (Inv.init capacity) h).pend with g | g | g | g
  · exact g
  · rw [hw] at g; cases g
  · rw [hw] at g; cases g
  · rcases g with ⟨r, -, h2⟩ | ⟨wis, r, h1, -, -⟩
    · exact absurd h2 (hq r)
    · rw [hw] at h1; cases h1

/-- Two packets, two flushes, the second one coalesced with the first. -/
def demo : List Ev := [.store 5, .commit, .load, .emit, .store 6, .commit, .load, .get, .proc, .pop 2, .done]

example : (run (init false 4) demo).map (fun s => (s.worker, s.pq, s.flushed, s.popped, s.pushed)) =
    some (.idle, [], 2, 2, 2) := by decide

/-- With store buffering a flush can be lost: the second packet is still in the host's store buffer when the host looks at
`out_run`, finds the number of its previous flush and takes that one to be still pending; the worker drains the ring
before the packet becomes visible.  It stays in the ring until some later flush. -/
theorem C51_flush_lost_counterexample : ∃ (es : List Ev) (s : St), run (init true 4) es = some s ∧ s.worker = .idle ∧
    s.pq = [] ∧ s.host = .idle ∧ s.buf = [] ∧ s.popped < s.flushed :=
  ⟨[.load, .emit, .store 7, .load, .get, .proc, .done, .commit],
   ⟨true, 4, [], .idle, 1, some 0, .idle, [], [7], 1, 0, 1, false⟩, by decide, rfl, rfl, rfl, rfl, by decide⟩

/-! ## Termination -/

theorem no_term_step {s s' : St} (e : Ev) (he : step s e = some s') (hd : e ≠ .dtor) (h1 : .term ∉ s.pq)
    (h2 : s.worker ≠ .stopped) (h3 : ∀ wis, s.worker = .batch wis → .term ∉ wis) :
    .term ∉ s'.pq ∧ s'.worker ≠ .stopped ∧ ∀ wis, s'.worker = .batch wis → .term ∉ wis := by
  cases e with
  | dtor => exact absurd rfl hd
  | store v => simp only [step] at he; split at he <;> cases he; exact ⟨h1, h2, h3⟩
  | commit => simp only [step] at he; split at he <;> cases he; exact ⟨h1, h2, h3⟩
  | drop => simp only [step] at he; split at he <;> cases he; exact ⟨h1, h2, h3⟩
  | load =>
    simp only [step] at he; split at he <;> cases he
    unfold load; split <;> exact ⟨h1, h2, h3⟩
  | emit =>
    simp only [step] at he
    split at he
    · split at he <;> cases he
      unfold emit
      split
      · refine ⟨?_, h2, h3⟩
        simp only [List.mem_append, List.mem_singleton, reduceCtorEq, or_false]; exact h1
      · exact ⟨h1, h2, h3⟩
    · cases he
  | put w =>
    simp only [step] at he
    cases w with
    | term => cases he
    | flush r => cases he
    | data v =>
      simp only [] at he
      split at he <;> cases he
      · refine ⟨?_, h2, h3⟩
        simp only [List.mem_append, List.mem_singleton, reduceCtorEq, or_false]; exact h1
      · exact ⟨h1, h2, h3⟩
    | nudge =>
      simp only [] at he
      split at he <;> cases he
      · refine ⟨?_, h2, h3⟩
        simp only [List.mem_append, List.mem_singleton, reduceCtorEq, or_false]; exact h1
      · exact ⟨h1, h2, h3⟩
  | get =>
    simp only [step] at he
    split at he <;> cases he
    refine ⟨fun h => h1 (List.mem_of_mem_drop h), (fun h => by cases h), ?_⟩
    intro wis hw
    cases hw
    exact fun h => h1 (List.mem_of_mem_take h)
  | proc =>
    simp only [step] at he
    split at he
    · rename_i wis hw
      cases he
      unfold proc
      have hn : (wis.foldl Ctx.see ⟨s.outRun, false, false⟩).termSeen ≠ true := by
        intro h
        rcases (see_term wis _).1 h with h | h
        · cases h
        · exact h3 wis hw h
      simp only [if_neg hn]
      split
      · exact ⟨h1, (fun h => by cases h), (fun wis h => by cases h)⟩
      · exact ⟨h1, (fun h => by cases h), (fun wis h => by cases h)⟩
    · cases he
  | tick =>
    simp only [step] at he
    split at he <;> cases he
    exact ⟨h1, (fun h => by cases h), (fun wis h => by cases h)⟩
  | pop n =>
    simp only [step] at he
    split at he <;> cases he
    exact ⟨h1, h2, h3⟩
  | done =>
    simp only [step] at he
    split at he <;> cases he
    exact ⟨h1, (fun h => by cases h), (fun wis h => by cases h)⟩

theorem no_term_run : ∀ (es : List Ev) {s s' : St}, run s es = some s' → .dtor ∉ es → .term ∉ s.pq →
    s.worker ≠ .stopped → (∀ wis, s.worker = .batch wis → .term ∉ wis) → s'.worker ≠ .stopped
  | [], s, s', e, _, _, h2, _ => by cases e; exact h2
  | ev :: es, s, s', e, hd, h1, h2, h3 => by
    simp only [run] at e
    cases he : step s ev with
    | none => rw [he] at e; cases e
    | some s1 =>
      rw [he] at e
      obtain ⟨a, b, c⟩ := no_term_step ev he (fun h => hd (by rw [h]; exact List.mem_cons_self)) h1 h2 h3
      exact no_term_run es e (fun h => hd (List.mem_cons_of_mem _ h)) a b c

/-- The worker stops only when told to. -/
theorem C51_worker_runs (tso : Bool) (capacity : Nat) (es : List Ev) (s : St) (h : run (init tso capacity) es = some s)
    (hd : .dtor ∉ es) : s.worker ≠ .stopped :=
  no_term_run es h hd (fun h => by cases h) (fun h => by cases h) (fun wis h => by cases h)

/-- When the queue is full at the time of destruction, the termination signal is refused, nobody looks at the result,
and the worker never stops: `pthread_join` (rtpp_packetport.c:541) waits forever. -/
theorem C51_term_lost_counterexample : ∃ (es : List Ev) (s : St), run (init false 1) es = some s ∧ .dtor ∈ es ∧
    ∀ (es' : List Ev) (s' : St), .dtor ∉ es' → run s es' = some s' → s'.worker ≠ .stopped :=
  ⟨[.put (.data (some 1)), .put (.data (some 2)), .dtor],
   ⟨false, 1, [.data (some 1), .data (some 2)], .idle, 0, none, .idle, [], [], 0, 0, 0, false⟩, by decide, by decide,
   fun es' s' hd h => no_term_run es' h hd (by decide) (by decide) (fun wis h => by cases h)⟩

/-- The library's packets wait in a queue of limited length before they reach the ring; when that is full, the newest
packet is refused and the older ones stay. -/
theorem C51_send_refuses_newest_counterexample : ∃ (es : List Ev) (s : St), run (init false 1) es = some s ∧
    step s (.put (.data (some 3))) = some s ∧ s.pq = [.data (some 1), .data (some 2)] :=
  ⟨[.put (.data (some 1)), .put (.data (some 2))],
   ⟨false, 1, [.data (some 1), .data (some 2)], .idle, 0, none, .idle, [], [], 0, 0, 0, false⟩, by decide, by decide, rfl⟩

/-- If it is accepted, the worker stops as soon as it gets there. -/
theorem C51_term_accepted (s : St) (wis : List Wi) (hw : s.worker = .batch wis) (ht : .term ∈ wis) :
    ∃ s', step s .proc = some s' ∧ s'.worker = .stopped := by
  refine ⟨proc s wis, by simp only [step, hw], ?_⟩
  unfold proc
  simp only [(see_term wis ⟨s.outRun, false, false⟩).2 (.inr ht), if_true]

end Verif.Packetport.Flush
