import Verif.Conns.Round

/-!
# C50: the table of control connections
-/

namespace Verif.Conns

theorem look_served (out : Nat → Int) (p : Pfd) (c : Conn) :
    (look out p c).1.filterMap Ev.servedId = if Served p.rev c then [c.id] else [] := by
  unfold look
  rw [hangup_iff]
  have hd : (destroy c).filterMap Ev.servedId = [] := by
    unfold destroy
    split
    · split <;> rfl
    · rfl
  by_cases ho : Over p.rev c
  · simp [ho, Served, hd]
  · cases hi : p.rev.inp with
    | false => simp [ho, Served, hi]
    | true =>
      by_cases hr : recycle c.sock.kind (out c.id) = true
      · simp only [ho, decide_false, Bool.false_eq_true, if_false, Bool.not_true, hr, if_true]
        rw [if_pos ⟨hi, ho⟩]
        simp [Ev.servedId, hd]
      · simp only [ho, decide_false, Bool.false_eq_true, if_false, Bool.not_true, hr]
        rw [if_pos ⟨hi, ho⟩]
        rfl

theorem destroy_gone (c : Conn) : (destroy c).filterMap Ev.goneId = [c.id] := by
  unfold destroy
  split
  · split <;> rfl
  · rfl

theorem destroy_close (c : Conn) : (destroy c).filterMap Ev.closeFd = c.owned := by
  unfold destroy Conn.owned
  by_cases h1 : c.fdIn = c.sock.fdIn
  · simp [h1, Ev.closeFd]
  · by_cases h2 : c.fdOut = c.fdIn
    · rw [if_pos h1, if_neg h1, if_pos h2, if_neg (by simp [h2])]
      rfl
    · rw [if_pos h1, if_neg h1, if_neg h2, if_pos h2]
      rfl

theorem destroy_took (c : Conn) : (destroy c).filterMap Ev.tookFd = [] := by
  unfold destroy
  split
  · split <;> rfl
  · rfl

theorem look_ends (out : Nat → Int) (p : Pfd) (c : Conn) {β : Type} (f : Ev → Option β) (hf : ∀ i, f (.served i) = none) :
    (look out p c).1.filterMap f = if Ends p.rev c (out c.id) then (destroy c).filterMap f else [] := by
  have h := look_stays out p c
  unfold look at h ⊢
  split at h
  · rename_i hh
    rw [if_pos hh]
    rw [if_pos (by simpa using h)]
  · rename_i hh
    rw [if_neg hh]
    split at h
    · rename_i h2
      rw [if_pos h2, if_neg (by simpa using h)]
      rfl
    · rename_i h2
      rw [if_neg h2]
      split at h
      · rename_i h3
        rw [if_pos h3, if_pos (by simpa using h)]
        simp [hf]
      · rename_i h3
        rw [if_neg h3, if_neg (by simpa using h)]
        simp [hf]

theorem flat_filter {α β γ : Type} (l : List α) (g : α → List β) (f : β → Option γ) (P : α → Prop) [DecidablePred P] (h : α → List γ)
    (hg : ∀ a, (g a).filterMap f = if P a then h a else []) :
    (l.flatMap g).filterMap f = (l.filter fun a => decide (P a)).flatMap h := by
  induction l with
  | nil => rfl
  | cons a l ih =>
    rw [List.flatMap_cons, List.filterMap_append, ih, hg]
    by_cases hp : P a <;> simp [hp]

theorem pairs_flat {β : Type} (revs : Nat → Rev) (cs : List Conn) (P : Rev → Conn → Prop) [∀ r c, Decidable (P r c)] (h : Conn → List β) :
    ((pairs revs cs).filter fun q => decide (P q.1.rev q.2)).flatMap (fun q => h q.2)
      = (((answered revs cs).filter fun a => decide (P a.1 a.2)).map (·.2)).flatMap h := by
  unfold pairs
  induction answered revs cs with
  | nil => rfl
  | cons a l ih =>
    simp only [List.map_cons, List.filter_cons]
    by_cases hp : P a.1 a.2
    · simp only [hp, decide_true, if_true, List.flatMap_cons, List.map_cons, ih]
    · simp only [hp, decide_false, Bool.false_eq_true, if_false, ih]

theorem kept_survivors (revs : Nat → Rev) (out : Nat → Int) (cs : List Conn) :
    (kept out (pairs revs cs)).map (·.2) = survivors revs out cs := by
  unfold kept survivors pairs
  simp only [look_stays, List.filter_map, List.map_map]
  rfl

theorem kept_fds (revs : Nat → Rev) (out : Nat → Int) (cs : List Conn) :
    ((kept out (pairs revs cs)).map (·.1)).map (·.fd) = (survivors revs out cs).map (·.fdIn) := by
  unfold kept survivors pairs
  simp only [look_stays, List.filter_map, List.map_map]
  rfl

theorem flatMap_single {α β : Type} (l : List α) (f : α → β) : l.flatMap (fun a => [f a]) = l.map f := by
  induction l with
  | nil => rfl
  | cons a l ih => simp [ih]

/-- One turn of the command thread, whatever `poll` says and whatever the commands come to: the connections after it are those before it without
the ones that end, in the same order and still each with its own descriptor; each connection that has something to read is served exactly once,
in order, whatever was removed before it; each connection that ends is freed exactly once and its descriptors are closed, and no others; shutting
down is ordered exactly if the standard input that is the only control socket has ended. -/
theorem C50_turn (t : Tbl) (w : Nat) (cs : List Conn) (nready : Int) (revs : Nat → Rev) (out : Nat → Int) (h : Holds t w cs) (hn : 0 < nready) :
    ∃ t' log, round t nready revs out = .ok (t', log) ∧ Holds t' w (survivors revs out cs) ∧
      log.filterMap Ev.servedId = (servedIn revs cs).map (·.id) ∧
      log.filterMap Ev.goneId = (ended revs out cs).map (·.id) ∧
      log.filterMap Ev.closeFd = (ended revs out cs).flatMap (·.owned) ∧
      log.filterMap Ev.tookFd = [] ∧ t'.fresh = t.fresh ∧
      (t'.slow = true ↔ t.slow = true ∨ ∃ c ∈ ended revs out cs, c.sock.kind = .stdio ∧ c.sock.exitOnClose = true) := by
  obtain ⟨p0, ps, rest, r0, crest, hp, hw, hm, hr⟩ := h.split
  have hfill := fill_split revs p0 ps rest cs hm
  rw [← hp, ← h.used] at hfill
  have hps := pairs_snd revs cs
  obtain ⟨rest1, crest1, hl1, hl2, hs⟩ := sweep_spec out (pairs revs cs) { t with pfds := fill revs t.used t.pfds } [⟨p0.fd, revs 0⟩] rest [r0]
    crest (by simpa using hfill) (by
      show t.rccs = _
      have : (pairs revs cs).map (fun q => some q.2) = cs.map some := by rw [show cs.map some = _ from congrArg _ hps.symm, List.map_map]; rfl
      rw [hr, this]
      rfl) rfl (by simp) (by
      show t.used = _
      rw [h.used, pairs_length]
      simp
      omega)
  unfold round
  rw [if_neg (by omega)]
  dsimp only
  have h0 : (fill revs t.used t.pfds)[0]? = some ⟨p0.fd, revs 0⟩ := by rw [hfill]; rfl
  rw [h0]
  dsimp only
  rw [show t.used - 1 = (pairs revs cs).length by rw [h.used, pairs_length]; rfl]
  simp only [List.length_singleton] at hs
  rw [hs]
  dsimp only
  have hmap : (kept out (pairs revs cs)).map (fun q => some q.2) = (survivors revs out cs).map some := by
    rw [← kept_survivors, List.map_map]
    rfl
  have hklen : (kept out (pairs revs cs)).length = (survivors revs out cs).length := by
    rw [← kept_survivors, List.length_map]
  refine ⟨_, _, rfl, ?_, ?_, ?_, ?_, ?_, rfl, ?_⟩
  · refine Holds.join (p0 := ⟨p0.fd, revs 0⟩) (ps := (kept out (pairs revs cs)).map (·.1)) (rest := rest1) (r0 := r0) (crest := crest1)
      rfl hw (kept_fds revs out cs) ?_ ?_ ?_
    · show _ = r0 :: ((survivors revs out cs).map some ++ crest1)
      rw [← hmap]
      rfl
    · show _ = (survivors revs out cs).length + 1
      dsimp only
      omega
    · have := h.size
      rw [hr] at this
      simp only [List.length_cons, List.length_append, List.length_map] at this
      rw [pairs_length] at hl2
      simp only [List.length_append, List.length_map, List.length_singleton]
      omega
  · rw [List.filterMap_append]
    have : List.filterMap Ev.servedId (if (revs 0).inp = true then [.drained p0.fd] else []) = [] := by split <;> rfl
    rw [this, List.nil_append, flat_filter _ _ _ (fun q => Served q.1.rev q.2) (fun q => [q.2.id]) (fun q => look_served out q.1 q.2),
      pairs_flat revs cs Served (fun c => [c.id]), flatMap_single]
    rfl
  · rw [List.filterMap_append]
    have : List.filterMap Ev.goneId (if (revs 0).inp = true then [.drained p0.fd] else []) = [] := by split <;> rfl
    rw [this, List.nil_append, flat_filter _ _ _ (fun q => Ends q.1.rev q.2 (out q.2.id)) (fun q => [q.2.id])
      (fun q => by rw [look_ends _ _ _ _ (fun _ => rfl), destroy_gone]),
      pairs_flat revs cs (fun r c => Ends r c (out c.id)) (fun c => [c.id]), flatMap_single]
    rfl
  · rw [List.filterMap_append]
    have : List.filterMap Ev.closeFd (if (revs 0).inp = true then [.drained p0.fd] else []) = [] := by split <;> rfl
    rw [this, List.nil_append, flat_filter _ _ _ (fun q => Ends q.1.rev q.2 (out q.2.id)) (fun q => q.2.owned)
      (fun q => by rw [look_ends _ _ _ _ (fun _ => rfl), destroy_close]),
      pairs_flat revs cs (fun r c => Ends r c (out c.id)) (fun c => c.owned)]
    rfl
  · rw [List.filterMap_append]
    have : List.filterMap Ev.tookFd (if (revs 0).inp = true then [.drained p0.fd] else []) = [] := by split <;> rfl
    rw [this, List.nil_append, flat_filter _ _ _ (fun q => Ends q.1.rev q.2 (out q.2.id)) (fun _ => [])
      (fun q => by rw [look_ends _ _ _ _ (fun _ => rfl), destroy_took])]
    induction (List.filter (fun a => decide (Ends a.1.rev a.2 (out a.2.id))) (pairs revs cs)) with
    | nil => rfl
    | cons a l ih => exact ih
  · simp only [Bool.or_eq_true]
    apply or_congr Iff.rfl
    simp only [closes, List.any_eq_true, look_stays, Bool.not_not, Bool.and_eq_true, decide_eq_true_eq, beq_iff_eq]
    constructor
    · rintro ⟨q, hq, he, hk⟩
      obtain ⟨a, ha, rfl⟩ := List.mem_map.1 hq
      exact ⟨a.2, List.mem_map.2 ⟨a, List.mem_filter.2 ⟨ha, by simpa using he⟩, rfl⟩, hk⟩
    · rintro ⟨c, hc, hk⟩
      obtain ⟨a, ha, rfl⟩ := List.mem_map.1 hc
      obtain ⟨ha, he⟩ := List.mem_filter.1 ha
      exact ⟨_, List.mem_map.2 ⟨a, ha, rfl⟩, by simpa using he, hk⟩

theorem regrow_keeps (p0 : Pfd) (ps rest : List Pfd) : ∃ x, regrow (p0 :: (ps ++ rest)) (ps.length + 2) = p0 :: (ps ++ [x]) := by
  unfold regrow
  cases rest with
  | nil =>
    refine ⟨⟨0, ⟨false, false⟩⟩, ?_⟩
    rw [List.append_nil, show p0 :: ps ++ List.replicate (ps.length + 2) (⟨0, ⟨false, false⟩⟩ : Pfd)
      = (p0 :: (ps ++ [⟨0, ⟨false, false⟩⟩])) ++ List.replicate (ps.length + 1) (⟨0, ⟨false, false⟩⟩ : Pfd) by simp [List.replicate_succ]]
    rw [List.take_append_of_le_length (by simp)]
    rw [List.take_of_length_le (by simp)]
  | cons x rest =>
    refine ⟨x, ?_⟩
    rw [show p0 :: (ps ++ x :: rest) ++ List.replicate (ps.length + 2) (⟨0, ⟨false, false⟩⟩ : Pfd)
      = (p0 :: (ps ++ [x])) ++ (rest ++ List.replicate (ps.length + 2) (⟨0, ⟨false, false⟩⟩ : Pfd)) by simp]
    rw [List.take_append_of_le_length (by simp)]
    rw [List.take_of_length_le (by simp)]

/-- A new connection is added at the end if there is room and memory; if not its descriptor is closed.  The others stay as they are either way. -/
theorem C50_accept (t : Tbl) (w : Nat) (cs : List Conn) (s : Sock) (fd : Nat) (mem1 mem2 : Bool) (h : Holds t w cs) :
    ∃ t' log, accept t s fd mem1 mem2 = .ok (t', log) ∧ t'.slow = t.slow ∧
      if cs.length < 99 ∧ mem1 = true ∧ mem2 = true then
        Holds t' w (cs ++ [⟨t.fresh, fd, fd, s⟩]) ∧ log = [.took fd] ∧ t'.fresh = t.fresh + 1
      else Holds t' w cs ∧ log = [.took fd, .close fd] ∧ t'.fresh = t.fresh := by
  have hu := h.used
  unfold accept
  by_cases h1 : maxConns ≤ t.used
  · rw [if_pos h1]
    refine ⟨_, _, rfl, rfl, ?_⟩
    rw [if_neg (by unfold maxConns at h1; omega)]
    exact ⟨h, rfl, rfl⟩
  · rw [if_neg h1]
    cases mem1 with
    | false => exact ⟨_, _, rfl, rfl, by simp [h]⟩
    | true =>
      obtain ⟨p0, ps, rest, r0, crest, hp, hw, hm, hr⟩ := h.split
      have hl : ps.length = cs.length := by simpa using congrArg List.length hm
      obtain ⟨x, hx⟩ := regrow_keeps p0 ps rest
      have hreg : regrow t.pfds (t.used + 1) = p0 :: (ps ++ [x]) := by
        rw [hp, hu, ← hl]
        exact hx
      simp only [hreg, Bool.not_true, Bool.false_eq_true, if_false]
      cases mem2 with
      | false =>
        refine ⟨_, _, rfl, rfl, ?_⟩
        rw [if_neg (by simp)]
        exact ⟨Holds.join rfl hw hm hr hu h.size, rfl, rfl⟩
      | true =>
        unfold maxConns at h1
        have hs := h.size
        simp only [Bool.not_true, Bool.false_eq_true, if_false]
        rw [if_pos ⟨by simp only [List.length_cons, List.length_append, List.length_nil]; omega, by omega⟩]
        refine ⟨_, _, rfl, rfl, ?_⟩
        rw [if_pos ⟨by omega, trivial, trivial⟩]
        refine ⟨?_, rfl, rfl⟩
        have hc : crest ≠ [] := by
          rintro rfl
          rw [hr] at hs
          simp at hs
          omega
        obtain ⟨y, crest', rfl⟩ := List.exists_cons_of_ne_nil hc
        refine Holds.join (p0 := p0) (ps := ps ++ [⟨fd, ⟨false, false⟩⟩]) (rest := []) (r0 := r0) (crest := crest') ?_ hw ?_ ?_ ?_ ?_
        · show List.set _ _ _ = _
          rw [hu, ← hl, List.set_cons_succ]
          simp
        · simp [hm]
        · show List.set _ _ _ = _
          rw [hr, hu, List.set_cons_succ]
          congr 1
          rw [List.set_append_right _ _ (by simp)]
          simp
        · simp [hu]
        · simpa using hs

theorem kernel_append (l1 l2 : List Ev) (fds : List Nat) : kernel fds (l1 ++ l2) = (kernel fds l1).bind fun f => kernel f l2 := by
  induction l1 generalizing fds with
  | nil => rfl
  | cons e l ih =>
    cases e <;> simp only [List.cons_append, kernel] <;> first | exact ih _ | (split <;> first | exact ih _ | rfl)

theorem fair_append (l1 l2 : List Ev) (fds : List Nat) (h : Fair fds (l1 ++ l2)) :
    Fair fds l1 ∧ ∀ f, kernel fds l1 = some f → Fair f l2 := by
  induction l1 generalizing fds with
  | nil => exact ⟨trivial, fun f hf => by cases hf; exact h⟩
  | cons e l ih =>
    cases e with
    | took f =>
      obtain ⟨h1, h2⟩ := h
      obtain ⟨h3, h4⟩ := ih _ h2
      refine ⟨⟨h1, h3⟩, fun g hg => h4 g ?_⟩
      simpa [kernel, h1] using hg
    | close f =>
      obtain ⟨h3, h4⟩ := ih _ h
      refine ⟨h3, fun g hg => h4 g ?_⟩
      simp only [kernel] at hg
      split at hg
      · exact hg
      · cases hg
    | served i => exact ih fds h
    | gone i => exact ih fds h
    | drained i => exact ih fds h

/-- Closing descriptors that are open. -/
theorem kernel_closes (log : List Ev) : ∀ (fds ys : List Nat), log.filterMap Ev.tookFd = [] →
    fds.Perm (log.filterMap Ev.closeFd ++ ys) → ∃ fds', kernel fds log = some fds' ∧ fds'.Perm ys := by
  induction log with
  | nil => exact fun fds ys _ h => ⟨fds, rfl, h⟩
  | cons e l ih =>
    intro fds ys ht h
    cases e with
    | took f => simp [Ev.tookFd] at ht
    | close f =>
      have h' : fds.Perm (f :: (l.filterMap Ev.closeFd ++ ys)) := h
      have hmem : f ∈ fds := h'.symm.subset List.mem_cons_self
      have he : (fds.erase f).Perm (l.filterMap Ev.closeFd ++ ys) := by
        have := h'.erase f
        rwa [List.erase_cons_head] at this
      obtain ⟨fds', h1, h2⟩ := ih _ ys ht he
      exact ⟨fds', by simpa [kernel, hmem] using h1, h2⟩
    | served i => exact ih fds ys ht h
    | gone i => exact ih fds ys ht h
    | drained i => exact ih fds ys ht h

theorem answered_snd (revs : Nat → Rev) (cs : List Conn) : (answered revs cs).map (·.2) = cs := by
  apply List.ext_getElem?
  intro k
  simp only [answered, List.getElem?_map, List.getElem?_mapIdx]
  cases cs[k]? <;> rfl

theorem parts_perm (revs : Nat → Rev) (out : Nat → Int) (cs : List Conn) : (ended revs out cs ++ survivors revs out cs).Perm cs := by
  unfold ended survivors
  rw [← List.map_append]
  have := (List.filter_append_perm (fun a : Rev × Conn => decide (Ends a.1 a.2 (out a.2.id))) (answered revs cs)).map (·.2)
  rwa [answered_snd] at this

theorem act_total (t : Tbl) (w : Nat) (cs : List Conn) (a : Act) (h : Holds t w cs) : ∃ t1 l1 cs1, act t a = .ok (t1, l1) ∧ Holds t1 w cs1 := by
  cases a with
  | round n revs out =>
    by_cases hn : 0 < n
    · obtain ⟨t1, l1, h1, h2, _⟩ := C50_turn t w cs n revs out h hn
      exact ⟨t1, l1, _, h1, h2⟩
    · refine ⟨t, [], cs, ?_, h⟩
      show round t n revs out = _
      unfold round
      rw [if_pos (by omega)]
  | accept s fd m1 m2 =>
    obtain ⟨t1, l1, h1, _, h2⟩ := C50_accept t w cs s fd m1 m2 h
    split at h2
    · exact ⟨t1, l1, _, h1, h2.1⟩
    · exact ⟨t1, l1, _, h1, h2.1⟩

theorem run_total (t : Tbl) (w : Nat) (cs : List Conn) (acts : List Act) (h : Holds t w cs) : ∃ t' l', run t acts = .ok (t', l') := by
  induction acts generalizing t cs with
  | nil => exact ⟨_, _, rfl⟩
  | cons a as ih =>
    obtain ⟨t1, l1, cs1, e1, h1⟩ := act_total t w cs a h
    obtain ⟨t2, l2, e2⟩ := ih t1 cs1 h1
    exact ⟨t2, l1 ++ l2, by simp only [run, e1, e2]⟩

/-- The listening sockets are among the descriptors `base`. -/
def Listens (base : List Nat) : List Act → Prop
  | [] => True
  | .accept s _ _ _ :: as => s.fdIn ∈ base ∧ Listens base as
  | _ :: as => Listens base as

/-- Accepting and closing in any order: the two parts of the table always agree and hold all connections and nothing else.  The kernel never sees
a descriptor closed that is not open, and the descriptors open at the end are those of the program itself (`base`) and those of the connections in
the table, so none is lost.  Every record made so far is in the table or was freed, and never twice. -/
theorem C50_history (t : Tbl) (w : Nat) (cs : List Conn) (base fds : List Nat) (acts : List Act) (h : Holds t w cs)
    (hopen : fds.Perm (base ++ cs.flatMap (·.owned))) (hl : Listens base acts)
    (hf : ∀ t' log, run t acts = .ok (t', log) → Fair fds log) :
    ∃ t' log cs' fds', run t acts = .ok (t', log) ∧ Holds t' w cs' ∧
      kernel fds log = some fds' ∧ fds'.Perm (base ++ cs'.flatMap (·.owned)) ∧
      (log.filterMap Ev.goneId ++ cs'.map (·.id)).Perm (cs.map (·.id) ++ List.range' t.fresh (t'.fresh - t.fresh)) ∧ t.fresh ≤ t'.fresh := by
  induction acts generalizing t cs fds with
  | nil => exact ⟨t, [], cs, fds, rfl, h, rfl, hopen, by simp, Nat.le_refl _⟩
  | cons a as ih =>
    have key : ∃ t1 l1 cs1, act t a = .ok (t1, l1) ∧ Holds t1 w cs1 ∧ Listens base as ∧
        (Fair fds l1 → ∃ fds1, kernel fds l1 = some fds1 ∧ fds1.Perm (base ++ cs1.flatMap (·.owned))) ∧ t.fresh ≤ t1.fresh ∧
        (l1.filterMap Ev.goneId ++ cs1.map (·.id)).Perm (cs.map (·.id) ++ List.range' t.fresh (t1.fresh - t.fresh)) := by
      cases a with
      | round n revs out =>
        by_cases hn : 0 < n
        · obtain ⟨t1, l1, h1, h2, h3, h4, h5, h6, h7, _⟩ := C50_turn t w cs n revs out h hn
          refine ⟨t1, l1, _, h1, h2, hl, fun _ => ?_, Nat.le_of_eq h7.symm, ?_⟩
          · apply kernel_closes l1 fds _ h6
            rw [h5]
            refine hopen.trans ?_
            have hp := ((parts_perm revs out cs).flatMap_right (·.owned)).symm
            rw [List.flatMap_append] at hp
            refine (hp.append_left base).trans ?_
            rw [← List.append_assoc, ← List.append_assoc]
            exact (List.perm_append_comm).append_right _
          · rw [h4, ← List.map_append, h7, Nat.sub_self, List.range'_zero, List.append_nil]
            exact (parts_perm revs out cs).map _
        · refine ⟨t, [], cs, ?_, h, hl, fun _ => ⟨fds, rfl, hopen⟩, Nat.le_refl _, by simp⟩
          show round t n revs out = _
          unfold round
          rw [if_pos (by omega)]
      | accept s fd m1 m2 =>
        obtain ⟨t1, l1, h1, _, h2⟩ := C50_accept t w cs s fd m1 m2 h
        split at h2
        · obtain ⟨h3, rfl, h5⟩ := h2
          refine ⟨t1, _, _, h1, h3, hl.2, fun hfair => ?_, by omega, ?_⟩
          · have hn : fd ∉ fds := hfair.1
            refine ⟨fd :: fds, by simp [kernel, hn], ?_⟩
            have hne : fd ≠ s.fdIn := by
              rintro rfl
              exact hn (hopen.symm.subset (List.mem_append_left _ hl.1))
            have ho : Conn.owned ⟨t.fresh, fd, fd, s⟩ = [fd] := by simp [Conn.owned, hne]
            rw [List.flatMap_append, List.flatMap_cons, List.flatMap_nil, List.append_nil, ho, ← List.append_assoc]
            exact (hopen.cons fd).trans (List.perm_append_comm (l₁ := [fd]))
          · rw [h5, Nat.add_sub_cancel_left]
            show (cs ++ [(⟨t.fresh, fd, fd, s⟩ : Conn)]).map (·.id) |>.Perm _
            simp
        · obtain ⟨h3, rfl, h5⟩ := h2
          refine ⟨t1, _, _, h1, h3, hl.2, fun hfair => ?_, by omega, ?_⟩
          · have hn : fd ∉ fds := hfair.1
            exact ⟨fds, by simp [kernel, hn], hopen⟩
          · rw [h5]
            show (cs.map (·.id)).Perm _
            simp
    obtain ⟨t1, l1, cs1, e1, h1, hl1, hk, hle, hperm⟩ := key
    have hrun : ∀ t2 l2, run t1 as = .ok (t2, l2) → run t (a :: as) = .ok (t2, l1 ++ l2) := by
      intro t2 l2 h2
      simp only [run, e1, h2]
    obtain ⟨t2, l2, h2⟩ := run_total t1 w cs1 as h1
    have hfair := fair_append l1 l2 fds (hf t2 _ (hrun t2 l2 h2))
    obtain ⟨fds1, hk1, hp1⟩ := hk hfair.1
    obtain ⟨t', l', cs', fds', r1, r2, r3, r4, r5, r6⟩ := ih t1 cs1 fds1 h1 hp1 hl1 (fun t' l' h' => by
      rw [h2] at h'
      cases h'
      exact hfair.2 _ hk1)
    refine ⟨t', l1 ++ l', cs', fds', hrun _ _ r1, r2, ?_, r4, ?_, by omega⟩
    · rw [kernel_append, hk1]
      exact r3
    · rw [List.filterMap_append, List.append_assoc]
      refine (r5.append_left _).trans ?_
      rw [← List.append_assoc]
      refine (hperm.append_right _).trans ?_
      rw [List.append_assoc]
      apply List.Perm.append_left
      rw [show t'.fresh - t.fresh = (t1.fresh - t.fresh) + (t'.fresh - t1.fresh) by omega, ← List.range'_append_1,
        show t.fresh + (t1.fresh - t.fresh) = t1.fresh by omega]

end Verif.Conns
