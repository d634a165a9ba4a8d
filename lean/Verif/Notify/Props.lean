import Verif.Notify.Step
import Mathlib.Data.List.Forall2

/-!
# C46: notifications

Items name existing targets (`rttp` is a pointer got from the set, whose entries are never removed).
-/

namespace Verif.Notify

/-- A set of targets: a connected target has a descriptor, and a target given by a descriptor counts as connected. -/
def Ready (ts : List Target) : Prop := ∀ t ∈ ts, (t.up = true → t.fd ≠ none) ∧ (t.isFd = true → t.up = true)

/-- The items name targets. -/
def Known (ts : List Target) (items : List (Nat × List UInt8)) : Prop := ∀ x ∈ items, x.1 < ts.length

theorem ready_set {ts : List Target} {i : Nat} {t t' : Target} {data : List UInt8} {n : Nat} {log : List Ev} (hr : Ready ts)
    (ht : ts[i]? = some t) (hd : Done i data n t t' log) : Ready (ts.set i t') := by
  intro u hu
  rcases List.mem_or_eq_of_mem_set hu with h | rfl
  · exact hr u h
  · refine ⟨hd.ok, fun hf => ?_⟩
    have hk : t.isFd = true := by rw [← hd.step.kind.1]; exact hf
    rw [hd.fd hk]
    exact (hr t (List.mem_of_getElem? ht)).2 hk

/-- One item after another. -/
inductive Runs : List Target → List (Nat × List UInt8) → List (List Ev) → List Target → Prop
  | nil (ts : List Target) : Runs ts [] [] ts
  | cons {ts ts' : List Target} {i : Nat} {tag : List UInt8} {items : List (Nat × List UInt8)} {t t' : Target} {log : List Ev}
      {logs : List (List Ev)} (ht : ts[i]? = some t) (hd : Done i (tag ++ [10]) 4 t t' log) (r : Runs (ts.set i t') items logs ts') :
      Runs ts ((i, tag) :: items) (log :: logs) ts'

theorem runs_of : ∀ (items : List (Nat × List UInt8)) (ts : List Target) (env : List Ans) (ts' : List Target) (env' : List Ans)
    (logs : List (List Ev)), Ready ts → run ts env items = .ok (ts', env', logs) → Runs ts items logs ts'
  | [], ts, env, ts', env', logs, _, h => by
    simp only [run, Except.ok.injEq, Prod.mk.injEq] at h
    obtain ⟨rfl, rfl, rfl⟩ := h
    exact .nil _
  | (i, tag) :: items, ts, env, ts', env', logs, hr, h => by
    unfold run at h
    cases ht : ts[i]? with
    | none => rw [ht] at h; cases h
    | some t =>
      rw [ht] at h
      simp only at h
      have hrt := hr t (List.mem_of_getElem? ht)
      obtain ⟨_, _, hn⟩ := notify_spec i (message tag) 3 t env hrt.1
      cases he : notify i (message tag) 3 t env with
      | error e => rw [he] at h; cases h
      | ok x =>
        obtain ⟨t', env1, log⟩ := x
        rw [he] at h
        simp only at h
        have hd := hn t' env1 log he (fun _ _ => by simp)
        cases hx : run (ts.set i t') env1 items with
        | error e => rw [hx] at h; cases h
        | ok y =>
          obtain ⟨ts2, env2, logs2⟩ := y
          rw [hx] at h
          simp only [Except.ok.injEq, Prod.mk.injEq] at h
          obtain ⟨rfl, rfl, rfl⟩ := h
          exact .cons ht hd (runs_of items _ _ _ _ _ (ready_set hr ht hd) hx)

/-- What is done for one item, a tag for target `i`: at least one call is made and only calls for that target; at most four connections are
tried and at most four times something is sent, always the tag and a newline; a success is the last call; when there is none, then four attempts
to send have failed or the connection could not be made. -/
def Served (i : Nat) (tag : List UInt8) (log : List Ev) : Prop :=
  log ≠ [] ∧ (∀ e ∈ log, e.target = i) ∧ log.countP Ev.isConnect ≤ 4 ∧ log.countP Ev.isSend ≤ 4 ∧
  (∀ j f d n, .send j f d n ∈ log → d = tag ++ [10]) ∧
  ((∃ pre f n, log = pre ++ [.send i f (tag ++ [10]) (some n)] ∧ n ≤ tag.length + 1 ∧ ∀ e ∈ pre, e.isSent = false) ∨
    (∀ e ∈ log, e.isSent = false) ∧ (log.countP Ev.isSend = 4 ∨ ∃ e ∈ log, e.refused = true))

/-- Every item gets its turn, in order, whatever happens to the others, and is served with a bounded number of calls. -/
theorem C46_served (ts : List Target) (env : List Ans) (items : List (Nat × List UInt8)) (ts' : List Target) (env' : List Ans)
    (logs : List (List Ev)) (hr : Ready ts) (h : run ts env items = .ok (ts', env', logs)) :
    List.Forall₂ (fun x log => Served x.1 x.2 log) items logs := by
  have hruns := runs_of items ts env ts' env' logs hr h
  clear h hr
  induction hruns with
  | nil => exact .nil
  | cons ht hd _ ih =>
    refine .cons ⟨hd.some', hd.step.mine, hd.connects, hd.sends, fun j f d n he => hd.text _ he j f d n rfl, ?_⟩ ih
    rcases hd.last with ⟨pre, f, n, e1, e2, e3⟩ | ⟨e1, e2⟩
    · refine .inl ⟨pre, f, n, e1, by simpa using e2, fun e he => ?_⟩
      have := List.countP_eq_zero.1 e3 e he
      simpa using this
    · refine .inr ⟨fun e he => ?_, e2⟩
      have := List.countP_eq_zero.1 e1 e he
      simpa using this

/-- The worker never stops as long as no target is given by a descriptor, whatever the calls answer.  Missing: targets given by a descriptor
(`C46_fd_counterexample`). -/
theorem C46_alive_partial : ∀ (items : List (Nat × List UInt8)) (ts : List Target) (env : List Ans) (e : Fault), Ready ts → Known ts items →
    (∀ t ∈ ts, t.isFd = false) → run ts env items ≠ .error e
  | [], _, _, _, _, _, _ => by intro h; cases h
  | (i, tag) :: items, ts, env, e, hr, hkn, hk => by
    unfold run
    have hi : i < ts.length := hkn (i, tag) (by simp)
    have ht : ts[i]? = some ts[i] := List.getElem?_eq_getElem hi
    rw [ht]
    simp only
    have hm : ts[i] ∈ ts := List.getElem_mem hi
    obtain ⟨h1, _, h3⟩ := notify_spec i (message tag) 3 ts[i] env (hr _ hm).1
    cases he : notify i (message tag) 3 ts[i] env with
    | error e' => have := h1 e' he; rw [hk _ hm] at this; cases this
    | ok x =>
      obtain ⟨t', env1, log⟩ := x
      have hd := h3 t' env1 log he (fun _ _ => by simp)
      simp only
      have hx := C46_alive_partial items (ts.set i t') env1 (e := e) (ready_set hr ht hd)
        (fun y hy => by rw [List.length_set]; exact hkn y (List.mem_cons_of_mem _ hy))
        (fun u hu => by
          rcases List.mem_or_eq_of_mem_set hu with h | rfl
          · exact hk u h
          · rw [hd.step.kind.1]; exact hk _ hm)
      cases hy : run (ts.set i t') env1 items with
      | error e' =>
        simp only
        intro h
        cases h
        exact hx hy
      | ok y => simp only; intro h; cases h

theorem sendLoop_intr (data : List UInt8) (n : Nat) (env : List Ans) : sendLoop data (List.replicate n .intr ++ env) = sendLoop data env := by
  induction n with
  | zero => rfl
  | succ n ih => rw [List.replicate_succ, List.cons_append, sendLoop, ih]

/-- Interruptions by signals are no failures: over an open connection the notification gets through with the first send that is not
interrupted; without one, the same after one successful connection. -/
theorem C46_delivers (i : Nat) (tag : List UInt8) (ts : List Target) (t : Target) (ht : ts[i]? = some t) (n f : Nat) (rest : List Ans) :
    (t.up = true → t.fd = some f → run ts (List.replicate n .intr ++ .ok :: rest) [(i, tag)] =
      .ok (ts, rest, [[.send i f (tag ++ [10]) (some (tag.length + 1))]])) ∧
    (t.up = false → t.fd = none → t.isFd = false → t.bound = false →
      run ts (.fd f :: .ok :: (List.replicate n .intr ++ .ok :: rest)) [(i, tag)] =
      .ok (ts.set i { t with fd := some f, up := true }, rest,
        [[.socket i f, .connect i f true, .send i f (tag ++ [10]) (some (tag.length + 1))]])) := by
  constructor
  · intro hu hf
    have hself : ts.set i t = ts := by
      apply List.ext_getElem?
      intro j
      by_cases hj : i = j
      · subst hj; rw [List.getElem?_set_self (List.getElem?_eq_some_iff.1 ht).1, ht]
      · rw [List.getElem?_set_ne hj]
    have hn : notify i (message tag) 3 t (List.replicate n .intr ++ .ok :: rest) =
        .ok (t, rest, [.send i f (tag ++ [10]) (some (tag.length + 1))]) := by
      unfold notify attempt
      rw [if_pos hu]
      unfold transmit
      rw [hf]
      simp only [sendLoop_intr, sendLoop, message, List.length_append, List.length_singleton]
    unfold run
    rw [ht]
    simp only [hn, hself, run]
  · intro hu hf hk hb
    have hn : notify i (message tag) 3 t (.fd f :: .ok :: (List.replicate n .intr ++ .ok :: rest)) =
        .ok ({ t with fd := some f, up := true }, rest,
          [.socket i f, .connect i f true, .send i f (tag ++ [10]) (some (tag.length + 1))]) := by
      unfold notify attempt reconnect closing
      simp only [hu, hk, hf, hb, next, Bool.false_eq_true, if_false, if_true, List.nil_append, List.append_nil, transmit, sendLoop_intr, sendLoop,
        message, List.length_append, List.length_singleton, List.cons_append]
    unfold run
    rw [ht]
    simp only [hn, run]

/-- Targets without items keep their connection. -/
theorem C46_others (ts : List Target) (env : List Ans) (items : List (Nat × List UInt8)) (ts' : List Target) (env' : List Ans)
    (logs : List (List Ev)) (hr : Ready ts) (h : run ts env items = .ok (ts', env', logs)) (j : Nat) (hj : ∀ x ∈ items, x.1 ≠ j) :
    ts'[j]? = ts[j]? := by
  have hruns := runs_of items ts env ts' env' logs hr h
  clear h hr
  induction hruns with
  | nil => rfl
  | cons _ _ _ ih =>
    rw [ih (fun x hx => hj x (List.mem_cons_of_mem _ hx)), List.getElem?_set_ne (hj _ List.mem_cons_self)]

/-- What is delivered is taken from the items, in their order and each at most once. -/
theorem C46_order (ts : List Target) (env : List Ans) (items : List (Nat × List UInt8)) (ts' : List Target) (env' : List Ans)
    (logs : List (List Ev)) (hr : Ready ts) (h : run ts env items = .ok (ts', env', logs)) :
    ((logs.flatten.filterMap Ev.delivery).map fun d => (d.1, d.2.1)).Sublist (items.map fun x => (x.1, x.2 ++ [10])) := by
  have hs := C46_served ts env items ts' env' logs hr h
  clear h
  induction hs with
  | nil => exact .slnil
  | @cons x log xs logs hx _ ih =>
    rw [List.flatten_cons, List.filterMap_append, List.map_append, List.map_cons]
    have none_of : ∀ l : List Ev, (∀ e ∈ l, e.isSent = false) → l.filterMap Ev.delivery = [] := by
      intro l hl
      rw [List.filterMap_eq_nil_iff]
      intro e he
      have := hl e he
      cases e with
      | send _ _ _ r => cases r with
        | none => rfl
        | some n => cases this
      | _ => rfl
    rcases hx.2.2.2.2.2 with ⟨pre, f, n, e1, _, e3⟩ | ⟨e1, _⟩
    · rw [e1, List.filterMap_append, none_of pre e3]
      exact List.Sublist.cons_cons _ ih
    · rw [none_of log e1]
      exact List.Sublist.cons _ ih

/-- The descriptors in use are those of the targets, one each. -/
structure Held (ts : List Target) (k : Kern) : Prop where
  own : ∀ i t, ts[i]? = some t → Own i t k
  apart : ∀ (i j : Nat) (t u : Target) (f : Nat), ts[i]? = some t → ts[j]? = some u → t.fd = some f → u.fd = some f → i = j
  all : ∀ f, k f ≠ none → ∃ (i : Nat) (t : Target), ts[i]? = some t ∧ t.fd = some f

/-- As long as the kernel hands out unused descriptors, every call is made on an open descriptor in the right state, notifications are sent over a
connection to their target only, and no descriptor is lost: afterwards again each open descriptor belongs to one target. -/
theorem C46_descriptors (ts : List Target) (env : List Ans) (items : List (Nat × List UInt8)) (ts' : List Target) (env' : List Ans)
    (logs : List (List Ev)) (hr : Ready ts) (h : run ts env items = .ok (ts', env', logs)) (k : Kern) (hk : Held ts k)
    (hf : AllFresh k logs.flatten) : AllLegal k logs.flatten ∧ Held ts' (kfold k logs.flatten) := by
  have hruns := runs_of items ts env ts' env' logs hr h
  clear h hr
  induction hruns generalizing k with
  | nil => exact ⟨trivial, hk⟩
  | @cons ts ts' i tag items t t' log logs ht hd _ ih =>
    rw [List.flatten_cons, fresh_append] at hf
    rw [List.flatten_cons, legal_append, kfold_append]
    obtain ⟨l1, o1, f1⟩ := hd.step.kern k (hk.own i t ht) hf.1
    have hi : i < ts.length := (List.getElem?_eq_some_iff.1 ht).1
    have hset : ∀ j u, (ts.set i t')[j]? = some u → j = i ∧ u = t' ∨ j ≠ i ∧ ts[j]? = some u := by
      intro j u hu
      by_cases hj : j = i
      · subst hj
        rw [List.getElem?_set_self hi] at hu
        exact .inl ⟨rfl, (Option.some.inj hu).symm⟩
      · rw [List.getElem?_set_ne (fun h => hj h.symm)] at hu
        exact .inr ⟨hj, hu⟩
    -- the others' descriptors
    have others : ∀ j u f, j ≠ i → ts[j]? = some u → u.fd = some f → kfold k log f = k f ∧ t'.fd ≠ some f ∧ k f ≠ none := by
      intro j u f hj hu huf
      have ho := hk.own j u hu
      unfold Own at ho
      rw [huf] at ho
      have hne : t.fd ≠ some f := fun h => hj (hk.apart j i u t f hu ht huf h)
      obtain ⟨a, b⟩ := f1.1 f hne ho.1
      exact ⟨a, b, ho.1⟩
    have hheld : Held (ts.set i t') (kfold k log) := by
      refine ⟨?_, ?_, ?_⟩
      · intro j u hu
        rcases hset j u hu with ⟨rfl, rfl⟩ | ⟨hj, hu⟩
        · exact o1
        · have ho := hk.own j u hu
          unfold Own at ho ⊢
          cases huf : u.fd with
          | none => rw [huf] at ho; exact ho
          | some f =>
            rw [huf] at ho
            simp only at ho ⊢
            rw [(others j u f hj hu huf).1]
            exact ho
      · intro a b u v f hu hv huf hvf
        rcases hset a u hu with ⟨rfl, rfl⟩ | ⟨ha, hu2⟩
        · rcases hset b v hv with ⟨rfl, rfl⟩ | ⟨hb, hv2⟩
          · rfl
          · exact absurd huf (others b v f hb hv2 hvf).2.1
        · rcases hset b v hv with ⟨rfl, rfl⟩ | ⟨hb, hv2⟩
          · exact absurd hvf (others a u f ha hu2 huf).2.1
          · exact hk.apart a b u v f hu2 hv2 huf hvf
      · intro f hf1
        rcases f1.2 f hf1 with h | ⟨h, hne⟩
        · exact ⟨i, t', List.getElem?_set_self hi, h⟩
        · obtain ⟨j, u, hu, huf⟩ := hk.all f h
          have hj : j ≠ i := by
            rintro rfl
            rw [ht] at hu
            cases hu
            exact hne huf
          exact ⟨j, u, by rw [List.getElem?_set_ne (fun h => hj h.symm)]; exact hu, huf⟩
    obtain ⟨l2, h2⟩ := ih (kfold k log) hheld hf.2
    exact ⟨⟨l1, l2⟩, h2⟩

end Verif.Notify
