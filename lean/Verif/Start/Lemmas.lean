import Verif.Start.Model

/-! # Lemmas on starting up -/

namespace Verif.Start

/-- What is so after the actions `d`. -/
structure Inv (o : Opt) (d : List Act) (s : St) : Prop where
  plan : plan o = d ++ s.todo
  uid : s.uid = if Act.setuid ∈ d then o.creds.uid.getD o.ruid else o.ruid
  gid : s.gid = if Act.setgid ∈ d then o.creds.gid.getD o.rgid else o.rgid
  groups : s.groups = o.groups
  serving : s.serving = true → Act.command ∈ d ∧ s.life = .alive
  alive : s.life = .alive → Act.command ∈ d → s.serving = true
  files : s.life = .alive → (s.files = true ↔ Act.ctl ∈ d)
  mods : s.mods = true ↔ Act.modules ∈ d
  ok : s.ok = true ↔ Act.release ∈ d
  forked : s.forked = true ↔ Act.fork ∈ d
  handler : s.handler = true ↔ Act.handler ∈ d
  trapped : s.trapped = true ↔ Act.signals ∈ d
  pid : s.life = .alive → Act.pidWrite ∈ d → s.pidText = s.pidFd
  par0 : s.par = .exited 0 → s.ok = true
  par1 : ∀ n, s.par = .exited n → n ≠ 0 → s.ok = false ∧ s.life ≠ .alive
  refused : refuses o = true → d = [] ∧ s.life = .exited 1 ∧ s.files = false
  parf : s.par ≠ .alive → s.forked = true

theorem inv_begin (o : Opt) : Inv o [] (begin o) := by
  constructor <;> simp [begin]

theorem inv_exit {o d s n} (h : Inv o d s) (ha : s.life = .alive) : Inv o d (exit s n) := by
  have hr : refuses o = false := by
    cases hr : refuses o
    · rfl
    · have := (h.refused hr).2.1; rw [ha] at this; simp at this
  unfold exit
  split
  · exact ⟨h.plan, h.uid, h.gid, h.groups, by simp, by simp, by simp, h.mods, h.ok, h.forked, h.handler, h.trapped,
      by simp, h.par0, fun n a b => ⟨(h.par1 n a b).1, by simp⟩, by simp [hr], h.parf⟩
  · exact ⟨h.plan, h.uid, h.gid, h.groups, by simp, by simp, by simp, h.mods, h.ok, h.forked, h.handler, h.trapped,
      by simp, h.par0, fun n a b => ⟨(h.par1 n a b).1, by simp⟩, by simp [hr], h.parf⟩

theorem inv_killed {o d s} (h : Inv o d s) (ha : s.life = .alive) :
    Inv o d { s with life := .killed, serving := false } := by
  have hr : refuses o = false := by
    cases hr : refuses o
    · rfl
    · have := (h.refused hr).2.1; rw [ha] at this; simp at this
  exact ⟨h.plan, h.uid, h.gid, h.groups, by simp, by simp, by simp, h.mods, h.ok, h.forked, h.handler, h.trapped,
      by simp, h.par0, fun n a b => ⟨(h.par1 n a b).1, by simp⟩, by simp [hr], h.parf⟩

theorem release_last {o d l} (h : plan o = d ++ .release :: l) : Act.release ∉ d := by
  have hn : (plan o).count .release ≤ 1 := by
    unfold plan; simp only [List.count_append]
    cases o.daemon <;> cases o.nice <;> cases o.pid <;> cases o.creds.gname <;> cases o.creds.uname <;> decide
  intro hm
  rw [h, List.count_append, List.count_cons_self] at hn
  have := List.count_pos_iff.mpr hm
  omega

theorem takeWhile_ne {α : Type} [DecidableEq α] {a : α} : ∀ {d l : List α}, a ∉ d →
    (d ++ a :: l).takeWhile (fun x => !decide (x = a)) = d
  | [], l, _ => by simp
  | b :: d, l, h => by
    simp only [List.mem_cons, not_or] at h
    simp [Ne.symm h.1, takeWhile_ne h.2]

theorem pid_order {o d l} (h : plan o = d ++ .pidOpen :: l) : Act.pidWrite ∉ d := by
  have hn : (plan o).count .pidOpen ≤ 1 := by
    unfold plan; simp only [List.count_append]
    cases o.daemon <;> cases o.nice <;> cases o.pid <;> cases o.creds.gname <;> cases o.creds.uname <;> decide
  have hm : Act.pidOpen ∉ d := by
    intro hm
    rw [h, List.count_append, List.count_cons_self] at hn
    have := List.count_pos_iff.mpr hm
    omega
  have ho : Act.pidOpen ∉ plan o ∨ Act.pidWrite ∉ (plan o).takeWhile (fun x => !decide (x = Act.pidOpen)) := by
    unfold plan
    cases o.daemon <;> cases o.nice <;> cases o.pid <;> cases o.creds.gname <;> cases o.creds.uname <;> decide
  rw [h, takeWhile_ne hm] at ho
  rcases ho with ho | ho
  · exact absurd (by simp) ho
  · exact ho

theorem inv_did {o d s a l} (h : Inv o d s) (ht : s.todo = a :: l) (ha : s.life = .alive)
    (hp : a = .release → s.par = .alive) : Inv o (d ++ [a]) (did o s l a) := by
  have hr : refuses o = false := by
    cases hr : refuses o
    · rfl
    · have := (h.refused hr).2.1; rw [ha] at this; simp at this
  have hplan : plan o = (d ++ [a]) ++ l := by rw [h.plan, ht]; simp
  have hpar1 : ∀ n, s.par = .exited n → n ≠ 0 → False := fun n e hn => (h.par1 n e hn).2 ha
  have hlast : a = .release → Act.release ∉ d := by
    rintro rfl; exact release_last (by rw [h.plan, ht])
  cases a <;> simp only [did] <;> refine ⟨hplan, ?_, ?_, ?_, ?_, ?_, ?_, ?_, ?_, ?_, ?_, ?_, ?_, ?_, ?_, ?_, ?_⟩ <;>
    simp only [List.mem_append, List.mem_singleton, reduceCtorEq, or_false, or_true, if_true, hr, false_implies,
      imp_self, true_implies, implies_true, true_and, Bool.false_eq_true] <;>
    first
      | exact h.uid | exact h.gid | exact h.groups | exact h.serving | exact h.alive | exact h.files | exact h.mods
      | exact h.ok | exact h.forked | exact h.handler | exact h.trapped | exact h.pid | exact h.par0 | exact h.par1
      | exact h.parf
      | exact ha | skip
  · exact fun _ hm => absurd hm (pid_order (by rw [h.plan, ht]))
  · rw [h.gid]; split <;> cases o.creds.gid <;> rfl
  · rw [h.uid]; split <;> cases o.creds.uid <;> rfl
  · intro n e _
    have := hp rfl
    rw [this] at e; simp at e

theorem inv_skip {o d s a l} (h : Inv o d s) (ht : s.todo = a :: l) (ha : s.life = .alive)
    (hs : a = .pidOpen ∨ a = .pidTrunc) : Inv o (d ++ [a]) { s with todo := l } := by
  have hr : refuses o = false := by
    cases hr : refuses o
    · rfl
    · have := (h.refused hr).2.1; rw [ha] at this; simp at this
  have hplan : plan o = (d ++ [a]) ++ l := by rw [h.plan, ht]; simp
  rcases hs with rfl | rfl
  · refine ⟨hplan, ?_, ?_, ?_, ?_, ?_, ?_, ?_, ?_, ?_, ?_, ?_, ?_, ?_, ?_, ?_, ?_⟩ <;>
      simp only [List.mem_append, List.mem_singleton, reduceCtorEq, or_false, hr, false_implies, Bool.false_eq_true] <;>
      first
      | exact h.uid | exact h.gid | exact h.groups | exact h.serving | exact h.alive | exact h.files | exact h.mods
      | exact h.ok | exact h.forked | exact h.handler | exact h.trapped | exact h.pid | exact h.par0 | exact h.par1
      | exact h.parf
  · refine ⟨hplan, ?_, ?_, ?_, ?_, ?_, ?_, ?_, ?_, ?_, ?_, ?_, ?_, ?_, ?_, ?_, ?_⟩ <;>
      simp only [List.mem_append, List.mem_singleton, reduceCtorEq, or_false, hr, false_implies, Bool.false_eq_true] <;>
      first
      | exact h.uid | exact h.gid | exact h.groups | exact h.serving | exact h.alive | exact h.files | exact h.mods
      | exact h.ok | exact h.forked | exact h.handler | exact h.trapped | exact h.pid | exact h.par0 | exact h.par1
      | exact h.parf

theorem inv_act {o d s a l ok} (h : Inv o d s) (ht : s.todo = a :: l) (ha : s.life = .alive) :
    ∃ d', Inv o d' (actStep o s ok a l) := by
  unfold actStep
  split
  · split
    · exact ⟨d, inv_exit h ha⟩
    · exact ⟨d, inv_killed h ha⟩
  · rename_i hp
    have hp' : a = .release → s.par = .alive := fun e => by
      by_cases hh : s.par = .alive
      · exact hh
      · exact absurd ⟨e, hh⟩ hp
    cases ok with
    | true => exact ⟨_, inv_did h ht ha hp'⟩
    | false =>
      simp only [Bool.false_eq_true, if_false]
      cases a with
      | handler => exact ⟨_, inv_did h ht ha (by simp)⟩
      | signals => exact ⟨_, inv_did h ht ha (by simp)⟩
      | pidOpen => exact ⟨_, inv_skip h ht ha (.inl rfl)⟩
      | pidTrunc =>
        simp only [failed]; split
        · exact ⟨d, inv_exit h ha⟩
        · exact ⟨_, inv_skip h ht ha (.inr rfl)⟩
      | pidWrite =>
        simp only [failed]; split
        · exact ⟨d, inv_exit h ha⟩
        · exact ⟨_, inv_did h ht ha (by simp)⟩
      | _ => exact ⟨d, inv_exit h ha⟩

theorem inv_step {o d s e s'} (h : Inv o d s) (he : step o s e = some s') : ∃ d', Inv o d' s' := by
  cases e with
  | act ok =>
    simp only [step] at he
    split at he
    · simp at he
    · rename_i a l ht
      split at he
      · rename_i ha; simp at he; subst he; exact inv_act h ht ha
      · simp at he
  | intr =>
    simp only [step] at he
    split at he
    · simp at he; subst he; exact ⟨d, h⟩
    · simp at he
  | wake =>
    simp only [step] at he
    split at he
    · rename_i hfk
      split at he
      · rename_i hok
        simp at he; subst he
        exact ⟨d, h.plan, h.uid, h.gid, h.groups, h.serving, h.alive, h.files, h.mods, h.ok, h.forked, h.handler,
          h.trapped, h.pid, fun _ => hok, fun n a b => absurd (by simpa using a.symm) b, h.refused, fun _ => hfk.1⟩
      · rename_i hok
        split at he
        · simp at he
        · rename_i hl
          simp at he; subst he
          exact ⟨d, h.plan, h.uid, h.gid, h.groups, h.serving, h.alive, h.files, h.mods, h.ok, h.forked, h.handler,
            h.trapped, h.pid, by simp, fun n _ _ => ⟨by simpa using hok, hl⟩, h.refused, fun _ => hfk.1⟩
    · simp at he
  | killPar =>
    simp only [step] at he
    split at he
    · rename_i hfk
      simp at he; subst he
      exact ⟨d, h.plan, h.uid, h.gid, h.groups, h.serving, h.alive, h.files, h.mods, h.ok, h.forked, h.handler,
          h.trapped, h.pid, by simp, by simp, h.refused, fun _ => hfk.1⟩
    · simp at he
  | kill =>
    simp only [step] at he
    split at he
    · rename_i ha; simp at he; subst he; exact ⟨d, inv_killed h ha⟩
    · simp at he
  | sigpipe =>
    simp only [step] at he
    split at he
    · rename_i ha
      split at he
      · simp at he; subst he; exact ⟨d, h⟩
      · simp at he; subst he; exact ⟨d, inv_killed h ha.1⟩
    · simp at he

theorem inv_run {o} : ∀ {es d s s'}, Inv o d s → run o s es = some s' → ∃ d', Inv o d' s'
  | [], d, s, s', h, hr => by simp [run] at hr; subst hr; exact ⟨d, h⟩
  | e :: es, d, s, s', h, hr => by
    simp only [run] at hr
    split at hr
    · simp at hr
    · rename_i hs
      obtain ⟨d1, h1⟩ := inv_step h hs
      exact inv_run h1 hr

theorem reach {o es s} (hr : run o (begin o) es = some s) : ∃ d, Inv o d s := inv_run (inv_begin o) hr

/-! ## The order of things -/

def pre (o : Opt) : List Act :=
  [.tables, .ctl] ++ (if o.daemon then [.devnull, .pipe, .fork, .session] else []) ++ [.log, .handler] ++
  (if o.nice then [.nice] else []) ++ (if o.pid then [.pidOpen] else []) ++
  (if o.creds.gname then [.setgid] else []) ++ (if o.creds.uname then [.setuid] else []) ++
  [.part 0, .part 1, .part 2, .part 3, .part 4, .part 5, .part 6, .modules]

theorem plan_pre (o : Opt) : ∃ l, plan o = pre o ++ .command :: l :=
  ⟨[.signals, .timer] ++ ((if o.pid then [.pidTrunc, .pidWrite] else []) ++ (if o.daemon then [.release] else [])), by
    simp [plan, pre]⟩

theorem pre_command (o : Opt) : Act.command ∉ pre o := by
  unfold pre
  cases o.daemon <;> cases o.nice <;> cases o.pid <;> cases o.creds.gname <;> cases o.creds.uname <;> decide

theorem prefix_of {α : Type} {c : α} : ∀ {p l d t : List α}, p ++ c :: l = d ++ t → c ∈ d → c ∉ p → ∀ x ∈ p, x ∈ d
  | [], _, _, _, _, _, _ => by simp
  | a :: p, l, [], t, _, h, _ => by simp at h
  | a :: p, l, b :: d, t, h, hc, hp => by
    simp only [List.cons_append, List.cons.injEq] at h
    simp only [List.mem_cons, not_or] at hp hc
    obtain ⟨rfl, h⟩ := h
    intro x hx
    rcases List.mem_cons.mp hx with rfl | hx
    · exact List.mem_cons_self
    · exact List.mem_cons_of_mem _ (prefix_of h (hc.resolve_left hp.1) hp.2 x hx)

/-- What has been done when commands are taken. -/
theorem Inv.before {o d s} (h : Inv o d s) (hc : Act.command ∈ d) : ∀ x ∈ pre o, x ∈ d := by
  obtain ⟨l, hl⟩ := plan_pre o
  exact prefix_of (hl ▸ h.plan) hc (pre_command o)

theorem release_plan {o : Opt} (h : Act.release ∈ plan o) : ∃ p, plan o = p ++ [.release] := by
  cases hd : o.daemon with
  | false =>
    exfalso; revert h; unfold plan; rw [hd]
    cases o.nice <;> cases o.pid <;> cases o.creds.gname <;> cases o.creds.uname <;> decide
  | true => unfold plan; rw [hd]; exact ⟨_, rfl⟩

theorem Inv.complete {o d s} (h : Inv o d s) (hr : Act.release ∈ d) : s.todo = [] ∧ d = Start.plan o := by
  obtain ⟨p, hp⟩ := release_plan (o := o) (by rw [h.plan]; exact List.mem_append_left _ hr)
  have hp' : Act.release ∉ p := release_last (l := []) hp
  have hpl := h.plan
  rw [hp] at hpl
  have : ∀ {p d t : List Act}, p ++ [Act.release] = d ++ t → Act.release ∈ d → Act.release ∉ p → t = [] := by
    intro p
    induction p with
    | nil =>
      intro d t e hd _
      cases d with
      | nil => simp at hd
      | cons b d => simp at e; exact e.2.2
    | cons a p ih =>
      intro d t e hd hn
      cases d with
      | nil => simp at hd
      | cons b d =>
        simp only [List.cons_append, List.cons.injEq] at e
        simp only [List.mem_cons, not_or] at hd hn
        obtain ⟨rfl, e⟩ := e
        exact ih e (hd.resolve_left hn.1) hn.2
  have ht := this hpl hr hp'
  exact ⟨ht, by have := h.plan; rw [ht] at this; simpa using this.symm⟩

theorem fork_daemon {o : Opt} (h : Act.fork ∈ plan o) : Act.release ∈ plan o := by
  revert h
  unfold plan
  cases o.daemon <;> cases o.nice <;> cases o.pid <;> cases o.creds.gname <;> cases o.creds.uname <;> decide

theorem command_plan (o : Opt) : Act.command ∈ plan o := by
  obtain ⟨l, hl⟩ := plan_pre o
  rw [hl]; simp

end Verif.Start
