import Verif.Start.Lemmas

/-!
# C79: starting up and stopping

With which rights commands are taken, what the exit status of the program that was started says about the daemon, what
`-u` and `-w` mean, and when the program ends.
-/

namespace Verif.Start

/-- While commands are taken, the process has the user and the group that were asked for, the control sockets are there
and the modules have been started; without `-u` user and group are those it was started with.  Partial: a user without
a group leaves the group as it was (`C79_group_counterexample`), and the other groups of the process are always kept
(`C79_groups_counterexample`). -/
theorem C79_rights_partial (o : Opt) (es : List Ev) (s : St) (hr : run o (begin o) es = some s) (hs : s.serving = true) :
    (∀ u, o.creds.uname = true → o.creds.uid = some u → s.uid = u) ∧
    (∀ g, o.creds.gname = true → o.creds.gid = some g → s.gid = g) ∧
    (o.creds.uname = false → s.uid = o.ruid) ∧ (o.creds.gname = false → s.gid = o.rgid) ∧
    s.files = true ∧ s.mods = true ∧ s.handler = true := by
  obtain ⟨d, h⟩ := reach hr
  obtain ⟨hc, ha⟩ := h.serving hs
  have hb := h.before hc
  have hd : ∀ x ∈ d, x ∈ plan o := fun x hx => by rw [h.plan]; exact List.mem_append_left _ hx
  refine ⟨?_, ?_, ?_, ?_, ?_, ?_, ?_⟩
  · intro u hu hn
    have : Act.setuid ∈ d := hb _ (by simp [pre, hu])
    rw [h.uid, if_pos this, hn]; rfl
  · intro g hg hn
    have : Act.setgid ∈ d := hb _ (by simp [pre, hg])
    rw [h.gid, if_pos this, hn]; rfl
  · intro hu
    have : Act.setuid ∉ d := fun hx => by
      have := hd _ hx
      simp [plan, hu] at this
      try (cases o.daemon <;> cases o.nice <;> cases o.pid <;> cases o.creds.gname <;> simp at this)
    rw [h.uid, if_neg this]
  · intro hg
    have : Act.setgid ∉ d := fun hx => by
      have := hd _ hx
      simp [plan, hg] at this
      try (cases o.daemon <;> cases o.nice <;> cases o.pid <;> cases o.creds.uname <;> simp at this)
    rw [h.gid, if_neg this]
  · exact (h.files ha).mpr (hb _ (by simp [pre]))
  · exact h.mods.mpr (hb _ (by simp [pre]))
  · exact h.handler.mpr (hb _ (by simp [pre]))

/-- If the program that was started ends with 0, the daemon has come up: it takes commands as long as it lives, and
its number is in the pid file if that could be opened.  If it ends with anything else, the daemon is dead and never
came up. -/
theorem C79_answer (o : Opt) (es : List Ev) (s : St) (hr : run o (begin o) es = some s) :
    (s.par = .exited 0 → s.todo = [] ∧ (s.life = .alive → s.serving = true ∧ s.trapped = true ∧
      (o.pid = true → s.pidText = s.pidFd))) ∧
    (∀ n, s.par = .exited n → n ≠ 0 → s.todo ≠ [] ∧ s.life ≠ .alive) := by
  obtain ⟨d, h⟩ := reach hr
  refine ⟨?_, ?_⟩
  · intro hp
    obtain ⟨ht, hd⟩ := h.complete (h.ok.mp (h.par0 hp))
    refine ⟨ht, fun ha => ⟨h.alive ha ?_, h.trapped.mpr ?_, fun hpid => h.pid ha ?_⟩⟩
    · rw [hd]; exact command_plan o
    · rw [hd]; simp [plan]
    · rw [hd]; simp [plan, hpid]
  · intro n hp hn
    obtain ⟨h1, h2⟩ := h.par1 n hp hn
    refine ⟨fun ht => ?_, h2⟩
    have hd : d = plan o := by rw [h.plan, ht]; simp
    have hok : s.forked = true → s.ok = true := fun hf =>
      h.ok.mpr (by rw [hd]; exact fork_daemon (hd ▸ h.forked.mp hf))
    have : s.forked = true := h.parf (by rw [hp]; simp)
    rw [hok this] at h1; simp at h1

/-- The program that was started does not wait for ever: once the daemon has come up, or died, its `read` returns, and
it ends with 0 in the one case and 1 in the other. -/
theorem C79_no_hang (o : Opt) (es : List Ev) (s : St) (hr : run o (begin o) es = some s) (hf : s.forked = true)
    (hp : s.par = .alive) :
    (s.todo = [] → ∃ s', step o s .wake = some s' ∧ s'.par = .exited 0) ∧
    (s.todo ≠ [] → s.life ≠ .alive → ∃ s', step o s .wake = some s' ∧ s'.par = .exited 1) := by
  obtain ⟨d, h⟩ := reach hr
  refine ⟨?_, ?_⟩
  · intro ht
    have hd : d = plan o := by rw [h.plan, ht]; simp
    have hok : s.ok = true := h.ok.mpr (by rw [hd]; exact fork_daemon (hd ▸ h.forked.mp hf))
    exact ⟨{ s with par := .exited 0 }, by simp only [step]; rw [if_pos ⟨hf, hp⟩, if_pos hok], rfl⟩
  · intro ht hl
    have hok : ¬ s.ok = true := fun hok => ht (h.complete (h.ok.mp hok)).1
    exact ⟨{ s with par := .exited 1 }, by simp only [step]; rw [if_pos ⟨hf, hp⟩, if_neg hok, if_neg hl], rfl⟩

/-- Started by the superuser with a UDP control socket, without `-u` and without `-F`, the program does nothing: no
socket is made and no command is taken.  Partial: TCP control sockets are not refused (`C79_tcp_counterexample`). -/
theorem C79_refuse_partial (o : Opt) (hf : o.force = false) (hu : o.ruid = 0) (hn : o.creds.uname = false)
    (hk : Ctl.Kind.udp4 ∈ o.kinds ∨ Ctl.Kind.udp6 ∈ o.kinds) (es : List Ev) (s : St)
    (hr : run o (begin o) es = some s) : s.life = .exited 1 ∧ s.files = false ∧ s.serving = false ∧ s.todo = plan o := by
  have href : refuses o = true := by
    simp only [refuses, hf, hu, hn, List.any_eq_true, Bool.and_eq_true, isDg, Bool.not_false, beq_self_eq_true,
      Bool.or_eq_true, beq_iff_eq, true_and]
    rcases hk with hk | hk
    · exact ⟨_, hk, .inl rfl⟩
    · exact ⟨_, hk, .inr rfl⟩
  obtain ⟨d, h⟩ := reach hr
  obtain ⟨h1, h2, h3⟩ := h.refused href
  refine ⟨h2, h3, ?_, ?_⟩
  · cases hs : s.serving
    · rfl
    · have := (h.serving hs).2; rw [h2] at this; simp at this
  · have := h.plan; rw [h1] at this; simpa using this.symm

/-! ## Options -/

theorem strchr_none {s : Bytes} (h : (58 : UInt8) ∉ s) : strchr s = (s, none) := by
  induction s with
  | nil => rfl
  | cons a s ih =>
    simp only [List.mem_cons, not_or] at h
    simp [strchr, ih h.2, Ne.symm h.1]

theorem strchr_some {u g : Bytes} (h : (58 : UInt8) ∉ u) : strchr (u ++ [58] ++ g) = (u, some g) := by
  induction u with
  | nil => simp [strchr]
  | cons a s ih =>
    simp only [List.mem_cons, not_or] at h
    have := ih h.2
    simp only [List.append_assoc, List.cons_append, List.nil_append] at this
    simp [strchr, this, Ne.symm h.1]

/-- `-u user:group`, `-u user` and `-u :group`.  Unknown names are refused; the mode of socket files becomes 0755 if
there is a group and no mode has been given. -/
theorem C79_user (pw : Bytes → Option (Nat × Nat)) (gr : Bytes → Option Nat) (r r' : Creds) (u g : Bytes)
    (hu : (58 : UInt8) ∉ u) (hne : u ≠ []) :
    (userOpt pw gr r (u ++ [58] ++ g) = some r' ↔ ∃ n m k, pw u = some (n, m) ∧ gr g = some k ∧
      r' = ⟨true, true, some n, some k, if r.sockMode = 0 then 0o755 else r.sockMode⟩) ∧
    (userOpt pw gr r u = some r' ↔ ∃ n m, pw u = some (n, m) ∧ r' = ⟨true, false, some n, some m, r.sockMode⟩) ∧
    (userOpt pw gr r ([58] ++ g) = some r' ↔ ∃ k, gr g = some k ∧
      r' = ⟨false, true, none, some k, if r.sockMode = 0 then 0o755 else r.sockMode⟩) := by
  obtain ⟨a, v, rfl⟩ : ∃ a v, u = a :: v := by
    cases u with
    | nil => exact absurd rfl hne
    | cons a v => exact ⟨a, v, rfl⟩
  refine ⟨?_, ?_, ?_⟩
  · simp only [userOpt, strchr_some hu]
    cases pw (a :: v) with
    | none => simp
    | some x =>
      obtain ⟨n, m⟩ := x
      simp only [groupOpt]
      cases gr g with
      | none => simp
      | some k => simp [eq_comm]
  · simp only [userOpt, strchr_none hu]
    cases pw (a :: v) with
    | none => simp
    | some x =>
      obtain ⟨n, m⟩ := x
      simp only [groupOpt, Option.some.injEq, Prod.mk.injEq]
      constructor
      · rintro rfl; exact ⟨n, m, ⟨rfl, rfl⟩, rfl⟩
      · rintro ⟨_, _, ⟨rfl, rfl⟩, rfl⟩; rfl
  · have : strchr ([58] ++ g) = ([], some g) := by simp [strchr]
    simp only [userOpt, this, groupOpt]
    cases gr g with
    | none => simp
    | some k => simp [eq_comm]

/-- `-u` and `-w` may be given in either order, if the mode is not zero. -/
theorem C79_order (pw : Bytes → Option (Nat × Nat)) (gr : Bytes → Option Nat) (r a b : Creds) (u m : Bytes)
    (ha : modeOpt r m = some a) (hz : a.sockMode ≠ 0) (hb : userOpt pw gr r u = some b) :
    userOpt pw gr a u = modeOpt b m := by
  unfold modeOpt at ha ⊢
  split at ha
  · rename_i v hv
    simp at ha; subst ha
    simp only at hz ⊢
    unfold userOpt at hb ⊢
    split at hb
    · simp only [groupOpt] at hb ⊢
      cases hg : gr _ with
      | none => rw [hg] at hb; simp at hb
      | some k => rw [hg] at hb; simp at hb; subst hb; simp [hz]
    · cases hp : pw (strchr u).1 with
      | none => rw [hp] at hb; simp at hb
      | some x =>
        obtain ⟨n, k⟩ := x
        rw [hp] at hb
        simp only at hb ⊢
        cases hs : (strchr u).2 with
        | none => rw [hs] at hb; simp [groupOpt] at hb ⊢; subst hb; simp
        | some g =>
          rw [hs] at hb
          simp only [groupOpt] at hb ⊢
          cases hg : gr g with
          | none => rw [hg] at hb; simp at hb
          | some k => rw [hg] at hb; simp at hb; subst hb; simp [hz]
  · simp at ha

/-! ## Stopping -/

/-- Sessions made and not yet ended, as the events tell. -/
def standing (es : List E) : Nat := es.count .reg - es.count .del

structure TInv (es : List E) (s : T) : Prop where
  slow : s.slow = true ↔ E.hup ∈ es
  fast : s.fast = true ↔ E.term ∈ es
  le : es.count .del ≤ es.count .reg
  sess : s.sessions = standing es

theorem tinv_step {es s e s'} (h : TInv es s) (he : tstep s e = some s') : TInv (es ++ [e]) s' := by
  obtain ⟨h1, h2, h3, h4⟩ := h
  unfold standing at h4
  cases e <;> simp only [tstep] at he
  case hup => simp at he; subst he; constructor <;> simp [List.count_append, standing, h2, h3, h4]
  case term => simp at he; subst he; constructor <;> simp [List.count_append, standing, h1, h3, h4]
  case ask =>
    split at he
    · split at he <;> simp at he <;> subst he <;> constructor <;> simp [List.count_append, standing, h1, h2, h3, h4]
    · simp at he
  case reg =>
    split at he
    · simp at he; subst he
      constructor <;> simp [List.count_append, standing, h1, h2, h4] <;> omega
    · simp at he
  case answer =>
    split at he
    · simp at he; subst he; constructor <;> simp [List.count_append, standing, h1, h2, h3, h4]
    · simp at he
  case del =>
    split at he
    · simp at he
    · rename_i hz
      simp at he; subst he
      constructor <;> simp [List.count_append, standing, h1, h2, h4] <;> omega
  case look =>
    split at he
    · simp at he
    · split at he
      · simp at he; subst he; constructor <;> simp [List.count_append, standing, h1, h2, h3, h4]
      · split at he <;> simp at he <;> subst he <;> constructor <;>
          simp [List.count_append, standing, h1, h2, h3, h4]

theorem tinv_run : ∀ {es' es s s'}, TInv es s → trun s es' = some s' → TInv (es ++ es') s'
  | [], es, s, s', h, hr => by simp [trun] at hr; subst hr; simpa using h
  | e :: es', es, s, s', h, hr => by
    simp only [trun] at hr
    split at hr
    · simp at hr
    · rename_i hs
      have := tinv_run (tinv_step h hs) hr
      simpa using this

theorem treach {es s} (h : trun t0 es = some s) : TInv es s := by
  have := tinv_run (es := []) (s := t0) ⟨by simp [t0], by simp [t0], by simp, by simp [t0, standing]⟩ h
  simpa using this

theorem trun_append : ∀ {es es' s}, trun s (es ++ es') = (trun s es).bind fun s' => trun s' es'
  | [], es', s => rfl
  | e :: es, es', s => by
    simp only [List.cons_append, trun]
    cases tstep s e with
    | none => rfl
    | some s' => exact trun_append

/-- The program leaves its main loop only when it looks and finds that it got a signal to end, or `SIGHUP` and no
session is standing; and it then does. -/
theorem C79_stop (es : List E) (s s' : T) (hr : trun t0 es = some s) (hl : tstep s .look = some s') :
    s'.ending = true ↔ E.term ∈ es ∨ (E.hup ∈ es ∧ standing es = 0) := by
  have h := treach hr
  simp only [tstep] at hl
  rw [← h.fast, ← h.slow, ← h.sess]
  cases hf : s.fast <;> cases hs : s.slow <;> cases he : s.ending <;> simp [hf, hs, he] at hl <;>
    try (subst hl; simp [hf, hs, he])
  by_cases hz : s.sessions = 0
  · rw [if_pos hz] at hl; simp at hl; subst hl; simp [hz]
  · rw [if_neg hz] at hl; simp at hl; subst hl; simp [hz, he]

theorem slow_keeps {es s s'} (h : trun s es = some s') (hs : s.slow = true) :
    es.count .reg ≤ if s.u = .passed then 1 else 0 := by
  induction es generalizing s with
  | nil => simp
  | cons e es ih =>
    simp only [trun] at h
    split at h
    · simp at h
    · rename_i s1 h1
      have hs1 : s1.slow = true := by
        cases e <;> simp only [tstep] at h1 <;> (repeat' split at h1) <;> simp at h1 <;> subst h1 <;> simp [hs]
      have := ih h hs1
      cases e <;> simp only [tstep] at h1
      case reg =>
        split at h1
        · rename_i hp; simp at h1; subst h1; simp [hp] at this ⊢; omega
        · simp at h1
      case ask =>
        split at h1
        · rename_i hi
          simp at h1; subst h1; simpa using this
        · simp at h1
      case answer =>
        split at h1
        · rename_i hp; simp at h1; subst h1; simp [hp] at this ⊢; exact this
        · simp at h1
      all_goals (repeat' split at h1) <;> simp at h1 <;> subst h1 <;> simpa using this

/-- After `SIGHUP` no command for a new session gets through, except one that was in hand.  Partial: the one in hand may
be answered although the program is about to end (`C79_deorbit_counterexample`). -/
theorem C79_no_new_partial (es es' : List E) (s s' : T) (hr : trun t0 (es ++ [.hup]) = some s) (hr' : trun s es' = some s') :
    es'.count .reg ≤ (if s.u = .passed then 1 else 0) :=
  slow_keeps hr' ((treach hr).slow.mpr (by simp))

end Verif.Start
