import Verif.Cli.Init
import Verif.Str.NumProps

/-! C83: what the command line means. -/

namespace Verif.Cli

/-- **C83**: the program starts with exactly those command lines: nothing is left over; every option is one that there is, with an argument that is
allowed; there are at most 16 listening addresses; targets of notifications, user and group, configuration file and addresses can be used; `-S` comes
with `-r`, control by standard input with `-f`; the ports have room for a pair; and a superuser that is to be controlled from afar says `-F` or `-u`. -/
theorem C83_accepts (y : Sys) (l : List Opt) (e : Nat) :
    (∃ c, init y l e = .ok c) ↔
      ∃ r bmode, Taken y l e r ∧ y.bind (decide (Opt.flag .noresolve ∈ l)) (listens l) (advertised l) = some bmode := by
  constructor
  · rintro ⟨c, h⟩
    obtain ⟨r, b, t, hb, -⟩ := (init_spec y l e c).mp h
    exact ⟨r, b, t, hb⟩
  · rintro ⟨r, b, t, hb⟩
    exact ⟨_, (init_spec y l e _).mpr ⟨r, b, t, hb, rfl⟩⟩

theorem last_map {α β : Type} (f : α → Option β) (l : List α) (h : ∀ x ∈ l, (f x).isSome = true) {s : α} (hs : l.getLast? = some s) (d : β) :
    f s = some ((l.filterMap f).getLastD d) := by
  induction l generalizing d with
  | nil => simp at hs
  | cons a l ih =>
    obtain ⟨b, hb⟩ := Option.isSome_iff_exists.mp (h a (by simp))
    rw [List.filterMap_cons, hb]
    simp only [List.getLastD_cons]
    cases l with
    | nil => simp at hs; subst hs; simpa using hb
    | cons a' l' =>
      exact ih (fun x hx => h x (by simp [hx])) (by simpa [List.getLast?_cons] using hs) b

theorem mem_logs {l : List Opt} {s : Bytes} : s ∈ logs l ↔ Opt.log s ∈ l := by
  unfold logs
  rw [List.mem_filterMap]
  constructor
  · rintro ⟨o, ho, h⟩; cases o <;> simp at h; subst h; exact ho
  · intro h; exact ⟨_, h, rfl⟩

theorem mem_policies {l : List Opt} {s : Bytes} : s ∈ policies l ↔ Opt.policy s ∈ l := by
  unfold policies
  rw [List.mem_filterMap]
  constructor
  · rintro ⟨o, ho, h⟩; cases o <;> simp at h; subst h; exact ho
  · intro h; exact ⟨_, h, rfl⟩

theorem facOf_eq (l : List Bytes) : l.filterMap facOf = (l.filterMap (after 58)).filterMap str2fac := by
  rw [List.filterMap_filterMap]; rfl

/-- **C83**: once it starts, every setting is what the last option about it said, or the documented value: the numbers (the time-out during set-up is
the other one if not given; the ports are an even range inside the one given); the names; the switches (in bridge mode clients are taken to be asymmetric
unless `--bridge_symmetric` is given); the level and the facility of the log; the advertised addresses; and in the order given, all listening addresses,
control sockets (one if none is given), targets and modules. -/
theorem C83_means (y : Sys) (l : List Opt) (e : Nat) (c : Cfg) (h : init y l e = .ok c) :
    ∃ bmode, y.bind (decide (Opt.flag .noresolve ∈ l)) (listens l) (advertised l) = some bmode ∧ Meant l bmode c ∧ Taken y l e c.creds := by
  obtain ⟨r, b, t, hb, rfl⟩ := (init_spec y l e c).mp h
  refine ⟨b, hb, ?_, ?_⟩
  rotate_left
  · have : (final (read l r) b).creds = r := by unfold final; simp only; split <;> rfl
    rw [this]; exact t
  have hset := setup_zero t.fine
  have hnum : ∀ k, (final (read l r) b).num k =
      if k = .pmax then evenDown (number l .pmax) else if k = .pmin then evenUp (number l .pmin) else (fill (read l r)).num k := by
    intro k
    unfold final
    simp only [read_num]
    split <;> rfl
  have hfill : ∀ k, k ≠ .setup → (fill (read l r)).num k = number l k := fun k hk => by simp [fill, hk, read_num]
  have hname : ∀ k, (final (read l r) b).name k = (read l r).name k := fun k => by unfold final; simp only; split <;> rfl
  have hpol : (final (read l r) b).policy = (read l r).policy := by unfold final; simp only; split <;> rfl
  have hlev : (final (read l r) b).level = (read l r).level := by unfold final; simp only; split <;> rfl
  have hfac : (final (read l r) b).fac = (read l r).fac := by unfold final; simp only; split <;> rfl
  have hon : ∀ k, (read l r).on k = decide (Opt.flag k ∈ l) := fun k => by simp [read, result, cfg0]
  constructor
  · rw [hnum, if_neg (by decide), if_neg (by decide), hfill _ (by decide)]
  · rw [hnum, if_neg (by decide), if_neg (by decide)]
    simp only [fill, read_num, true_and]
    by_cases hz : number l .setup = 0
    · rw [if_pos hz, if_pos (hset.mp hz)]
    · rw [if_neg hz, if_neg (fun hn => hz (hset.mpr hn))]
  · rw [hnum, if_neg (by decide), if_neg (by decide), hfill _ (by decide)]
  · rw [hnum, if_neg (by decide), if_pos rfl]
  · rw [hnum, if_pos rfl]
  · rw [hnum, if_neg (by decide), if_neg (by decide), hfill _ (by decide)]
  · rw [hname, read_name _ _ _ (by decide)]
  · rw [hname, read_name _ _ _ (by decide)]
  · rw [hname, ← pid_eq]
    simp only [read, result, cfg0, if_true]
    exact getLastD_some_getD _ _
  · rw [hname, read_name _ _ _ (by decide)]
  · unfold final
    simp only [hon]
    by_cases h1 : b = true <;> by_cases h2 : Opt.flag .brsym ∈ l <;> simp [h1, h2, setFlag, setNum, fill, read, result, cfg0]
  · intro k hk
    unfold final
    simp only [hon]
    by_cases h1 : b = true <;> by_cases h2 : Opt.flag .brsym ∈ l <;> simp [h1, h2, setFlag, setNum, fill, read, result, cfg0, hk]
  · intro s hs
    rw [hpol]
    have := last_map policyOf (policies l) (fun x hx => by
      obtain ⟨p, hp⟩ := t.fine _ (mem_policies.mp hx)
      rw [(policyOf_iff x p).mpr hp]; rfl) hs Policy.other
    exact (policyOf_iff s _).mp this
  · intro hn; rw [hpol]; simp [read, result, cfg0, hn]
  · intro s hs
    rw [hlev]
    have hfine : ∀ x ∈ logs l, (levelOf x).isSome = true := fun x hx => by
      obtain ⟨⟨v, hv⟩, -⟩ := t.fine _ (mem_logs.mp hx)
      simp only [levelOf]
      rw [(str2lvl_iff _ v).mpr hv]; rfl
    have := last_map levelOf (logs l) hfine hs Level.dbug
    obtain ⟨v, hv⟩ := Option.isSome_iff_exists.mp (hfine s (List.mem_of_getLast? hs))
    refine ⟨v, ?_, (str2lvl_iff _ v).mp hv⟩
    simp only [read, result, cfg0]
    rw [getLastD_some]
    rw [hv] at this
    cases hl : (logs l).filterMap levelOf with
    | nil =>
      have := List.filterMap_eq_nil_iff.mp hl s (List.mem_of_getLast? hs)
      rw [hv] at this; cases this
    | cons a t' =>
      rw [hl, List.getLastD_cons] at this
      rw [List.getLast?_cons, this, List.getLastD_eq_getLast?]
  · intro hn; rw [hlev]; simp [read, result, cfg0, hn]
  · intro s hs
    rw [hfac]
    have hfine : ∀ x ∈ (logs l).filterMap (after 58), (str2fac x).isSome = true := fun x hx => by
      obtain ⟨z, hz, hx⟩ := List.mem_filterMap.mp hx
      obtain ⟨f, hf⟩ := str2fac_isSome.mpr ((t.fine _ (mem_logs.mp hz)).2 x hx)
      rw [hf]; rfl
    have := last_map str2fac _ hfine hs []
    obtain ⟨f, hf⟩ := Option.isSome_iff_exists.mp (hfine s (List.mem_of_getLast? hs))
    refine ⟨f, ?_, str2fac_some hf⟩
    simp only [read, result, cfg0]
    rw [getLastD_some, facOf_eq]
    rw [hf] at this
    cases hl : ((logs l).filterMap (after 58)).filterMap str2fac with
    | nil =>
      have := List.filterMap_eq_nil_iff.mp hl s (List.mem_of_getLast? hs)
      rw [hf] at this; cases this
    | cons a t' =>
      rw [hl, List.getLastD_cons] at this
      rw [List.getLast?_cons, this, List.getLastD_eq_getLast?]
  · intro hn; rw [hfac]
    simp only [read, result, cfg0]
    rw [getLastD_some, facOf_eq, hn]; rfl
  · have : (final (read l r) b).adv = (read l r).adv := by unfold final; simp only; split <;> rfl
    rw [this]
    simp only [read, result, cfg0, advertised]
    rw [getLastD_some, ← getLastD_some ((advs l).map (before 47)), List.map_map]
    rfl
  · have : (final (read l r) b).bargs = (read l r).bargs := by unfold final; simp only; split <;> rfl
    rw [this]; simp [read, result, cfg0]
  · have : (final (read l r) b).socks = (fill (read l r)).socks := by unfold final; simp only; split <;> rfl
    rw [this, ← sock_eq]; simp [fill, read, result, cfg0]
  · have : (final (read l r) b).targets = (read l r).targets := by unfold final; simp only; split <;> rfl
    rw [this]; simp [read, result, cfg0]
  · have : (final (read l r) b).nofile = (read l r).nofile := by unfold final; simp only; split <;> rfl
    rw [this]
    simp only [read, result, cfg0]
    rw [← getLastD_some, List.map_map]; rfl
  · have : (final (read l r) b).mods = (read l r).mods := by unfold final; simp only; split <;> rfl
    rw [this]; simp [read, result, cfg0]

theorem filterMap_alike {α : Type} {l m : List Opt} (h : Alike l m) (f : Opt → Option α) (a : About) (hf : ∀ o, about o ≠ a → f o = none) :
    l.filterMap f = m.filterMap f := by
  have key : ∀ n : List Opt, n.filterMap f = (n.filter (about · = a)).filterMap f := by
    intro n
    induction n with
    | nil => rfl
    | cons o n ih =>
      by_cases ho : about o = a
      · rw [List.filter_cons_of_pos (by simpa using ho), List.filterMap_cons, List.filterMap_cons, ih]
      · rw [List.filter_cons_of_neg (by simpa using ho), List.filterMap_cons, hf o ho, ih]
  rw [key l, key m, h a]

theorem mem_alike {l m : List Opt} (h : Alike l m) (o : Opt) : o ∈ l ↔ o ∈ m := by
  have key : ∀ n : List Opt, o ∈ n ↔ o ∈ n.filter (about · = about o) := fun n => by simp
  rw [key l, key m, h (about o)]

/-- **C83**: the order of options that are about different things does not matter, neither for whether the program starts nor for what is set. -/
theorem C83_order (y : Sys) (l m : List Opt) (e : Nat) (h : Alike l m) (c : Cfg) : init y l e = .ok c ↔ init y m e = .ok c := by
  have e1 : ∀ k, nums k l = nums k m := fun k => filterMap_alike h _ (.num k) (fun o ho => by
    cases o <;> simp [about] at ho ⊢; exact ho)
  have e2 : ∀ k, names k l = names k m := fun k => filterMap_alike h _ (.name k) (fun o ho => by
    cases o <;> simp [about] at ho ⊢; exact ho)
  have e3 : policies l = policies m := filterMap_alike h _ .policy (fun o ho => by cases o <;> simp [about] at ho ⊢)
  have e4 : logs l = logs m := filterMap_alike h _ .log (fun o ho => by cases o <;> simp [about] at ho ⊢)
  have e5 : advs l = advs m := filterMap_alike h _ .adv (fun o ho => by cases o <;> simp [about] at ho ⊢)
  have e6 : socks l = socks m := filterMap_alike h _ .sock (fun o ho => by cases o <;> simp [about] at ho ⊢)
  have e7 : targets l = targets m := filterMap_alike h _ .target (fun o ho => by cases o <;> simp [about] at ho ⊢)
  have e8 : limits l = limits m := filterMap_alike h _ .limit (fun o ho => by cases o <;> simp [about] at ho ⊢)
  have e9 : dsos l = dsos m := filterMap_alike h _ .dso (fun o ho => by cases o <;> simp [about] at ho ⊢)
  have e10 : listens l = listens m := filterMap_alike h _ .listen (fun o ho => by cases o <;> simp [about] at ho ⊢)
  have e11 : rights l = rights m := filterMap_alike h _ .rights (fun o ho => by cases o <;> simp [about] at ho ⊢)
  have e12 : ∀ k, number l k = number m k := fun k => by simp only [number, e1]
  have e13 : advertised l = advertised m := by simp only [advertised, e5]
  have em := mem_alike h
  have er : ∀ r, read l r = read m r := fun r => by simp only [read, result, e1, e2, e3, e4, e5, e6, e7, e8, e9, e10, em]
  have et : ∀ r, Taken y l e r ↔ Taken y m e r := fun r => by
    constructor <;> intro t
    · exact ⟨t.extra, fun o ho => t.fine o ((em o).mpr ho), e10 ▸ t.listens, e7 ▸ t.targets, e11 ▸ t.creds, e2 .config ▸ t.file,
        e2 .sdir ▸ e2 .rdir ▸ t.spool, fun hs => (em _).mp (t.stdio (e6 ▸ hs)), e12 .pmin ▸ e12 .pmax ▸ t.ports,
        fun h1 h2 h3 => (em _).mp (t.root h1 h2 (e6 ▸ h3))⟩
    · exact ⟨t.extra, fun o ho => t.fine o ((em o).mp ho), e10 ▸ t.listens, e7 ▸ t.targets, e11 ▸ t.creds, e2 .config ▸ t.file,
        e2 .sdir ▸ e2 .rdir ▸ t.spool, fun hs => (em _).mpr (t.stdio (e6 ▸ hs)), e12 .pmin ▸ e12 .pmax ▸ t.ports,
        fun h1 h2 h3 => (em _).mpr (t.root h1 h2 (e6 ▸ h3))⟩
  rw [init_spec, init_spec]
  simp only [et, er, e10, e13, em]

/-- **C83**, partial: a numeral is taken for the number it denotes, and refused if that is not allowed.  Missing: numbers too large for an `int`; see the
counterexample. -/
theorem C83_number_partial (y : Sys) (l l' : List Opt) (k : Num) (s : Bytes) (v : Int) (hs : Str.CStr s) (hv : Str.Numeral s v)
    (h1 : -2147483648 ≤ v) (h2 : v ≤ 2147483647) :
    (nums k l' = [] → number (l ++ .num k s :: l') k = v) ∧
    (¬ Allowed k v → ∀ e, ∃ n, init y (l ++ .num k s :: l') e = .exit n) := by
  have hr := ((Str.C17_atoi_partial s hs).2.1 v hv h1 h2).1
  refine ⟨fun hn => ?_, fun hna e => ?_⟩
  · have : nums k (l ++ .num k s :: l') = nums k l ++ [s] := by
      have : nums k (l ++ .num k s :: l') = nums k l ++ s :: nums k l' := by simp [nums]
      rw [this, hn]
    simp only [number, this, List.map_append, getLastD_append, List.map_cons, List.map_nil, List.getLastD_cons, List.getLastD_nil]
    exact val_of hr
  · cases hi : init y (l ++ .num k s :: l') e with
    | exit n => exact ⟨n, rfl⟩
    | ok c =>
      obtain ⟨r, b, t, -⟩ := (init_spec _ _ _ _).mp hi
      have := (t.fine (.num k s) (by simp)).2
      rw [val_of hr] at this
      exact absurd this hna

/-- **C83**: success is told only if the user asked for a version or the like, and failure by 1. -/
theorem C83_exit (y : Sys) (l : List Opt) (e n : Nat) (h : init y l e = .exit n) : n = 1 ∨ (n = 0 ∧ Opt.info ∈ l) := by
  have hopt : ∀ c o, opt y c o = .exit n → n = 1 ∨ (n = 0 ∧ o = .info) := by
    intro c o ho
    cases o with
    | num k s => simp only [opt] at ho; split at ho <;> simp at ho; exact .inl ho.symm
    | name k s => simp [opt] at ho
    | flag k => simp [opt] at ho
    | user s => simp only [opt] at ho; split at ho <;> simp at ho; exact .inl ho.symm
    | mode s => simp only [opt] at ho; split at ho <;> simp at ho; exact .inl ho.symm
    | policy s => simp only [opt] at ho; split at ho <;> simp at ho; exact .inl ho.symm
    | log s =>
      simp only [opt, logOpt] at ho
      split at ho
      · split at ho <;> simp at ho; exact .inl ho.symm
      · split at ho
        · simp at ho; exact .inl ho.symm
        · split at ho <;> simp at ho; exact .inl ho.symm
    | adv s =>
      simp only [opt, advOpt] at ho
      split at ho
      · simp at ho; exact .inl ho.symm
      · split at ho
        · simp at ho
        · split at ho <;> simp at ho; exact .inl ho.symm
    | listen v s => simp only [opt] at ho; split at ho <;> simp at ho; exact .inl ho.symm
    | sock s => simp [opt] at ho
    | target s =>
      simp only [opt] at ho
      split at ho
      · simp at ho; exact .inl ho.symm
      · split at ho <;> simp at ho; exact .inl ho.symm
    | limit s =>
      simp only [opt] at ho
      split at ho
      · split at ho <;> simp at ho; exact .inl ho.symm
      · simp at ho; exact .inl ho.symm
    | dso s => simp only [opt] at ho; split at ho <;> simp at ho; exact .inl ho.symm
    | info => simp [opt] at ho; exact .inr ⟨ho.symm, rfl⟩
    | bad => simp [opt] at ho; exact .inl ho.symm
  have hloop : ∀ l c, loop y c l = .exit n → n = 1 ∨ (n = 0 ∧ Opt.info ∈ l) := by
    intro l
    induction l with
    | nil => intro c hc; simp [loop] at hc
    | cons o l ih =>
      intro c hc
      simp only [loop] at hc
      split at hc
      · rcases ih _ hc with h | ⟨h, h'⟩
        · exact .inl h
        · exact .inr ⟨h, by simp [h']⟩
      · rename_i k hk
        simp at hc; subst hc
        rcases hopt c o hk with h | ⟨h, rfl⟩
        · exact .inl h
        · exact .inr ⟨h, by simp⟩
  unfold init at h
  split at h
  · left
    unfold check at h
    simp only at h
    split at h
    · simp at h; exact h.symm
    split at h
    · simp at h; exact h.symm
    split at h
    · simp at h; exact h.symm
    split at h
    · simp at h; exact h.symm
    split at h
    · simp at h; exact h.symm
    unfold rest at h
    split at h
    · simp at h; exact h.symm
    split at h
    · simp at h; exact h.symm
    · simp at h
  · rename_i k hk
    simp at h; subst h
    exact hloop l _ hk

end Verif.Cli
