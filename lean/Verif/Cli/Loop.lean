import Verif.Cli.Spec

/-! Lemmas about the loop over the options. -/

namespace Verif.Cli

theorem cut_eq (x : UInt8) (s : Bytes) : cut x s = (before x s, after x s) := by
  induction s with
  | nil => simp [cut, before, after]
  | cons y s ih =>
    by_cases h : y = x
    · subst h; simp [cut, before, after]
    · have h' : ¬ x = y := fun e => h e.symm
      simp only [cut, if_neg h, ih]
      simp [before, after, h, h']

def levelOf (s : Bytes) : Option Level := str2lvl (before 58 s)
def facOf (s : Bytes) : Option Bytes := (after 58 s).bind str2fac

theorem str2lvl_iff (s : Bytes) (v : Level) : str2lvl s = some v ↔ IsLevel s v := by
  have e1 : bytes "dbug" = [100, 98, 117, 103] := by decide
  have e2 : bytes "info" = [105, 110, 102, 111] := by decide
  have e3 : bytes "warn" = [119, 97, 114, 110] := by decide
  have e4 : bytes "err" = [101, 114, 114] := by decide
  have e5 : bytes "crit" = [99, 114, 105, 116] := by decide
  unfold IsLevel str2lvl
  change _ ↔ lc s = _
  generalize lc s = t
  constructor
  · intro h
    split at h
    · cases h; simpa [levelName, e1]
    split at h
    · cases h; simpa [levelName, e2]
    split at h
    · cases h; simpa [levelName, e3]
    split at h
    · cases h; simpa [levelName, e4]
    split at h
    · cases h; simpa [levelName, e5]
    · cases h
  · intro h
    cases v <;> simp only [levelName, e1, e2, e3, e4, e5] at h <;> subst h <;> decide

theorem facs_eq : facs = facNames.map bytes := by decide

theorem log_eq : ∀ n ∈ facNames, bytes ("log_" ++ n) = [108, 111, 103, 95] ++ bytes n := by decide

theorem str2fac_some {s f : Bytes} (h : str2fac s = some f) : IsFac s f := by
  unfold str2fac at h
  have hm := List.mem_of_find?_eq_some h
  have hp := List.find?_some h
  rw [facs_eq] at hm
  obtain ⟨n, hn, rfl⟩ := List.mem_map.mp hm
  simp only [Bool.or_eq_true, beq_iff_eq] at hp
  refine ⟨n, hn, rfl, ?_⟩
  rw [log_eq n hn]
  exact hp.symm

theorem str2fac_isSome {s : Bytes} : (∃ f, str2fac s = some f) ↔ ∃ f, IsFac s f := by
  constructor
  · rintro ⟨f, h⟩; exact ⟨f, str2fac_some h⟩
  · rintro ⟨f, n, hn, -, h⟩
    have : (str2fac s).isSome = true := by
      unfold str2fac
      rw [List.find?_isSome]
      refine ⟨bytes n, by rw [facs_eq]; exact List.mem_map_of_mem hn, ?_⟩
      simp only [Bool.or_eq_true, beq_iff_eq, ← log_eq n hn]
      exact h.symm
    exact Option.isSome_iff_exists.mp this

theorem policyOf_iff (s : Bytes) (p : Policy) : policyOf s = some p ↔ ∃ n, policyName p = some n ∧ s = bytes n := by
  have e1 : bytes "fifo" = [102, 105, 102, 111] := by decide
  have e2 : bytes "rr" = [114, 114] := by decide
  unfold policyOf
  constructor
  · intro h
    split at h
    · cases h; exact ⟨"fifo", rfl, by rw [e1]; assumption⟩
    split at h
    · cases h; exact ⟨"rr", rfl, by rw [e2]; assumption⟩
    · cases h
  · rintro ⟨n, hn, rfl⟩
    cases p <;> simp [policyName] at hn <;> subst hn <;> decide

theorem range_iff (s : Bytes) (a b v : Int) :
    Str.atoiSaferange s a b = .ok v ↔ Str.atoiSafe s = .ok v ∧ a ≤ v ∧ (a ≤ b → v ≤ b) := by
  unfold Str.atoiSaferange
  cases Str.atoiSafe s with
  | ok r =>
    simp only
    split
    · rename_i h
      simp only [reduceCtorEq, Str.Rv.ok.injEq, false_iff]
      rintro ⟨rfl, h1, h2⟩; omega
    · rename_i h
      simp only [Str.Rv.ok.injEq]
      constructor
      · rintro rfl; exact ⟨rfl, by omega, by omega⟩
      · rintro ⟨rfl, -⟩; rfl
  | notInt => simp
  | outRange => simp

theorem val_of {s : Bytes} {v : Int} (h : Str.atoiSafe s = .ok v) : val s = v := by simp [val, h]

theorem allowed_iff (k : Num) (v : Int) : Allowed k v ↔ (bounds k).1 ≤ v ∧ ((bounds k).1 ≤ (bounds k).2 → v ≤ (bounds k).2) := by
  cases k <;> simp [Allowed, bounds]

theorem num_iff (k : Num) (s : Bytes) (v : Int) : Str.atoiSaferange s (bounds k).1 (bounds k).2 = .ok v ↔
    ((∃ w, Str.atoiSafe s = .ok w) ∧ Allowed k (val s)) ∧ v = val s := by
  rw [range_iff]
  constructor
  · rintro ⟨h, h1⟩
    rw [val_of h, allowed_iff]
    exact ⟨⟨⟨v, h⟩, h1⟩, rfl⟩
  · rintro ⟨⟨⟨w, h⟩, h1⟩, rfl⟩
    rw [val_of h, allowed_iff] at *
    exact ⟨h, h1⟩

/-- What a number of options makes of the settings, once `r` is known. -/
def result (c : Cfg) (l : List Opt) (r : Start.Creds) : Cfg :=
  { num := fun k => ((nums k l).map val).getLastD (c.num k)
    name := fun k => ((names k l).map some).getLastD (c.name k)
    on := fun k => c.on k || decide (Opt.flag k ∈ l)
    creds := r
    policy := ((policies l).filterMap policyOf).getLastD c.policy
    level := (((logs l).filterMap levelOf).map some).getLastD c.level
    fac := (((logs l).filterMap facOf).map some).getLastD c.fac
    adv := (((advs l).map fun s => some (before 47 s)).getLastD c.adv.1, (((advs l).filterMap (after 47)).map some).getLastD c.adv.2)
    bargs := c.bargs ++ listens l
    socks := c.socks ++ socks l
    umode := c.umode || (socks l).any fun s => Start.isDg (Ctl.parse false s).kind
    stdio := c.stdio || (socks l).any fun s => (Ctl.parse false s).kind == .stdio
    targets := c.targets ++ targets l
    nofile := ((limits l).map fun s => some (val s)).getLastD c.nofile
    mods := c.mods ++ dsos l }

theorem getLastD_append {α : Type} (a b : List α) (d : α) : (a ++ b).getLastD d = b.getLastD (a.getLastD d) := by
  induction a generalizing d with
  | nil => rfl
  | cons x a ih => simp only [List.cons_append, List.getLastD_cons]; exact ih x

theorem result_append (c : Cfg) (l m : List Opt) (r r' : Start.Creds) :
    result (result c l r) m r' = result c (l ++ m) r' := by
  simp only [result, nums, names, policies, logs, advs, listens, socks, targets, limits, dsos, List.filterMap_append, List.map_append,
    getLastD_append, List.append_assoc, List.any_append, List.mem_append, Bool.decide_or, Bool.or_assoc]

/-- What one option needs of what came before. -/
def Room (y : Sys) (c : Cfg) (l : List Opt) : Prop :=
  c.bargs.length + (listens l).length ≤ 16 ∧ Takes y.target c.targets (targets l)

theorem room_nil {y : Sys} {c : Cfg} {o : Opt} (hb : c.bargs.length ≤ 16) (h1 : listens [o] = []) (h2 : targets [o] = []) : Room y c [o] := by
  refine ⟨by rw [h1]; simpa using hb, by rw [h2]; exact trivial⟩

/-- The form of the claim for options that are not about rights. -/
theorem plain {y : Sys} {c c' : Cfg} {o : Opt} {P : Prop} (h : rights [o] = []) :
    (P ∧ Room y c [o] ∧ ∃ r, credsOf y c.creds (rights [o]) = some r ∧ c' = result c [o] r) ↔
      P ∧ Room y c [o] ∧ c' = result c [o] c.creds := by
  rw [h]; simp [credsOf]

theorem res_num (c : Cfg) (k : Num) (s : Bytes) : result c [.num k s] c.creds = setNum c k (val s) := by
  have : ∀ j, nums j [.num k s] = if k = j then [s] else [] := fun j => by by_cases h : k = j <;> simp [nums, h]
  simp only [result, setNum, this]
  simp [names, policies, logs, advs, listens, socks, targets, limits, dsos]
  funext j
  by_cases h : k = j
  · simp [h]
  · have : ¬ j = k := fun e => h e.symm
    simp [h, this]

theorem res_name (c : Cfg) (k : Nm) (s : Bytes) : result c [.name k s] c.creds = setName c k s := by
  have : ∀ j, names j [.name k s] = if k = j then [s] else [] := fun j => by by_cases h : k = j <;> simp [names, h]
  simp only [result, setName, this]
  simp [nums, policies, logs, advs, listens, socks, targets, limits, dsos]
  funext j
  by_cases h : k = j
  · simp [h]
  · have : ¬ j = k := fun e => h e.symm
    simp [h, this]

theorem res_flag (c : Cfg) (k : Flag) : result c [.flag k] c.creds = setFlag c k := by
  simp only [result, setFlag]
  simp [nums, names, policies, logs, advs, listens, socks, targets, limits, dsos]
  funext j
  by_cases h : j = k <;> simp [h]

theorem opt_spec (y : Sys) (c c' : Cfg) (o : Opt) (hb : c.bargs.length ≤ 16) :
    opt y c o = .ok c' ↔ Fine y o ∧ Room y c [o] ∧ ∃ r, credsOf y c.creds (rights [o]) = some r ∧ c' = result c [o] r := by
  cases o with
  | num k s =>
    rw [plain (by simp [rights]), res_num]
    have hr : Room y c [.num k s] := room_nil hb (by simp [listens]) (by simp [targets])
    simp only [opt, Fine]
    constructor
    · intro h
      split at h
      · rename_i v hv
        obtain ⟨h1, rfl⟩ := (num_iff k s v).mp hv
        cases h
        exact ⟨h1, hr, rfl⟩
      · cases h
    · rintro ⟨h1, -, rfl⟩
      rw [(num_iff k s (val s)).mpr ⟨h1, rfl⟩]
  | name k s =>
    rw [plain (by simp [rights]), res_name]
    have hr : Room y c [.name k s] := room_nil hb (by simp [listens]) (by simp [targets])
    simp [opt, Fine, hr, eq_comm]
  | flag k =>
    rw [plain (by simp [rights]), res_flag]
    have hr : Room y c [.flag k] := room_nil hb (by simp [listens]) (by simp [targets])
    simp [opt, Fine, hr, eq_comm]
  | user s =>
    have hr : Room y c [.user s] := room_nil hb (by simp [listens]) (by simp [targets])
    have e : ∀ r, result c [.user s] r = { c with creds := r } := fun r => by
      simp [result, nums, names, policies, logs, advs, listens, socks, targets, limits, dsos]
    simp only [opt, Fine, hr, rights, List.filterMap_cons, List.filterMap_nil, credsOf, true_and, e]
    cases h : Start.userOpt y.pw y.gr c.creds s <;> simp [eq_comm]
  | mode s =>
    have hr : Room y c [.mode s] := room_nil hb (by simp [listens]) (by simp [targets])
    have e : ∀ r, result c [.mode s] r = { c with creds := r } := fun r => by
      simp [result, nums, names, policies, logs, advs, listens, socks, targets, limits, dsos]
    simp only [opt, Fine, hr, rights, List.filterMap_cons, List.filterMap_nil, credsOf, true_and, e]
    cases h : Start.modeOpt c.creds s <;> simp [eq_comm]
  | policy s =>
    rw [plain (by simp [rights])]
    have hr : Room y c [.policy s] := room_nil hb (by simp [listens]) (by simp [targets])
    have e : ∀ p, policyOf s = some p → result c [.policy s] c.creds = { c with policy := p } := fun p hp => by
      simp [result, nums, names, policies, logs, advs, listens, socks, targets, limits, dsos, hp]
    simp only [opt, Fine]
    constructor
    · intro h
      split at h
      · rename_i p hp
        cases h
        exact ⟨⟨p, (policyOf_iff s p).mp hp⟩, hr, (e p hp).symm⟩
      · cases h
    · rintro ⟨⟨p, h1⟩, -, rfl⟩
      have hp := (policyOf_iff s p).mpr h1
      rw [hp, e p hp]
  | log s =>
    rw [plain (by simp [rights])]
    have hr : Room y c [.log s] := room_nil hb (by simp [listens]) (by simp [targets])
    simp only [opt, Fine, logOpt, cut_eq]
    cases ha : after 58 s with
    | none =>
      have e : ∀ v, str2lvl (before 58 s) = some v → result c [.log s] c.creds = { c with level := some v } := fun v hv => by
        simp [result, nums, names, policies, logs, advs, listens, socks, targets, limits, dsos, levelOf, facOf, hv, ha]
      simp only [reduceCtorEq, false_implies, implies_true, and_true]
      constructor
      · intro h
        split at h
        · cases h
        · rename_i v hv
          cases h
          exact ⟨⟨v, (str2lvl_iff _ v).mp hv⟩, hr, (e v hv).symm⟩
      · rintro ⟨⟨v, h1⟩, -, rfl⟩
        have hv := (str2lvl_iff _ v).mpr h1
        rw [hv, e v hv]
    | some b =>
      have e : ∀ v f, str2lvl (before 58 s) = some v → str2fac b = some f →
          result c [.log s] c.creds = { c with level := some v, fac := some f } := fun v f hv hf => by
        simp [result, nums, names, policies, logs, advs, listens, socks, targets, limits, dsos, levelOf, facOf, hv, ha, hf]
      simp only [Option.some.injEq, forall_eq']
      constructor
      · intro h
        split at h
        · cases h
        · rename_i f hf
          split at h
          · cases h
          · rename_i v hv
            cases h
            exact ⟨⟨⟨v, (str2lvl_iff _ v).mp hv⟩, str2fac_isSome.mp ⟨f, hf⟩⟩, hr, (e v f hv hf).symm⟩
      · rintro ⟨⟨⟨v, h1⟩, h2⟩, -, rfl⟩
        have hv := (str2lvl_iff _ v).mpr h1
        obtain ⟨f, hf⟩ := str2fac_isSome.mpr h2
        rw [hf]
        simp only
        rw [hv, e v f hv hf]
  | adv s =>
    rw [plain (by simp [rights])]
    have hr : Room y c [.adv s] := room_nil hb (by simp [listens]) (by simp [targets])
    simp only [opt, Fine, advOpt, cut_eq]
    by_cases h0 : s = []
    · simp [h0]
    rw [if_neg h0]
    cases ha : after 47 s with
    | none =>
      have e : result c [.adv s] c.creds = { c with adv := (some (before 47 s), c.adv.2) } := by
        simp [result, nums, names, policies, logs, advs, listens, socks, targets, limits, dsos, ha]
      simp [h0, hr, e, eq_comm]
    | some b =>
      have e : result c [.adv s] c.creds = { c with adv := (some (before 47 s), some b) } := by
        simp [result, nums, names, policies, logs, advs, listens, socks, targets, limits, dsos, ha]
      by_cases h1 : b = []
      · simp [h1]
      · simp [h0, h1, hr, e, eq_comm]
  | listen v s =>
    rw [plain (by simp [rights])]
    have e : result c [.listen v s] c.creds = { c with bargs := c.bargs ++ [(v, s)] } := by
      simp [result, nums, names, policies, logs, advs, listens, socks, targets, limits, dsos]
    have hr : Room y c [.listen v s] ↔ ¬ c.bargs.length = 16 := by
      simp only [Room, listens, targets, Takes, List.filterMap_cons, List.filterMap_nil, List.length_cons, List.length_nil, and_true]
      omega
    simp only [opt, Fine, maxBind, e, hr]
    by_cases h : c.bargs.length = 16 <;> simp [h, eq_comm]
  | sock s =>
    rw [plain (by simp [rights])]
    have hr : Room y c [.sock s] := room_nil hb (by simp [listens]) (by simp [targets])
    have e : result c [.sock s] c.creds = { c with
        socks := c.socks ++ [s]
        umode := c.umode || Start.isDg (Ctl.parse false s).kind
        stdio := c.stdio || (!Start.isDg (Ctl.parse false s).kind && (Ctl.parse false s).kind == .stdio) } := by
      have : ((Ctl.parse false s).kind == Ctl.Kind.stdio) =
          (!Start.isDg (Ctl.parse false s).kind && (Ctl.parse false s).kind == .stdio) := by
        generalize (Ctl.parse false s).kind = k
        cases k <;> rfl
      rw [← this]
      simp [result, nums, names, policies, logs, advs, listens, socks, targets, limits, dsos]
    simp only [opt, Fine, hr, e, true_and, Res.ok.injEq]
    exact eq_comm
  | target s =>
    rw [plain (by simp [rights])]
    have e : result c [.target s] c.creds = { c with targets := c.targets ++ [s] } := by
      simp [result, nums, names, policies, logs, advs, listens, socks, targets, limits, dsos]
    have hr : Room y c [.target s] ↔ y.target c.targets s = true := by
      simp only [Room, listens, targets, Takes, List.filterMap_cons, List.filterMap_nil, List.length_nil, and_true]
      exact ⟨fun h => h.2, fun h => ⟨by simpa using hb, h⟩⟩
    simp only [opt, Fine, e, hr, List.length_eq_zero_iff]
    by_cases h0 : s = []
    · simp [h0]
    · by_cases h : y.target c.targets s = true <;> simp [h0, h, eq_comm]
  | limit s =>
    rw [plain (by simp [rights])]
    have hr : Room y c [.limit s] := room_nil hb (by simp [listens]) (by simp [targets])
    have e : result c [.limit s] c.creds = { c with nofile := some (val s) } := by
      simp [result, nums, names, policies, logs, advs, listens, socks, targets, limits, dsos]
    simp only [opt, Fine]
    constructor
    · intro h
      split at h
      · rename_i v hv
        obtain ⟨h1, h2, -⟩ := (range_iff _ _ _ _).mp hv
        have h3 := val_of h1
        split at h
        · rename_i hl
          cases h
          rw [h3]
          exact ⟨⟨⟨v, h1⟩, h2, hl⟩, hr, by rw [e, h3]⟩
        · cases h
      · cases h
    · rintro ⟨⟨⟨v, h1⟩, h2, h3⟩, -, rfl⟩
      rw [val_of h1] at h2 h3
      rw [(range_iff s 0 (-1) v).mpr ⟨h1, h2, by omega⟩]
      simp only
      rw [if_pos h3, e, val_of h1]
  | dso s =>
    rw [plain (by simp [rights])]
    have hr : Room y c [.dso s] := room_nil hb (by simp [listens]) (by simp [targets])
    have e : result c [.dso s] c.creds = { c with mods := c.mods ++ [s] } := by
      simp [result, nums, names, policies, logs, advs, listens, socks, targets, limits, dsos]
    simp only [opt, Fine, e, hr]
    by_cases h : y.dso s = true <;> simp [h, eq_comm]
  | info => simp [opt, Fine]
  | bad => simp [opt, Fine]

theorem credsOf_append (y : Sys) (r : Start.Creds) (l m : List (Bool × Bytes)) :
    credsOf y r (l ++ m) = (credsOf y r l).bind (credsOf y · m) := by
  induction l generalizing r with
  | nil => rfl
  | cons x l ih =>
    obtain ⟨b, s⟩ := x
    cases b <;> simp only [List.cons_append, credsOf, Option.bind_assoc] <;> simp only [ih]

theorem takes_append (f : List Bytes → Bytes → Bool) (d l m : List Bytes) :
    Takes f d (l ++ m) ↔ Takes f d l ∧ Takes f (d ++ l) m := by
  induction l generalizing d with
  | nil => simp [Takes]
  | cons s l ih => simp [Takes, ih, and_assoc]

theorem room_cons (y : Sys) (c : Cfg) (o : Opt) (l : List Opt) (r : Start.Creds) :
    Room y c (o :: l) ↔ Room y c [o] ∧ Room y (result c [o] r) l := by
  have h1 : listens (o :: l) = listens [o] ++ listens l := by simp only [listens, ← List.filterMap_append]; rfl
  have h2 : targets (o :: l) = targets [o] ++ targets l := by simp only [targets, ← List.filterMap_append]; rfl
  simp only [Room, h1, h2, takes_append, result, List.length_append]
  constructor
  · rintro ⟨a, b, d⟩; exact ⟨⟨by omega, b⟩, by omega, d⟩
  · rintro ⟨⟨a, b⟩, d, e⟩; exact ⟨by omega, b, e⟩

theorem loop_spec (y : Sys) (l : List Opt) (c c' : Cfg) (hb : c.bargs.length ≤ 16) :
    loop y c l = .ok c' ↔ (∀ o ∈ l, Fine y o) ∧ Room y c l ∧ ∃ r, credsOf y c.creds (rights l) = some r ∧ c' = result c l r := by
  induction l generalizing c with
  | nil =>
    have e : result c [] c.creds = c := by
      simp [result, nums, names, policies, logs, advs, listens, socks, targets, limits, dsos]
    have hr : Room y c [] := ⟨by simpa [listens] using hb, trivial⟩
    simp [loop, hr, rights, credsOf, e, eq_comm]
  | cons o l ih =>
    have hc : rights (o :: l) = rights [o] ++ rights l := by simp only [rights, ← List.filterMap_append]; rfl
    simp only [loop]
    constructor
    · intro h
      split at h
      · rename_i c1 h1
        obtain ⟨f1, m1, r1, e1, rfl⟩ := (opt_spec y c c1 o hb).mp h1
        obtain ⟨f2, m2, r2, e2, rfl⟩ := (ih _ (by have := m1.1; simpa [result] using this)).mp h
        refine ⟨?_, (room_cons y c o l r1).mpr ⟨m1, m2⟩, r2, ?_, result_append c [o] l r1 r2⟩
        · intro x hx
          rcases List.mem_cons.mp hx with rfl | hx
          · exact f1
          · exact f2 x hx
        · rw [hc, credsOf_append, e1]; exact e2
      · cases h
    · rintro ⟨f, m, r, e, rfl⟩
      rw [hc, credsOf_append] at e
      cases h1 : credsOf y c.creds (rights [o]) with
      | none => rw [h1] at e; cases e
      | some r1 =>
        rw [h1] at e
        obtain ⟨m1, m2⟩ := (room_cons y c o l r1).mp m
        rw [(opt_spec y c (result c [o] r1) o hb).mpr ⟨f o (by simp), m1, r1, h1, rfl⟩]
        simp only
        exact (ih (result c [o] r1) (by have := m1.1; simpa [result] using this)).mpr
          ⟨fun x hx => f x (by simp [hx]), m2, r, e, (result_append c [o] l r1 r).symm⟩

end Verif.Cli
