import Verif.Ctl.Lemmas

/-! # Nobody is let in before owner and mode are set -/

namespace Verif.Ctl

/-- What is said of the user and the group to run as is the same for both. -/
def SameCreds (a b : Cfg) : Prop :=
  a.uname = b.uname ∧ a.gname = b.gname ∧ a.uid = b.uid ∧ a.gid = b.gid ∧ a.sockMode = b.sockMode

/-- A file will be as asked for by the time that its maker, left to itself, listens. -/
def Fut (cf : Nat → Cfg) (q : Bytes) : Node → List Op → Prop
  | _, [] => True
  | n, .chown p u g :: t => Fut cf q (if p = q then owned u g n else n) t
  | n, .chmod p m :: t => Fut cf q (if p = q then { n with mode := m } else n) t
  | n, .listen k p :: t => (k = n.k ∧ p = q → Settled (cf n.inst) n) ∧
      Fut cf q (if k = n.k ∧ p = q then { n with listening := true } else n) t
  | n, .unlink _ :: t => Fut cf q n t
  | n, .bind _ _ :: t => Fut cf q n t
  | n, .sys :: t => Fut cf q n t
  | n, .refuse :: t => Fut cf q n t

def fresh (c : Cfg) (i k : Nat) : Node := ⟨i, k, c.euid, c.egid, 0o777 - c.umask, false⟩

/-- Every file that will be made will be as asked for. -/
def PB (cf : Nat → Cfg) (i : Nat) (q : Bytes) : List Op → Prop
  | [] => True
  | .bind k p :: t => (p = q → Fut cf q (fresh (cf i) i k) t) ∧ PB cf i q t
  | _ :: t => PB cf i q t

def ArgOk (c : Cfg) (q : Bytes) : Op → Prop
  | .chown p u g => p = q → (c.uname = true ∨ c.gname = true) ∧ u = c.uid ∧ g = c.gid
  | .chmod p m => p = q → c.gname = true ∧ c.sockMode ≠ 0 ∧ m = c.sockMode
  | _ => True

def Args (c : Cfg) (q : Bytes) (t : List Op) : Prop :=
  ∀ o ∈ t, ArgOk c q o ∧ (o.path = some q → Uses c q)

theorem settled_owned {c n} (h : c.uname = true ∨ c.gname = true) (hs : Settled c n) : Settled c (owned c.uid c.gid n) := by
  obtain ⟨a, b, d⟩ := hs
  refine ⟨?_, ?_, d⟩
  · simp only [owned]; simp only [wantUid] at a ⊢; rw [if_pos h] at a ⊢; rw [a]; cases c.uid <;> rfl
  · simp only [owned]; simp only [wantGid] at b ⊢; rw [if_pos h] at b ⊢; rw [b]; cases c.gid <;> rfl

theorem settled_mode {c n} (h : c.gname = true ∧ c.sockMode ≠ 0) (hs : Settled c n) :
    Settled c { n with mode := c.sockMode } :=
  ⟨hs.1, hs.2.1, by simp only [wantMode]; rw [if_pos h]⟩

theorem fut_owned {cf q} {c : Cfg} (hn : c.uname = true ∨ c.gname = true) : ∀ {t : List Op} {n : Node}, cf n.inst = c →
    (∀ o ∈ t, ArgOk c q o) → Fut cf q n t → Fut cf q (owned c.uid c.gid n) t
  | [], n, _, _, _ => trivial
  | o :: t, n, hc, ha, h => by
    have ht : ∀ o ∈ t, ArgOk c q o := fun o m => ha o (List.mem_cons_of_mem _ m)
    have ho := ha o List.mem_cons_self
    cases o with
    | chown p u g =>
      simp only [Fut] at h ⊢
      by_cases hp : p = q
      · obtain ⟨_, rfl, rfl⟩ := ho hp
        rw [if_pos hp] at h ⊢
        have e : owned c.uid c.gid (owned c.uid c.gid n) = owned c.uid c.gid n := by
          simp only [owned]; cases c.uid <;> cases c.gid <;> rfl
        rw [e]; exact h
      · rw [if_neg hp] at h ⊢; exact fut_owned hn hc ht h
    | chmod p m =>
      simp only [Fut] at h ⊢
      by_cases hp : p = q
      · rw [if_pos hp] at h ⊢
        exact fut_owned hn (n := { n with mode := m }) hc ht h
      · rw [if_neg hp] at h ⊢; exact fut_owned hn hc ht h
    | listen k p =>
      simp only [Fut] at h ⊢
      refine ⟨fun e => ?_, ?_⟩
      · have := h.1 e
        show Settled (cf n.inst) _
        rw [hc] at this ⊢; exact settled_owned hn this
      · have h2 := h.2
        by_cases e : k = n.k ∧ p = q
        · rw [if_pos e] at h2
          rw [if_pos (show k = (owned c.uid c.gid n).k ∧ p = q from e)]
          exact fut_owned hn (n := { n with listening := true }) hc ht h2
        · rw [if_neg e] at h2
          rw [if_neg (show ¬ (k = (owned c.uid c.gid n).k ∧ p = q) from e)]
          exact fut_owned hn hc ht h2
    | unlink _ => exact fut_owned (t := t) hn hc ht h
    | bind _ _ => exact fut_owned (t := t) hn hc ht h
    | sys => exact fut_owned (t := t) hn hc ht h
    | refuse => exact fut_owned (t := t) hn hc ht h

theorem fut_mode {cf q} {c : Cfg} (hn : c.gname = true ∧ c.sockMode ≠ 0) : ∀ {t : List Op} {n : Node}, cf n.inst = c →
    (∀ o ∈ t, ArgOk c q o) → Fut cf q n t → Fut cf q { n with mode := c.sockMode } t
  | [], n, _, _, _ => trivial
  | o :: t, n, hc, ha, h => by
    have ht : ∀ o ∈ t, ArgOk c q o := fun o m => ha o (List.mem_cons_of_mem _ m)
    have ho := ha o List.mem_cons_self
    cases o with
    | chown p u g =>
      simp only [Fut] at h ⊢
      by_cases hp : p = q
      · rw [if_pos hp] at h ⊢
        exact fut_mode hn (n := owned u g n) hc ht h
      · rw [if_neg hp] at h ⊢; exact fut_mode hn hc ht h
    | chmod p m =>
      simp only [Fut] at h ⊢
      by_cases hp : p = q
      · obtain ⟨_, _, rfl⟩ := ho hp
        rw [if_pos hp] at h ⊢; exact h
      · rw [if_neg hp] at h ⊢; exact fut_mode hn hc ht h
    | listen k p =>
      simp only [Fut] at h ⊢
      refine ⟨fun e => ?_, ?_⟩
      · have := h.1 e
        rw [hc] at this ⊢; exact settled_mode hn this
      · have h2 := h.2
        by_cases e : k = n.k ∧ p = q
        · rw [if_pos e] at h2 ⊢
          exact fut_mode hn (n := { n with listening := true }) hc ht h2
        · rw [if_neg e] at h2 ⊢
          exact fut_mode hn hc ht h2
    | unlink _ => exact fut_mode (t := t) hn hc ht h
    | bind _ _ => exact fut_mode (t := t) hn hc ht h
    | sys => exact fut_mode (t := t) hn hc ht h
    | refuse => exact fut_mode (t := t) hn hc ht h

/-! ## The programme of an instance -/

theorem mem_ifsun {c k q' name o} (h : o ∈ ifsunOps c k q' name) (q : Bytes) :
    ArgOk c q o ∧ (∀ p, o.path = some p → p = q') ∧ (∀ k' p, o = .listen k' p → k' = k) := by
  unfold ifsunOps at h
  split at h
  · simp at h; subst h; simp [ArgOk, Op.path]
  · simp only [List.mem_append, List.mem_cons, List.not_mem_nil, or_false] at h
    rcases h with ((h | h) | h) | h
    · rcases h with rfl | rfl | rfl <;> simp [ArgOk, Op.path]
    · split at h
      · rename_i hc; simp at h; subst h; simp at hc; simp [ArgOk, Op.path, hc]
      · simp at h
    · split at h
      · rename_i hc; simp at h; subst h; simp at hc; simp [ArgOk, Op.path, hc]
      · simp at h
    · rcases h with rfl | rfl <;> simp [ArgOk, Op.path]

theorem mem_sock {c k s o} (h : o ∈ sockOps c k s) (q : Bytes) :
    ArgOk c q o ∧ (o.path = some q → Local s ∧ Means c.cwd s.name q) ∧ (∀ k' p, o = .listen k' p → k' = k) := by
  unfold sockOps at h
  split at h
  · rename_i hu
    obtain ⟨a, b, d⟩ := mem_ifsun h q
    exact ⟨a, fun hp => ⟨isUnix_iff.mp hu, full_iff.mp (b q hp).symm⟩, d⟩
  · have : o = .refuse ∨ o = .sys := by
      split at h
      · split at h
        · split at h <;> simp at h <;> simp [h]
        · simp at h; simp [h]
      · simp at h; simp [h]
    rcases this with rfl | rfl <;> simp [ArgOk, Op.path]

theorem mem_init {c q} : ∀ {l k o}, o ∈ initOps c k l →
    ArgOk c q o ∧ (o.path = some q → ∃ s ∈ l, Local s ∧ Means c.cwd s.name q) ∧ (∀ k' p, o = .listen k' p → k ≤ k')
  | [], k, o, h => by simp [initOps] at h
  | s :: l, k, o, h => by
    simp only [initOps, List.mem_append] at h
    rcases h with h | h
    · obtain ⟨a, b, d⟩ := mem_sock h q
      exact ⟨a, fun hp => ⟨s, List.mem_cons_self, b hp⟩, fun k' p e => Nat.le_of_eq (d k' p e).symm⟩
    · obtain ⟨a, b, d⟩ := mem_init h
      refine ⟨a, fun hp => ?_, fun k' p e => by have := d k' p e; omega⟩
      obtain ⟨s', m, h⟩ := b hp
      exact ⟨s', List.mem_cons_of_mem _ m, h⟩

/-- Calls for later sockets do not open the file. -/
theorem fut_later {cf q} : ∀ {t : List Op} {n : Node}, (∀ k p, Op.listen k p ∈ t → n.k < k) → Fut cf q n t
  | [], n, _ => trivial
  | o :: t, n, h => by
    have ht : ∀ k p, Op.listen k p ∈ t → n.k < k := fun k p m => h k p (List.mem_cons_of_mem _ m)
    cases o with
    | chown p u g => simp only [Fut]; apply fut_later; split <;> exact ht
    | chmod p m => simp only [Fut]; apply fut_later; split <;> exact ht
    | listen k p =>
      have := h k p List.mem_cons_self
      simp only [Fut]
      refine ⟨fun e => by omega, ?_⟩
      apply fut_later; split <;> exact ht
    | unlink _ => exact fut_later (t := t) ht
    | bind _ _ => exact fut_later (t := t) ht
    | sys => exact fut_later (t := t) ht
    | refuse => exact fut_later (t := t) ht

theorem fut_ifsun {cf i q k} {t : List Op} (ht : ∀ k' p, Op.listen k' p ∈ t → k < k') :
    Fut cf q (fresh (cf i) i k)
      ((if (cf i).uname || (cf i).gname then [.chown q (cf i).uid (cf i).gid] else []) ++
      ((if (cf i).gname && (cf i).sockMode != 0 then [.chmod q (cf i).sockMode] else []) ++
      ([.listen k q, .sys] ++ t))) := by
  cases hu : (cf i).uname <;> cases hg : (cf i).gname <;> by_cases hm : (cf i).sockMode = 0 <;>
    simp [Fut, hm, fresh, owned, Settled, wantUid, wantGid, wantMode, hu, hg] <;>
    (apply fut_later; exact ht)

theorem pb_other {cf i q} : ∀ {l t : List Op}, (∀ k, Op.bind k q ∉ l) → PB cf i q t → PB cf i q (l ++ t)
  | [], t, _, h => h
  | o :: l, t, hl, h => by
    have := pb_other (i := i) (cf := cf) (l := l) (t := t) (fun k m => hl k (List.mem_cons_of_mem _ m)) h
    cases o with
    | bind k p => exact ⟨fun e => absurd (by subst e; exact List.mem_cons_self) (hl k), this⟩
    | _ => exact this

theorem pb_ifsun {cf i q k name} {t : List Op} (ht : ∀ k' p, Op.listen k' p ∈ t → k < k') (h : PB cf i q t) :
    PB cf i q (ifsunOps (cf i) k q name ++ t) := by
  unfold ifsunOps
  split
  · exact h
  · simp only [List.append_assoc, List.cons_append, List.nil_append, PB]
    refine ⟨fun _ => by simpa [List.append_assoc] using fut_ifsun (cf := cf) (i := i) (q := q) ht, ?_⟩
    apply pb_other (by intro k m; split at m <;> simp at m)
    apply pb_other (by intro k m; split at m <;> simp at m)
    exact h

theorem pb_init {cf i q} : ∀ {l k}, PB cf i q (initOps (cf i) k l)
  | [], k => trivial
  | s :: l, k => by
    simp only [initOps]
    have ih := pb_init (cf := cf) (i := i) (q := q) (l := l) (k := k + 1)
    have hl : ∀ k' p, Op.listen k' p ∈ initOps (cf i) (k + 1) l → k < k' := fun k' p m =>
      (mem_init (q := q) m).2.2 k' p rfl
    by_cases hq : isUnix s.kind = true ∧ full (cf i).cwd s.name = q
    · unfold sockOps; rw [if_pos hq.1, hq.2]
      exact pb_ifsun hl ih
    · apply pb_other _ ih
      intro k' m
      obtain ⟨a, b⟩ := (mem_sock m q).2.1 rfl
      exact hq ⟨isUnix_iff.mpr a, full_iff.mpr b⟩

/-! ## The invariant -/

structure Inv (cf : Nat → Cfg) (q : Bytes) (s : St) : Prop where
  node : ∀ n, s.fs q = some n → Uses (cf n.inst) q ∧ s.pr n.inst ≠ .idle ∧
    (n.listening = true → Settled (cf n.inst) n) ∧ (∀ t, s.pr n.inst = .setup t → Fut cf q n t)
  prog : ∀ i t, s.pr i = .setup t → PB cf i q t ∧ Args (cf i) q t
  down : ∀ i t, s.pr i = .down t → ∀ o ∈ t, soft o = true

theorem inv_init (cf : Nat → Cfg) (q : Bytes) : Inv cf q init :=
  ⟨by simp [init], by simp [init], by simp [init]⟩

/-- An instance changes its state without a call, and is not set back. -/
theorem inv_move {cf q s i p} (h : Inv cf q s) (hi : p ≠ .idle) (hs : ∀ t, p = .setup t → s.pr i = .idle ∧
    PB cf i q t ∧ Args (cf i) q t) (hd : ∀ t, p = .down t → ∀ o ∈ t, soft o = true) :
    Inv cf q ⟨s.fs, move s.pr i p⟩ := by
  refine ⟨?_, ?_, ?_⟩
  · intro n hn
    obtain ⟨a, b, d, e⟩ := h.node n hn
    refine ⟨a, ?_, d, ?_⟩
    · by_cases hj : n.inst = i
      · rw [hj]; simp [move_self, hi]
      · simp only [move_ne _ _ hj]; exact b
    · intro t ht
      by_cases hj : n.inst = i
      · rw [hj] at ht; simp only [move_self] at ht
        exact absurd (hj ▸ (hs t ht).1) b
      · simp only [move_ne _ _ hj] at ht; exact e t ht
  · intro j t ht
    by_cases hj : j = i
    · subst hj; simp only [move_self] at ht; exact (hs t ht).2
    · simp only [move_ne _ _ hj] at ht; exact h.prog j t ht
  · intro j t ht
    by_cases hj : j = i
    · subst hj; simp only [move_self] at ht; exact hd t ht
    · simp only [move_ne _ _ hj] at ht; exact h.down j t ht

theorem pb_tail {cf i q o t} (h : PB cf i q (o :: t)) : PB cf i q t := by
  cases o with
  | bind k p => exact h.2
  | _ => exact h

theorem fut_tail {cf q n o t} (ho : o.path ≠ some q) (h : Fut cf q n (o :: t)) : Fut cf q n t := by
  cases o with
  | chown p u g => simp [Op.path] at ho; simpa [Fut, ho] using h
  | chmod p m => simp [Op.path] at ho; simpa [Fut, ho] using h
  | listen k p => simp [Op.path] at ho; simpa [Fut, ho] using h
  | _ => exact h

theorem inv_call {cf q s i ok o l} (hsame : ∀ i j, Uses (cf i) q → Uses (cf j) q → SameCreds (cf i) (cf j))
    (h : Inv cf q s) (ht : todo (s.pr i) = some (o :: l)) : Inv cf q (callOp (cf i) i s ok o l) := by
  rcases callOp_cases (cf i) i s ok o l with ⟨fs', _, he, e⟩ | ⟨_, so, e⟩ | ⟨_, e⟩
  · -- the call succeeds
    rw [e]
    have hE := eff_exec o q he
    cases hs : s.pr i with
    | down t =>
      simp only [hs, todo, Option.some.injEq] at ht; subst ht
      have so := h.down i _ hs o List.mem_cons_self
      have hm := inv_move (i := i) (p := .down l) h (by simp) (by simp)
        (by intro t e o m; injection e with e; subst e; exact h.down i _ hs o (List.mem_cons_of_mem _ m))
      simp only [rest]
      refine ⟨?_, hm.prog, hm.down⟩
      intro n hn
      cases o <;> simp [soft] at so
      rcases hE with hy | ⟨_, hy⟩
      · exact hm.node n (by rw [← hy]; exact hn)
      · simp only at hn; rw [hy] at hn; simp at hn
    | setup t =>
      simp only [hs, todo, Option.some.injEq] at ht; subst ht
      obtain ⟨hpb, hargs⟩ := h.prog i _ hs
      have hprog : ∀ j t, move s.pr i (rest (.setup (o :: l)) l) j = .setup t → PB cf j q t ∧ Args (cf j) q t := by
        intro j t hj
        by_cases e : j = i
        · subst e; simp only [rest, move_self] at hj; injection hj with hj; subst hj
          exact ⟨pb_tail hpb, fun o m => hargs o (List.mem_cons_of_mem _ m)⟩
        · simp only [move_ne _ _ e] at hj; exact h.prog j t hj
      have hdown : ∀ j t, move s.pr i (rest (.setup (o :: l)) l) j = .down t → ∀ o ∈ t, soft o = true := by
        intro j t hj
        by_cases e : j = i
        · subst e; simp [rest, move_self] at hj
        · simp only [move_ne _ _ e] at hj; exact h.down j t hj
      refine ⟨?_, hprog, hdown⟩
      -- states of a file, before and after
      have key : ∀ n, fs' q = some n → n.inst ≠ i → (Uses (cf n.inst) q ∧ s.pr n.inst ≠ .idle ∧
          (n.listening = true → Settled (cf n.inst) n) ∧ (∀ t, s.pr n.inst = .setup t → Fut cf q n t)) →
          Uses (cf n.inst) q ∧ move s.pr i (rest (.setup (o :: l)) l) n.inst ≠ .idle ∧
          (n.listening = true → Settled (cf n.inst) n) ∧
          (∀ t, move s.pr i (rest (.setup (o :: l)) l) n.inst = .setup t → Fut cf q n t) := by
        intro n _ hi hh
        rw [move_ne _ _ hi]; exact hh
      have own : ∀ n, n.inst = i → Uses (cf i) q → (n.listening = true → Settled (cf i) n) → Fut cf q n l →
          Uses (cf n.inst) q ∧ move s.pr i (rest (.setup (o :: l)) l) n.inst ≠ .idle ∧
          (n.listening = true → Settled (cf n.inst) n) ∧
          (∀ t, move s.pr i (rest (.setup (o :: l)) l) n.inst = .setup t → Fut cf q n t) := by
        intro n hi hu hl hf
        rw [hi, move_self]
        refine ⟨hu, by simp [rest], hl, ?_⟩
        intro t ht; simp only [rest] at ht; injection ht with ht; subst ht; exact hf
      have same : (∀ n, s.fs q = some n → n.inst = i → Fut cf q n (o :: l) → Fut cf q n l) → fs' q = s.fs q →
          ∀ n, fs' q = some n → Uses (cf n.inst) q ∧ move s.pr i (rest (.setup (o :: l)) l) n.inst ≠ .idle ∧
          (n.listening = true → Settled (cf n.inst) n) ∧
          (∀ t, move s.pr i (rest (.setup (o :: l)) l) n.inst = .setup t → Fut cf q n t) := by
        intro hf hy n hn
        have hn' := hn; rw [hy] at hn'
        obtain ⟨a, b, d, f⟩ := h.node n hn'
        by_cases hi : n.inst = i
        · exact own n hi (hi ▸ a) (hi ▸ d) (hf n hn' hi (f _ (hi ▸ hs)))
        · exact key n hn hi ⟨a, b, d, f⟩
      cases o with
      | unlink p =>
        rcases hE with hy | ⟨_, hy⟩
        · exact same (fun n _ _ hf => hf) hy
        · intro n hn; simp only at hn; rw [hy] at hn; simp at hn
      | bind k p =>
        simp only [Eff] at hE
        by_cases hp : p = q
        · rw [if_pos hp] at hE
          intro n hn; simp only at hn; rw [hE.2] at hn; simp at hn; subst hn
          exact own _ rfl ((hargs _ List.mem_cons_self).2 (by simp [Op.path, hp])) (by simp) (hpb.1 hp)
        · rw [if_neg hp] at hE
          exact same (fun n _ _ hf => hf) hE
      | chown p u g =>
        simp only [Eff] at hE
        by_cases hp : p = q
        · rw [if_pos hp] at hE
          obtain ⟨m, hm, hy⟩ := hE
          intro n hn; simp only at hn; rw [hy] at hn; simp at hn; subst hn
          obtain ⟨a, b, d, f⟩ := h.node m hm
          obtain ⟨⟨hon, rfl, rfl⟩, hu⟩ := And.intro ((hargs _ List.mem_cons_self).1 hp)
            ((hargs _ List.mem_cons_self).2 (by simp [Op.path, hp]))
          obtain ⟨c1, c2, c3, c4, _⟩ := hsame i m.inst hu a
          by_cases hi : m.inst = i
          · refine own _ hi hu ?_ ?_
            · intro hl; exact settled_owned hon (hi ▸ d hl)
            · have := f _ (by rw [hi]; exact hs); simp only [Fut] at this; rw [if_pos hp] at this; exact this
          · refine key _ (by rw [hy]) hi ⟨a, b, ?_, ?_⟩
            · intro hl; show Settled (cf m.inst) _
              rw [c3, c4]; rw [c1, c2] at hon
              exact settled_owned hon (d hl)
            · intro t ht
              rw [c3, c4]; rw [c1, c2] at hon
              exact fut_owned hon rfl (fun o m => ((h.prog _ _ ht).2 o m).1) (f t ht)
        · rw [if_neg hp] at hE
          exact same (fun n _ _ hf => fut_tail (by simpa [Op.path] using hp) hf) hE
      | chmod p u =>
        simp only [Eff] at hE
        by_cases hp : p = q
        · rw [if_pos hp] at hE
          obtain ⟨m, hm, hy⟩ := hE
          intro n hn; simp only at hn; rw [hy] at hn; simp at hn; subst hn
          obtain ⟨a, b, d, f⟩ := h.node m hm
          obtain ⟨⟨h1, h2, rfl⟩, hu⟩ := And.intro ((hargs _ List.mem_cons_self).1 hp)
            ((hargs _ List.mem_cons_self).2 (by simp [Op.path, hp]))
          obtain ⟨_, c2, _, _, c5⟩ := hsame i m.inst hu a
          by_cases hi : m.inst = i
          · refine own _ hi hu ?_ ?_
            · intro hl; exact settled_mode ⟨h1, h2⟩ (hi ▸ d hl)
            · have := f _ (by rw [hi]; exact hs); simp only [Fut] at this; rw [if_pos hp] at this; exact this
          · refine key _ (by rw [hy]) hi ⟨a, b, ?_, ?_⟩
            · intro hl; show Settled (cf m.inst) _
              rw [c5]; rw [c2] at h1; rw [c5] at h2
              exact settled_mode ⟨h1, h2⟩ (d hl)
            · intro t ht
              rw [c5]; rw [c2] at h1; rw [c5] at h2
              exact fut_mode ⟨h1, h2⟩ rfl (fun o m => ((h.prog _ _ ht).2 o m).1) (f t ht)
        · rw [if_neg hp] at hE
          exact same (fun n _ _ hf => fut_tail (by simpa [Op.path] using hp) hf) hE
      | listen k p =>
        simp only [Eff] at hE
        by_cases hp : p = q
        · rw [if_pos hp] at hE
          rcases hE with ⟨m, hm, hk, hy⟩ | ⟨hy, hno⟩
          · intro n hn; simp only at hn; rw [hy] at hn; simp at hn; subst hn
            obtain ⟨a, b, d, f⟩ := h.node m hm
            have hf := f _ (hk.1 ▸ hs)
            simp only [Fut] at hf
            have e2 : k = m.k ∧ p = q := ⟨hk.2.symm, hp⟩
            rw [if_pos e2] at hf
            refine own _ hk.1 (hk.1 ▸ a) (fun _ => ?_) hf.2
            have := hf.1 e2
            rw [hk.1] at this; exact this
          · refine same ?_ hy
            intro n hn hi hf
            simp only [Fut] at hf
            rw [if_neg (fun e => hno n hn ⟨hi, e.1.symm⟩)] at hf
            exact hf.2
        · rw [if_neg hp] at hE
          exact same (fun n _ _ hf => fut_tail (by simpa [Op.path] using hp) hf) hE
      | sys => exact same (fun n _ _ hf => hf) hE
      | refuse => exact absurd hE (by simp [Eff])
    | up => simp [hs, todo] at ht
    | idle => simp [hs, todo] at ht
    | gone => simp [hs, todo] at ht
  · -- it is passed over
    rw [e]
    cases o <;> simp [soft] at so
    rename_i p
    cases hs : s.pr i with
    | down t =>
      simp only [hs, todo, Option.some.injEq] at ht; subst ht
      exact inv_move (i := i) (p := .down l) h (by simp) (by simp)
        (by intro t e o m; injection e with e; subst e; exact h.down i _ hs o (List.mem_cons_of_mem _ m))
    | setup t =>
      simp only [hs, todo, Option.some.injEq] at ht; subst ht
      obtain ⟨hpb, hargs⟩ := h.prog i _ hs
      refine ⟨?_, ?_, ?_⟩
      · intro n hn
        obtain ⟨a, b, d, f⟩ := h.node n hn
        by_cases hi : n.inst = i
        · rw [hi]; simp only [move_self]
          refine ⟨hi ▸ a, by simp [rest], hi ▸ d, ?_⟩
          intro t ht; simp only [rest] at ht; injection ht with ht; subst ht
          exact f (Op.unlink _ :: _) (by rw [hi]; exact hs)
        · simp only [move_ne _ _ hi]; exact ⟨a, b, d, f⟩
      · intro j t hj
        by_cases e : j = i
        · subst e; simp only [rest, move_self] at hj; injection hj with hj; subst hj
          exact ⟨pb_tail hpb, fun o m => hargs o (List.mem_cons_of_mem _ m)⟩
        · simp only [move_ne _ _ e] at hj; exact h.prog j t hj
      · intro j t hj
        by_cases e : j = i
        · subst e; simp [rest, move_self] at hj
        · simp only [move_ne _ _ e] at hj; exact h.down j t hj
    | up => simp [hs, todo] at ht
    | idle => simp [hs, todo] at ht
    | gone => simp [hs, todo] at ht
  · rw [e]
    exact inv_move (i := i) (p := .gone) h (by simp) (by simp) (by simp)

theorem inv_step {cf q s s' e} (hsame : ∀ i j, Uses (cf i) q → Uses (cf j) q → SameCreds (cf i) (cf j))
    (h : Inv cf q s) (he : step cf s e = some s') : Inv cf q s' := by
  cases e with
  | start i =>
    simp only [step] at he
    split at he
    · rename_i hp; simp at he; subst he
      refine inv_move h (by simp) ?_ (by simp)
      intro t e; injection e with e; subst e
      refine ⟨hp, pb_init, fun o m => ?_⟩
      obtain ⟨a, b, _⟩ := mem_init (q := q) m
      exact ⟨a, b⟩
    · simp at he
  | call i ok =>
    simp only [step] at he
    split at he
    · rename_i o l ht
      simp at he; subst he
      exact inv_call hsame h ht
    · simp at he
  | ready i =>
    simp only [step] at he
    split at he
    · simp at he; subst he; exact inv_move h (by simp) (by simp) (by simp)
    · simp at he
  | quit i =>
    simp only [step] at he
    split at he
    · simp at he; subst he
      exact inv_move h (by simp) (by simp) (by intro t e o m; injection e with e; subst e; exact clean_soft m)
    · simp at he
  | done i =>
    simp only [step] at he
    split at he
    · simp at he; subst he; exact inv_move h (by simp) (by simp) (by simp)
    · simp at he
  | kill i =>
    simp only [step] at he
    split at he
    · simp at he; subst he; exact inv_move h (by simp) (by simp) (by simp)
    · simp at he

theorem inv_run {cf q} (hsame : ∀ i j, Uses (cf i) q → Uses (cf j) q → SameCreds (cf i) (cf j)) :
    ∀ {es s s'}, Inv cf q s → run cf s es = some s' → Inv cf q s'
  | [], s, s', h, hr => by simp [run] at hr; subst hr; exact h
  | e :: es, s, s', h, hr => by
    simp only [run] at hr
    split at hr
    · simp at hr
    · rename_i hs; exact inv_run hsame (inv_step hsame h hs) hr

end Verif.Ctl
