import Verif.Ctl.Spec

/-! # Lemmas on socket files -/

namespace Verif.Ctl

theorem isUnix_iff {s : Csock} : isUnix s.kind = true ↔ Local s := by
  simp [isUnix, Local]

theorem full_iff {d name q : Bytes} : full d name = q ↔ Means d name q := by
  unfold full Means
  split
  · simp [eq_comm]
  · rename_i h
    have : name.head? ≠ some 47 := by
      intro h2
      cases name with
      | nil => simp at h2
      | cons a l => simp at h2; exact h l (by rw [h2])
    rw [if_neg this]; simp [eq_comm]

theorem full_slash {d d' name : Bytes} (h : name.head? = some 47) : full d name = full d' name := by
  cases name with
  | nil => simp at h
  | cons a l => simp at h; subst h; rfl

theorem move_self (pr : Nat → Pr) (i : Nat) (p : Pr) : move pr i p i = p := by simp [move]
theorem move_ne (pr : Nat → Pr) {i j : Nat} (p : Pr) (h : j ≠ i) : move pr i p j = pr j := by simp [move, h]

/-- What a call may do to one path. -/
def Eff (c : Cfg) (i : Nat) (q : Bytes) (x y : Option Node) : Op → Prop
  | .unlink p => y = x ∨ (p = q ∧ y = none)
  | .bind k p => if p = q then x = none ∧ y = some ⟨i, k, c.euid, c.egid, 0o777 - c.umask, false⟩ else y = x
  | .chown p u g => if p = q then ∃ n, x = some n ∧ y = some (owned u g n) else y = x
  | .chmod p m => if p = q then ∃ n, x = some n ∧ y = some { n with mode := m } else y = x
  | .listen k p => if p = q then (∃ n, x = some n ∧ (n.inst = i ∧ n.k = k) ∧ y = some { n with listening := true }) ∨
      (y = x ∧ ∀ n, x = some n → ¬ (n.inst = i ∧ n.k = k)) else y = x
  | .sys => y = x
  | .refuse => False

def Effs (c : Cfg) (i : Nat) (q : Bytes) : Option Node → List Op → Option Node → Prop
  | x, [], y => y = x
  | x, o :: l, y => ∃ z, Eff c i q x z o ∧ Effs c i q z l y

theorem Effs.append {c i q} : ∀ {l l' x y}, Effs c i q x (l ++ l') y ↔ ∃ z, Effs c i q x l z ∧ Effs c i q z l' y
  | [], l', x, y => by simp [Effs]
  | o :: l, l', x, y => by
    simp only [List.cons_append, Effs]
    constructor
    · rintro ⟨z, h, h'⟩
      obtain ⟨w, a, b⟩ := Effs.append.mp h'
      exact ⟨w, ⟨z, h, a⟩, b⟩
    · rintro ⟨w, ⟨z, h, a⟩, b⟩
      exact ⟨z, h, Effs.append.mpr ⟨w, a, b⟩⟩

theorem eff_exec {c i fs fs'} (o : Op) (q : Bytes) (h : exec c i fs o = some fs') : Eff c i q (fs q) (fs' q) o := by
  cases o with
  | unlink p =>
    simp only [exec] at h; split at h
    · simp at h
    · simp at h; subst h; simp only [Eff, put]; split
      · rename_i e; exact .inr ⟨e.symm, rfl⟩
      · exact .inl rfl
  | bind k p =>
    simp only [exec] at h; split at h
    · rename_i hn; simp at h; subst h; simp only [Eff, put]
      by_cases e : p = q
      · subst e; simp [hn]
      · simp [e, Ne.symm e]
    · simp at h
  | chown p u g =>
    simp only [exec] at h; split at h
    · simp at h
    · rename_i n hn; simp at h; subst h; simp only [Eff, put]
      by_cases e : p = q
      · subst e; simp [hn]
      · simp [e, Ne.symm e]
  | chmod p m =>
    simp only [exec] at h; split at h
    · simp at h
    · rename_i n hn; simp at h; subst h; simp only [Eff, put]
      by_cases e : p = q
      · subst e; simp [hn]
      · simp [e, Ne.symm e]
  | listen k p =>
    simp only [exec] at h; split at h
    · rename_i hn; simp at h; subst h; simp only [Eff]
      by_cases e : p = q
      · subst e; simp [hn]
      · simp [e]
    · rename_i n hn; split at h
      · rename_i hk; simp at h; subst h; simp only [Eff, put]
        by_cases e : p = q
        · subst e; simp [hn, hk]
        · simp [e, Ne.symm e]
      · rename_i hk; simp at h; subst h; simp only [Eff]
        by_cases e : p = q
        · subst e
          rw [if_pos rfl]; right; refine ⟨by trivial, ?_⟩
          intro m hm; rw [hn] at hm; simp at hm; subst hm; exact hk
        · simp [e]
  | sys => simp [exec] at h; subst h; rfl
  | refuse => simp [exec] at h

/-- A call does nothing to other paths. -/
theorem eff_other {c i q x y o} (h : Eff c i q x y o) (hp : o.path ≠ some q) : y = x := by
  cases o <;> simp [Op.path] at hp <;> simp_all [Eff]

/-- A call either succeeds, or is passed over, or ends the instance. -/
theorem callOp_cases (c : Cfg) (i : Nat) (s : St) (ok : Bool) (o : Op) (l : List Op) :
    (∃ fs', ok = true ∧ exec c i s.fs o = some fs' ∧ callOp c i s ok o l = ⟨fs', move s.pr i (rest (s.pr i) l)⟩) ∨
    ((ok = false ∨ exec c i s.fs o = none) ∧ soft o = true ∧ callOp c i s ok o l = ⟨s.fs, move s.pr i (rest (s.pr i) l)⟩) ∨
    (soft o = false ∧ callOp c i s ok o l = ⟨s.fs, move s.pr i .gone⟩) := by
  unfold callOp
  cases ok with
  | false =>
    simp only [Bool.false_eq_true, if_false]
    cases h : soft o
    · right; right; simp
    · right; left; simp
  | true =>
    simp only [if_true]
    cases he : exec c i s.fs o with
    | some fs' => left; exact ⟨fs', by trivial, by trivial, by trivial⟩
    | none =>
      cases h : soft o
      · right; right; simp
      · right; left; simp

theorem callOp_pr_ne {c i s ok o l j} (h : j ≠ i) : (callOp c i s ok o l).pr j = s.pr j := by
  rcases callOp_cases c i s ok o l with ⟨_, _, _, e⟩ | ⟨_, _, e⟩ | ⟨_, e⟩ <;> rw [e] <;> simp [move_ne, h]

/-- What a call does to a path, if the instance goes on. -/
theorem callOp_eff {c i s ok o l} (q : Bytes) :
    (Eff c i q (s.fs q) ((callOp c i s ok o l).fs q) o ∧ (callOp c i s ok o l).pr i = rest (s.pr i) l) ∨
    ((callOp c i s ok o l).fs = s.fs ∧ (callOp c i s ok o l).pr i = .gone) := by
  rcases callOp_cases c i s ok o l with ⟨fs', _, h, e⟩ | ⟨_, h, e⟩ | ⟨_, e⟩ <;> rw [e]
  · exact .inl ⟨eff_exec o q h, move_self _ _ _⟩
  · left; refine ⟨?_, by simp [move_self]⟩
    cases o <;> simp [soft] at h
    exact .inl rfl
  · exact .inr ⟨rfl, by simp [move_self]⟩

theorem callOp_fs_other {c i s ok o l q} (hp : o.path ≠ some q) : (callOp c i s ok o l).fs q = s.fs q := by
  rcases callOp_eff (c := c) (i := i) (s := s) (ok := ok) (o := o) (l := l) q with ⟨h, _⟩ | ⟨h, _⟩
  · exact eff_other h hp
  · rw [h]

/-- An instance made its file as asked for. -/
def Made (c : Cfg) (i : Nat) (y : Option Node) : Prop :=
  ∃ n, y = some n ∧ n.inst = i ∧ n.listening = true ∧ Settled c n

theorem owned_kl (u g : Option Nat) (n : Node) : (owned u g n).inst = n.inst ∧ (owned u g n).k = n.k ∧
    (owned u g n).mode = n.mode ∧ (owned u g n).listening = n.listening := ⟨rfl, rfl, rfl, rfl⟩

theorem effs_bind {c i q k x z} (h : Effs c i q x [.unlink q, .sys, .bind k q] z) :
    z = some ⟨i, k, c.euid, c.egid, 0o777 - c.umask, false⟩ := by
  obtain ⟨a, _, b, _, d, hd, rfl⟩ := h
  simp only [Eff, if_true] at hd
  exact hd.2

theorem effs_chown {c i q n z} {p : Bool} {u g : Option Nat} (h : Effs c i q (some n) (if p then [.chown q u g] else []) z) :
    z = some (if p then owned u g n else n) := by
  cases p with
  | false => exact h
  | true =>
    obtain ⟨a, ha, rfl⟩ := h
    simp only [Eff, if_true] at ha
    obtain ⟨m, hm, rfl⟩ := ha
    simp at hm; subst hm; rfl

theorem effs_chmod {c i q n z} {p : Bool} {m : Nat} (h : Effs c i q (some n) (if p then [.chmod q m] else []) z) :
    z = some (if p then { n with mode := m } else n) := by
  cases p with
  | false => exact h
  | true =>
    obtain ⟨a, ha, rfl⟩ := h
    simp only [Eff, if_true] at ha
    obtain ⟨m, hm, rfl⟩ := ha
    simp at hm; subst hm; rfl

theorem effs_listen {c i q k n z} (hi : n.inst = i) (hk : n.k = k) (h : Effs c i q (some n) [.listen k q, .sys] z) :
    z = some { n with listening := true } := by
  obtain ⟨a, ha, b, hb, rfl⟩ := h
  simp only [Eff, if_true] at ha hb
  subst hb
  rcases ha with ⟨m, hm, _, rfl⟩ | ⟨_, h⟩
  · simp at hm; subst hm; rfl
  · exact absurd ⟨hi, hk⟩ (h n rfl)

theorem ifsun_made {c i q k name x y} (h : Effs c i q x (ifsunOps c k q name) y) : name.length < 108 ∧ Made c i y := by
  unfold ifsunOps at h
  split at h
  · obtain ⟨_, h, _⟩ := h; exact absurd h (by simp [Eff])
  · rename_i hl
    refine ⟨by omega, ?_⟩
    obtain ⟨z3, h, h4⟩ := Effs.append.mp h
    obtain ⟨z2, h, h3⟩ := Effs.append.mp h
    obtain ⟨z1, h1, h2⟩ := Effs.append.mp h
    have e1 := effs_bind h1; subst e1
    have e2 := effs_chown h2; subst e2
    have e3 := effs_chmod h3; subst e3
    have e4 := effs_listen (by split <;> split <;> rfl) (by split <;> split <;> rfl) h4
    refine ⟨_, e4, by show Node.inst _ = i; split <;> split <;> rfl, rfl, ?_⟩
    unfold Settled wantUid wantGid wantMode
    cases hu : c.uname <;> cases hg : c.gname <;> by_cases hm : c.sockMode = 0 <;> simp [hm, owned]

theorem ifsun_other {c i q k q' name x y} (hq : q' ≠ q) (h : Effs c i q x (ifsunOps c k q' name) y) :
    name.length < 108 ∧ y = x := by
  unfold ifsunOps at h
  split at h
  · simp [Effs, Eff] at h
  · rename_i hl
    refine ⟨by omega, ?_⟩
    cases hu : c.uname <;> cases hg : c.gname <;> by_cases hm : c.sockMode = 0 <;>
      simp [Effs, Eff, hu, hg, hm, hq] at h <;> exact h

theorem sock_made {c i q k s x y} (h : Effs c i q x (sockOps c k s) y) :
    (Local s → s.name.length < 108) ∧ (Local s ∧ Means c.cwd s.name q → Made c i y) ∧
    (¬ (Local s ∧ Means c.cwd s.name q) → y = x) := by
  unfold sockOps at h
  split at h
  · rename_i hu
    by_cases hq : full c.cwd s.name = q
    · rw [hq] at h
      have := ifsun_made h
      exact ⟨fun _ => this.1, fun _ => this.2, fun hn => absurd ⟨isUnix_iff.mp hu, full_iff.mp hq⟩ hn⟩
    · have := ifsun_other hq h
      exact ⟨fun _ => this.1, fun hn => absurd (full_iff.mpr hn.2) hq, fun _ => this.2⟩
  · rename_i hu
    have hl : ¬ Local s := fun hl => hu (isUnix_iff.mpr hl)
    refine ⟨fun a => absurd a hl, fun a => absurd a.1 hl, fun _ => ?_⟩
    split at h
    · split at h
      · split at h <;> simp [Effs, Eff] at h <;> exact h
      · simp [Effs, Eff] at h
    · simp [Effs, Eff] at h; exact h

theorem init_made {c i q} : ∀ {l k x y}, Effs c i q x (initOps c k l) y →
    (∀ s ∈ l, Local s → s.name.length < 108) ∧
    (Made c i x ∨ (∃ s ∈ l, Local s ∧ Means c.cwd s.name q) → Made c i y)
  | [], k, x, y, h => by
    simp only [initOps, Effs] at h; subst h
    exact ⟨by simp, by simp⟩
  | s :: l, k, x, y, h => by
    simp only [initOps] at h
    obtain ⟨z, h1, h2⟩ := Effs.append.mp h
    obtain ⟨a, b, d⟩ := sock_made h1
    obtain ⟨e, f⟩ := init_made h2
    refine ⟨?_, ?_⟩
    · intro s' hs'; rcases List.mem_cons.mp hs' with rfl | hs'
      · exact a
      · exact e s' hs'
    · intro hx
      apply f
      by_cases hs : Local s ∧ Means c.cwd s.name q
      · exact .inl (b hs)
      · rw [d hs]
        rcases hx with hx | ⟨s', hs', hu⟩
        · exact .inl hx
        · rcases List.mem_cons.mp hs' with rfl | hs'
          · exact absurd hu hs
          · exact .inr ⟨s', hs', hu⟩

theorem run_append {cf} : ∀ {es es' s}, run cf s (es ++ es') = (run cf s es).bind fun s' => run cf s' es'
  | [], es', s => rfl
  | e :: es, es', s => by
    simp only [List.cons_append, run]
    cases step cf s e with
    | none => rfl
    | some s' => exact run_append

theorem alone_cons {cf s s' e es i q} (h : step cf s e = some s') (ha : Alone cf s (e :: es) i q) :
    Alone cf s' es i q := by
  intro a m
  exact ha a (by simp only [acts, h]; exact List.mem_append_right _ m)

theorem alone_call {cf s s' j ok es i q o l} (h : step cf s (.call j ok) = some s') (ha : Alone cf s (.call j ok :: es) i q)
    (ht : todo (s.pr j) = some (o :: l)) (hj : j ≠ i) : o.path ≠ some q :=
  ha (j, o) (by simp only [acts, h]; apply List.mem_append_left; simp [ht]) hj

/-- The calls of an instance are those of its programme, in order. -/
def Along (cf : Nat → Cfg) (i : Nat) (q : Bytes) (x : Option Node) (s : St) : Prop :=
  match s.pr i with
  | .setup t => ∃ d, initOps (cf i) 0 (cf i).names = d ++ t ∧ Effs (cf i) i q x d (s.fs q)
  | .up => Effs (cf i) i q x (initOps (cf i) 0 (cf i).names) (s.fs q)
  | .idle => False
  | _ => True

theorem along_step {cf i q x s s' e es} (h : step cf s e = some s') (ha : Alone cf s (e :: es) i q)
    (hI : Along cf i q x s) : Along cf i q x s' := by
  cases e with
  | start j =>
    simp only [step] at h
    split at h
    · rename_i hp; simp at h; subst h
      have hij : i ≠ j := by rintro rfl; simp [Along, hp] at hI
      simpa [Along, move_ne _ _ hij] using hI
    · simp at h
  | ready j =>
    simp only [step] at h
    split at h
    · rename_i hp; simp at h; subst h
      by_cases hij : i = j
      · subst hij; simp only [Along, hp] at hI; obtain ⟨d, h1, h2⟩ := hI
        simp only [Along, move_self]; rw [h1]; simpa using h2
      · simpa [Along, move_ne _ _ hij] using hI
    · simp at h
  | quit j =>
    simp only [step] at h
    split at h
    · simp at h; subst h
      by_cases hij : i = j
      · subst hij; simp [Along, move_self]
      · simpa [Along, move_ne _ _ hij] using hI
    · simp at h
  | done j =>
    simp only [step] at h
    split at h
    · simp at h; subst h
      by_cases hij : i = j
      · subst hij; simp [Along, move_self]
      · simpa [Along, move_ne _ _ hij] using hI
    · simp at h
  | kill j =>
    simp only [step] at h
    split at h
    · simp at h; subst h
      by_cases hij : i = j
      · subst hij; simp [Along, move_self]
      · simpa [Along, move_ne _ _ hij] using hI
    · simp at h
  | call j ok =>
    have h0 := h
    simp only [step] at h
    split at h
    · rename_i o l ht
      simp at h; subst h
      by_cases hij : j = i
      · subst hij
        rcases callOp_eff (c := cf j) (i := j) (s := s) (ok := ok) (o := o) (l := l) q with ⟨he, hp⟩ | ⟨_, hp⟩
        · cases hs : s.pr j with
          | setup t =>
            simp only [hs, todo, Option.some.injEq] at ht; subst ht
            simp only [Along, hs] at hI; obtain ⟨d, h1, h2⟩ := hI
            simp only [hs, rest] at hp
            simp only [Along, hp]
            refine ⟨d ++ [o], by simp [h1], Effs.append.mpr ⟨_, h2, ?_⟩⟩
            exact ⟨_, he, rfl⟩
          | down t => simp only [hs, rest] at hp; simp [Along, hp]
          | up => simp [hs, todo] at ht
          | idle => simp [hs, todo] at ht
          | gone => simp [hs, todo] at ht
        · simp [Along, hp]
      · have hp := alone_call h0 ha ht hij
        unfold Along at hI ⊢
        rw [callOp_pr_ne (Ne.symm hij), callOp_fs_other hp]; exact hI
    · simp at h

theorem along_run {cf i q x} : ∀ {es s s'}, run cf s es = some s' → Alone cf s es i q → Along cf i q x s →
    Along cf i q x s'
  | [], s, s', h, _, hI => by simp [run] at h; subst h; exact hI
  | e :: es, s, s', h, ha, hI => by
    simp only [run] at h
    split at h
    · simp at h
    · rename_i s1 hs
      exact along_run h (alone_cons hs ha) (along_step hs ha hI)

/-! ## Cleaning up -/

theorem clean_mem {c : Cfg} {q : Bytes} {s : Csock} : ∀ {l : List Csock}, s ∈ l → Local s →
    full (if c.chdir then [] else c.cwd) s.name = q → Op.unlink q ∈ cleanOps c l
  | [], h, _, _ => by simp at h
  | a :: l, h, hl, hq => by
    simp only [cleanOps]
    rcases List.mem_cons.mp h with rfl | h
    · rw [if_pos (isUnix_iff.mpr hl), hq]; exact List.mem_cons_self
    · split
      · exact List.mem_cons_of_mem _ (clean_mem h hl hq)
      · exact clean_mem h hl hq

theorem clean_soft {c : Cfg} : ∀ {l : List Csock} {o}, o ∈ cleanOps c l → soft o = true
  | [], o, h => by simp [cleanOps] at h
  | a :: l, o, h => by
    simp only [cleanOps] at h
    split at h
    · rcases List.mem_cons.mp h with rfl | h
      · rfl
      · exact clean_soft h
    · exact clean_soft h

def Leaving (i : Nat) (q : Bytes) (s : St) : Prop :=
  match s.pr i with
  | .down t => (∀ o ∈ t, soft o = true) ∧ (Op.unlink q ∈ t ∨ s.fs q = none)
  | .gone => s.fs q = none
  | _ => False

theorem leaving_step {cf i q s s' e es} (h : step cf s e = some s') (ha : Alone cf s (e :: es) i q)
    (hk : e ≠ .kill i) (hc : e ≠ .call i false) (hI : Leaving i q s) : Leaving i q s' := by
  cases e with
  | start j =>
    simp only [step] at h
    split at h
    · rename_i hp; simp at h; subst h
      have hij : i ≠ j := by rintro rfl; simp [Leaving, hp] at hI
      simpa [Leaving, move_ne _ _ hij] using hI
    · simp at h
  | ready j =>
    simp only [step] at h
    split at h
    · rename_i hp; simp at h; subst h
      have hij : i ≠ j := by rintro rfl; simp [Leaving, hp] at hI
      simpa [Leaving, move_ne _ _ hij] using hI
    · simp at h
  | quit j =>
    simp only [step] at h
    split at h
    · rename_i hp; simp at h; subst h
      have hij : i ≠ j := by rintro rfl; simp [Leaving, hp] at hI
      simpa [Leaving, move_ne _ _ hij] using hI
    · simp at h
  | done j =>
    simp only [step] at h
    split at h
    · rename_i hp; simp at h; subst h
      by_cases hij : i = j
      · subst hij; simp [Leaving, hp] at hI; simp [Leaving, move_self, hI]
      · simpa [Leaving, move_ne _ _ hij] using hI
    · simp at h
  | kill j =>
    simp only [step] at h
    split at h
    · simp at h; subst h
      have hij : i ≠ j := by rintro rfl; exact hk rfl
      simpa [Leaving, move_ne _ _ hij] using hI
    · simp at h
  | call j ok =>
    have h0 := h
    simp only [step] at h
    split at h
    · rename_i o l ht
      simp at h; subst h
      by_cases hij : j = i
      · subst hij
        have hok : ok = true := by cases ok <;> simp_all
        subst hok
        cases hs : s.pr j with
        | down t =>
          simp only [hs, todo, Option.some.injEq] at ht; subst ht
          simp only [Leaving, hs] at hI
          obtain ⟨hsoft, hq⟩ := hI
          have so := hsoft o List.mem_cons_self
          cases o <;> simp [soft] at so
          rename_i p
          rcases callOp_cases (cf j) j s true (.unlink p) l with ⟨fs', _, he, e⟩ | ⟨he, _, e⟩ | ⟨he, e⟩
          · rw [e]; simp only [Leaving, move_self, hs, rest]
            refine ⟨fun o ho => hsoft o (List.mem_cons_of_mem _ ho), ?_⟩
            have := eff_exec _ q he
            simp only [Eff] at this
            rcases this with hy | ⟨hp, hy⟩
            · rcases hq with hq | hq
              · rcases List.mem_cons.mp hq with hq | hq
                · injection hq with hq; subst hq
                  right; simp only [exec] at he; split at he
                  · simp at he
                  · simp at he; subst he; simp [put]
                · exact .inl hq
              · right; rw [hy]; exact hq
            · exact .inr hy
          · rw [e]; simp only [Leaving, move_self, hs, rest]
            refine ⟨fun o ho => hsoft o (List.mem_cons_of_mem _ ho), ?_⟩
            simp at he
            rcases hq with hq | hq
            · rcases List.mem_cons.mp hq with hq | hq
              · injection hq with hq; subst hq
                right; simp only [exec] at he; split at he
                · assumption
                · simp at he
              · exact .inl hq
            · exact .inr hq
          · simp [soft] at he
        | setup t => simp [Leaving, hs] at hI
        | up => simp [hs, todo] at ht
        | idle => simp [hs, todo] at ht
        | gone => simp [hs, todo] at ht
      · have hp := alone_call h0 ha ht hij
        unfold Leaving at hI ⊢
        rw [callOp_pr_ne (Ne.symm hij), callOp_fs_other hp]; exact hI
    · simp at h

theorem leaving_run {cf i q} : ∀ {es s s'}, run cf s es = some s' → Alone cf s es i q →
    Ev.kill i ∉ es → Ev.call i false ∉ es → Leaving i q s → Leaving i q s'
  | [], s, s', h, _, _, _, hI => by simp [run] at h; subst h; exact hI
  | e :: es, s, s', h, ha, hk, hc, hI => by
    simp only [run] at h
    split at h
    · simp at h
    · rename_i s1 hs
      simp only [List.mem_cons, not_or] at hk hc
      exact leaving_run h (alone_cons hs ha) hk.2 hc.2 (leaving_step hs ha (Ne.symm hk.1) (Ne.symm hc.1) hI)

end Verif.Ctl
