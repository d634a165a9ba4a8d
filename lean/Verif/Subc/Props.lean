import Verif.Subc.Spec
import Verif.Str.NumProps
import Mathlib.Data.List.Induction

/-! # C76: subcommands of `U`, `L` and `Q` -/

namespace Verif.Subc

/-! ## The order of subcommands -/

/-- The leg that the next subcommand addresses. -/
def legAfter (leg : Bool) : List Sub → Bool
  | [] => leg
  | .look _ :: xs => legAfter (!leg) xs
  | _ :: xs => legAfter leg xs

theorem sub1_leg {s s' : Sess} {inn inn' : Bool} {x : Sub} (h : sub1 s inn x = (s', inn', 0)) (xs : List Sub) :
    legAfter inn (x :: xs) = legAfter inn' xs := by
  cases x with
  | set y ok okC =>
    simp only [sub1] at h
    rcases hx : setH s inn y ok okC with ⟨s1, b⟩
    rw [hx] at h
    cases b <;> simp only [Prod.mk.injEq] at h
    · exact absurd h.2.2 (by decide)
    · rw [← h.2.1]; rfl
  | look l =>
    simp only [sub1] at h
    rcases hx : look s inn l with ⟨s1, b⟩
    rw [hx] at h
    cases b <;> simp only [Prod.mk.injEq] at h
    · exact absurd h.2.2 (by decide)
    · rw [← h.2.1]; rfl
  | other r => simp only [sub1, Prod.mk.injEq] at h; rw [← h.2.1]; rfl

/-- Subcommands after others that all succeeded. -/
theorem subs_append : ∀ (xs ys : List Sub) (s : Sess) (inn : Bool), (∀ r ∈ (subs s inn xs).2, r = 0) →
    subs s inn (xs ++ ys) = ((subs (subs s inn xs).1 (legAfter inn xs) ys).1,
      (subs s inn xs).2 ++ (subs (subs s inn xs).1 (legAfter inn xs) ys).2)
  | [], ys, s, inn, _ => rfl
  | x :: xs, ys, s, inn, h => by
    rcases hx : sub1 s inn x with ⟨s1, inn1, r⟩
    by_cases hr : r = 0
    · subst hr
      have hsx : subs s inn (x :: xs) = ((subs s1 inn1 xs).1, 0 :: (subs s1 inn1 xs).2) := by
        simp only [subs, hx, ne_eq, not_true_eq_false, if_false]
      rw [hsx] at h ⊢
      have ih := subs_append xs ys s1 inn1 (fun r hr => h r (List.mem_cons_of_mem _ hr))
      rw [sub1_leg hx xs]
      simp only [List.cons_append, subs, hx, ne_eq, not_true_eq_false, if_false, ih]
    · exfalso
      have hsx : subs s inn (x :: xs) = (s1, [r]) := by simp only [subs, hx, ne_eq, hr, not_false_eq_true, if_true]
      rw [hsx] at h
      exact hr (h r (by simp))

/-- **C76.**  The results in a reply are zero but for the last one, and what comes after a result that is not zero has had
no effect. -/
theorem C76_stop (s : Sess) (inn : Bool) (xs : List Sub) :
    (∀ k, k + 1 < (subs s inn xs).2.length → (subs s inn xs).2[k]? = some 0) ∧
    (subs s inn xs).2.length ≤ xs.length ∧
    ((subs s inn xs).2.length < xs.length → ∃ r, r ≠ 0 ∧ (subs s inn xs).2.getLast? = some r) ∧
    subs s inn (xs.take (subs s inn xs).2.length) = subs s inn xs := by
  induction xs generalizing s inn with
  | nil => exact ⟨by intro k hk; simp [subs] at hk, Nat.le_refl _, by intro h; simp [subs] at h, rfl⟩
  | cons x xs ih =>
    rcases hx : sub1 s inn x with ⟨s1, inn1, r⟩
    by_cases hr : r = 0
    · subst hr
      have hsx : ∀ xs, subs s inn (x :: xs) = ((subs s1 inn1 xs).1, 0 :: (subs s1 inn1 xs).2) := by
        intro xs; simp only [subs, hx, ne_eq, not_true_eq_false, if_false]
      obtain ⟨h1, h2, h3, h4⟩ := ih s1 inn1
      rw [hsx]
      simp only [List.length_cons]
      refine ⟨?_, by omega, ?_, ?_⟩
      · intro k hk
        cases k with
        | zero => rfl
        | succ k => exact h1 k (by omega)
      · intro h
        obtain ⟨r, hr, h5⟩ := h3 (by omega)
        refine ⟨r, hr, ?_⟩
        rw [List.getLast?_cons, h5]; rfl
      · rw [List.take_succ_cons, hsx, h4]
    · have hsx : ∀ xs, subs s inn (x :: xs) = (s1, [r]) := by
        intro xs; simp only [subs, hx, ne_eq, hr, not_false_eq_true, if_true]
      rw [hsx]
      refine ⟨by intro k hk; simp at hk, by simp, fun _ => ⟨r, hr, rfl⟩, ?_⟩
      simp only [List.length_singleton, List.take_succ_cons, hsx]

/-- **C76.**  A look-up given as a subcommand does what it does as a command of its own: the session ends up as if the
command had ended before `L` and `L` had been sent next, with the subcommands after it. -/
theorem C76_split (s : Sess) (sidx : Bool) (l l' : Look) (xs ys : List Sub) (rs : List Int)
    (h : (cmd s (.ul sidx l xs)).2 = some rs) (hz : ∀ r ∈ rs, r = 0) (hn : ∀ x ∈ xs, ∀ l, x ≠ .look l) :
    (cmd s (.ul sidx l (xs ++ .look l' :: ys))).1 = (cmd (cmd s (.ul sidx l xs)).1 (.ul (!sidx) l' ys)).1 ∧
    (cmd s (.ul sidx l (xs ++ .look l' :: ys))).2 =
      some (rs ++ match (cmd (cmd s (.ul sidx l xs)).1 (.ul (!sidx) l' ys)).2 with
        | some rs' => 0 :: rs'
        | none => [-1]) := by
  have hl : ∀ (xs : List Sub) (leg : Bool), (∀ x ∈ xs, ∀ l, x ≠ .look l) → legAfter leg xs = leg := by
    intro xs
    induction xs with
    | nil => intro leg _; rfl
    | cons x xs ih =>
      intro leg h
      have := ih leg (fun x hx => h x (List.mem_cons_of_mem _ hx))
      cases x with
      | look l => exact absurd rfl (h (.look l) (by simp) l)
      | set y a b => exact this
      | other r => exact this
  simp only [cmd] at h ⊢
  rcases hx : look s sidx l with ⟨s1, b⟩
  rw [hx] at h
  cases b with
  | false => simp at h
  | true =>
    simp only [Option.some.injEq] at h ⊢
    subst h
    rw [subs_append xs _ s1 (!sidx) hz, hl xs _ hn]
    simp only [subs, sub1]
    obtain ⟨s2, b, hy⟩ : ∃ s2 b, look (subs s1 (!sidx) xs).1 (!sidx) l' = (s2, b) := ⟨_, _, rfl⟩
    simp only [hy]
    cases b <;> simp

/-! ## The timers -/

theorem last_append (p : Param) (both leg : Bool) (dflt : Int) (h h' : List Done) :
    last p both leg dflt (h ++ h') = last p both leg (last p both leg dflt h) h' := by
  simp only [last, List.foldl_append]

theorem completed_append (h h' : List Done) : completed (h ++ h') = (completed h || completed h') := by
  simp only [completed, List.any_append]

theorem last_both (p : Param) (l l' : Bool) (dflt : Int) (h : List Done) : last p true l dflt h = last p true l' dflt h := by
  simp only [last, true_or, and_true]

theorem cell_shared {s : Sess} (h : s.shared = true) (d : Bool) : cell s d = false := by simp [cell, h]
theorem cell_own {s : Sess} (h : s.shared = false) (d : Bool) : cell s d = d := by simp [cell, h]

/-- The timers and the sockets agree with what was done. -/
structure TInv (c : Conf) (h : List Done) (s : Sess) : Prop where
  sh : s.shared = c.shared
  str : ∀ d, s.streamTtl d = last .ttl c.shared d c.max h
  lim : ∀ d, s.maxTtl (cell s d) = last .ttl c.shared d (if completed h then c.max else c.setup) h
  comp : s.complete = completed h
  s0 : s.sock false ≠ none
  s1 : s.sock true ≠ none → completed h = true

theorem TInv.congr {c : Conf} {h : List Done} {s s' : Sess} (hi : TInv c h s) (e1 : s'.shared = s.shared)
    (e2 : s'.streamTtl = s.streamTtl) (e3 : s'.maxTtl = s.maxTtl) (e4 : s'.complete = s.complete)
    (e5 : ∀ d, s'.sock d = none ↔ s.sock d = none) : TInv c h s' := by
  refine ⟨e1.trans hi.sh, fun d => by rw [e2]; exact hi.str d, fun d => ?_, e4.trans hi.comp, fun x => hi.s0 ((e5 _).1 x),
    fun x => hi.s1 fun y => x ((e5 _).2 y)⟩
  rw [← hi.lim d, e3]
  simp only [cell, e1]

theorem look_ttl {c : Conf} {h : List Done} {s : Sess} (hi : TInv c h s) (leg : Bool) (l : Look) :
    TInv c (if (look s leg l).2 then h ++ [.look leg l.newPort] else h) (look s leg l).1 := by
  have hres : ∀ {h : List Done} {s : Sess}, TInv c h s → TInv c h (reset (reset s false) true) := fun hi =>
    hi.congr rfl rfl rfl rfl (fun _ => Iff.rfl)
  unfold look
  by_cases hc : s.sock leg = none ∨ l.newPort = true
  · rw [if_pos hc]
    have hi0 : TInv c h (relocate s leg l) := by
      unfold relocate
      cases l.fam with
      | none => exact hi
      | some f => exact hi.congr rfl rfl rfl rfl (fun _ => Iff.rfl)
    generalize relocate s leg l = s1 at hi0
    have hi1 := hi0
    by_cases hl : l.listenOk = false
    · rw [if_pos hl]; exact hi1
    · rw [if_neg hl]
      simp only [if_true]
      refine hres ?_
      have hcomp : completed (h ++ [.look leg l.newPort]) = true := by
        rw [completed_append]
        by_cases hn : l.newPort = true
        · simp [completed, hn]
        · have hsk : s.sock leg = none := by rcases hc with h1 | h1; exacts [h1, absurd h1 hn]
          have : leg = true := by
            cases leg with
            | false => exact absurd hsk hi.s0
            | true => rfl
          simp [completed, this]
      have hlast : ∀ p b d x, last p b d x (h ++ [.look leg l.newPort]) = last p b d x h := by
        intro p b d x; rw [last_append]; rfl
      unfold listen
      cases hcm : s1.complete with
      | true =>
        simp only [if_true]
        refine ⟨hi1.sh, fun d => by rw [hlast]; exact hi1.str d, fun d => ?_, hcomp.symm, ?_, fun _ => hcomp⟩
        · rw [hlast, hcomp]
          have := hi1.lim d
          rw [← hi1.comp, hcm] at this
          exact this
        · simp only [upd]
          by_cases hd : false = leg
          · simp [hd]
          · rw [if_neg hd]; exact hi1.s0
      | false =>
        simp only [Bool.false_eq_true, if_false]
        refine ⟨hi1.sh, fun d => by rw [hlast]; exact hi1.str d, fun d => ?_, hcomp.symm, ?_, fun _ => hcomp⟩
        · rw [hlast, hcomp]
          simp only [if_true]
          rw [← hi1.str d]
          have hst : ∀ d, s1.streamTtl d = last .ttl c.shared d c.max h := hi1.str
          cases hsh : s1.shared with
          | true =>
            have hcs : c.shared = true := hi1.sh.symm.trans hsh
            have e : s1.streamTtl true = s1.streamTtl d := by rw [hst, hst, hcs]; exact last_both _ _ _ _ _
            simp only [resetWith, cell, if_true, upd]
            exact e
          | false =>
            cases d <;> simp [resetWith, cell, upd]
        · simp only [resetWith, upd]
          by_cases hd : false = leg
          · simp [hd]
          · rw [if_neg hd]; exact hi1.s0
  · rw [if_neg hc]
    simp only [if_true]
    refine hres ?_
    have hnp : l.newPort = false := by
      cases h1 : l.newPort with
      | false => rfl
      | true => exact absurd (.inr h1) hc
    have hsk : s.sock leg ≠ none := fun h1 => hc (.inl h1)
    have hcomp : completed (h ++ [.look leg l.newPort]) = completed h := by
      rw [completed_append]
      cases leg with
      | false => simp [completed, hnp]
      | true => rw [hi.s1 hsk]; rfl
    have hlast : ∀ p b d x, last p b d x (h ++ [.look leg l.newPort]) = last p b d x h := by
      intro p b d x; rw [last_append]; rfl
    exact ⟨hi.sh, fun d => by rw [hlast]; exact hi.str d, fun d => by rw [hlast, hcomp]; exact hi.lim d,
      by rw [hcomp]; exact hi.comp, hi.s0, fun x => by rw [hcomp]; exact hi.s1 x⟩

theorem setTos_same (s : Sess) (d : Bool) (v : Int) (ok : Bool) :
    (setTos s d v ok).1.shared = s.shared ∧ (setTos s d v ok).1.streamTtl = s.streamTtl ∧
    (setTos s d v ok).1.maxTtl = s.maxTtl ∧ (setTos s d v ok).1.complete = s.complete ∧
    (∀ e, (setTos s d v ok).1.sock e = none ↔ s.sock e = none) := by
  unfold setTos
  by_cases h1 : s.v4 d = false
  · rw [if_pos h1]; exact ⟨rfl, rfl, rfl, rfl, fun _ => Iff.rfl⟩
  · rw [if_neg h1]
    cases h2 : s.sock d with
    | none => exact ⟨rfl, rfl, rfl, rfl, fun _ => Iff.rfl⟩
    | some t =>
      simp only
      by_cases h3 : ok = false
      · rw [if_pos h3]; exact ⟨rfl, rfl, rfl, rfl, fun _ => Iff.rfl⟩
      · rw [if_neg h3]
        refine ⟨rfl, rfl, rfl, rfl, fun e => ?_⟩
        simp only [upd]
        by_cases h4 : e = d
        · subst h4; simp [h2]
        · rw [if_neg h4]

theorem setTosC_same (s : Sess) (d : Bool) (v : Int) (ok : Bool) :
    (setTosC s d v ok).1.shared = s.shared ∧ (setTosC s d v ok).1.streamTtl = s.streamTtl ∧
    (setTosC s d v ok).1.maxTtl = s.maxTtl ∧ (setTosC s d v ok).1.complete = s.complete ∧
    (∀ e, (setTosC s d v ok).1.sock e = none ↔ s.sock e = none) := by
  unfold setTosC
  by_cases h1 : s.v4 d = false
  · rw [if_pos h1]; exact ⟨rfl, rfl, rfl, rfl, fun _ => Iff.rfl⟩
  · rw [if_neg h1]
    cases h2 : s.sockC d with
    | none => exact ⟨rfl, rfl, rfl, rfl, fun _ => Iff.rfl⟩
    | some t =>
      simp only
      by_cases h3 : ok = false
      · rw [if_pos h3]; exact ⟨rfl, rfl, rfl, rfl, fun _ => Iff.rfl⟩
      · rw [if_neg h3]; exact ⟨rfl, rfl, rfl, rfl, fun _ => Iff.rfl⟩

theorem leg_eq (inn rev : Bool) : (if rev = true then !inn else inn) = (inn ^^ rev) := by cases inn <;> cases rev <;> rfl

theorem last_set (p q : Param) (both leg l : Bool) (v x : Int) (h : List Done) :
    last p both leg x (h ++ [.set l q v]) = if q = p ∧ (both = true ∨ l = leg) then v else last p both leg x h := by
  rw [last_append]; rfl

theorem set_ttl {c : Conf} {h : List Done} {s : Sess} (hi : TInv c h s) (inn : Bool) (x : Set_) (ok okC : Bool) :
    TInv c (if (setH s inn x ok okC).2 then h ++ [.set (inn ^^ x.rev) x.param x.val] else h) (setH s inn x ok okC).1 := by
  unfold setH
  rw [leg_eq]
  generalize hd : (inn ^^ x.rev) = d
  have hcomp : completed (h ++ [.set d x.param x.val]) = completed h := by rw [completed_append]; simp [completed]
  cases hp : x.param with
  | ttl =>
    simp only [if_true]
    rw [hp] at hcomp
    cases hsh : s.shared with
    | true =>
      have hcs : c.shared = true := hi.sh.symm.trans hsh
      simp only [if_true]
      refine ⟨hcs.symm, fun e => ?_, fun e => ?_, (by rw [hcomp]; exact hi.comp), hi.s0, fun y => by rw [hcomp]; exact hi.s1 y⟩
      · rw [last_set, hcs, if_pos ⟨rfl, .inl rfl⟩]
        simp only [resetWith, upd]
        by_cases h1 : e = !d
        · rw [if_pos h1]
        · rw [if_neg h1, if_pos (by cases e <;> cases d <;> simp_all)]
      · rw [last_set, hcs, if_pos ⟨rfl, .inl rfl⟩]
        simp [resetWith, upd, cell]
    | false =>
      have hcs : c.shared = false := hi.sh.symm.trans hsh
      simp only [Bool.false_eq_true, if_false]
      refine ⟨hcs.symm, fun e => ?_, fun e => ?_, (by rw [hcomp]; exact hi.comp), hi.s0, fun y => by rw [hcomp]; exact hi.s1 y⟩
      · rw [last_set, hcs]
        simp only [resetWith, upd]
        by_cases h1 : e = d
        · rw [if_pos h1, if_pos (by simp [h1])]
        · rw [if_neg h1, if_neg (by simp [Ne.symm h1]), hi.str e, hcs]
      · rw [last_set, hcs, hcomp]
        simp only [resetWith, upd, cell, Bool.false_eq_true, if_false]
        by_cases h1 : e = d
        · rw [if_pos h1, if_pos (by simp [h1])]
        · rw [if_neg h1, if_neg (by simp [Ne.symm h1])]
          have := hi.lim e
          rw [hcs, cell_own hsh] at this
          exact this
  | tos =>
    simp only
    rw [hp] at hcomp
    have hlast : ∀ b d' y, last .ttl b d' y (h ++ [.set d .tos x.val]) = last .ttl b d' y h := by
      intro b d' y; rw [last_set, if_neg (by rintro ⟨h1, -⟩; cases h1)]
    obtain ⟨e1, e2, e3, e4, e5⟩ := setTos_same s d x.val ok
    obtain ⟨s1, b, ht⟩ : ∃ s1 b, setTos s d x.val ok = (s1, b) := ⟨_, _, rfl⟩
    rw [ht] at e1 e2 e3 e4 e5
    simp only [ht]
    have hi1 : TInv c h s1 := hi.congr e1 e2 e3 e4 e5
    cases b with
    | false => exact hi1
    | true =>
      simp only
      obtain ⟨f1, f2, f3, f4, f5⟩ := setTosC_same s1 d x.val okC
      have hi2 := hi1.congr f1 f2 f3 f4 f5
      split
      · exact ⟨hi2.sh, fun d => by rw [hlast]; exact hi2.str d, fun d => by rw [hlast, hcomp]; exact hi2.lim d,
          by rw [hcomp]; exact hi2.comp, hi2.s0, fun y => by rw [hcomp]; exact hi2.s1 y⟩
      · exact hi2

/-- What every look-up and every `S` keeps true, all commands do. -/
structure Kept (L : Look → Prop) (S : Set_ → Bool → Bool → Prop) (P : List Done → Sess → Prop) : Prop where
  look : ∀ (h : List Done) (s : Sess) (leg : Bool) (l : Look), L l → P h s →
    P (if (look s leg l).2 then h ++ [.look leg l.newPort] else h) (Subc.look s leg l).1
  set : ∀ (h : List Done) (s : Sess) (inn : Bool) (x : Set_) (ok okC : Bool), S x ok okC → P h s →
    P (if (setH s inn x ok okC).2 then h ++ [.set (inn ^^ x.rev) x.param x.val] else h) (setH s inn x ok okC).1

def Sub.ok (L : Look → Prop) (S : Set_ → Bool → Bool → Prop) : Sub → Prop
  | .set x ok okC => S x ok okC
  | .look l => L l
  | .other _ => True

def Ev.ok (L : Look → Prop) (S : Set_ → Bool → Bool → Prop) : Ev → Prop
  | .cmd (.ul _ l xs) => L l ∧ ∀ x ∈ xs, x.ok L S
  | .cmd (.q _ xs) => ∀ x ∈ xs, x.ok L S
  | _ => True

section
variable {L : Look → Prop} {S : Set_ → Bool → Bool → Prop} {P : List Done → Sess → Prop}

theorem subs_kept (hk : Kept L S P) : ∀ (xs : List Sub) {h : List Done} {s : Sess} (inn : Bool), (∀ x ∈ xs, x.ok L S) → P h s →
    P (h ++ did inn xs (subs s inn xs).2) (subs s inn xs).1
  | [], h, s, inn, _, hi => by simpa [subs, did] using hi
  | x :: xs, h, s, inn, ho, hi => by
    have ho' : ∀ x ∈ xs, x.ok L S := fun y hy => ho y (List.mem_cons_of_mem _ hy)
    have hx := ho x (by simp)
    cases x with
    | other r =>
      by_cases hr : r = 0
      · subst hr
        have := subs_kept hk xs inn ho' hi
        simpa [subs, sub1, did] using this
      · simp only [subs, sub1, ne_eq, hr, not_false_eq_true, if_true, did, if_false, List.append_nil]
        exact hi
    | set y ok okC =>
      have h1 := hk.set h s inn y ok okC hx hi
      obtain ⟨s1, b, hy⟩ : ∃ s1 b, setH s inn y ok okC = (s1, b) := ⟨_, _, rfl⟩
      rw [hy] at h1
      cases b with
      | true =>
        simp only [if_true] at h1
        have := subs_kept hk xs inn ho' h1
        simpa [subs, sub1, did, hy] using this
      | false =>
        simp only [Bool.false_eq_true, if_false] at h1
        simpa [subs, sub1, did, hy] using h1
    | look l =>
      have h1 := hk.look h s inn l hx hi
      obtain ⟨s1, b, hy⟩ : ∃ s1 b, look s inn l = (s1, b) := ⟨_, _, rfl⟩
      rw [hy] at h1
      cases b with
      | true =>
        simp only [if_true] at h1
        have := subs_kept hk xs (!inn) ho' h1
        simpa [subs, sub1, did, hy] using this
      | false =>
        simp only [Bool.false_eq_true, if_false] at h1
        simpa [subs, sub1, did, hy] using h1

theorem cmd_kept (hk : Kept L S P) {h : List Done} {s : Sess} (k : Cmd) (ho : (Ev.cmd k).ok L S) (hi : P h s) :
    P (h ++ k.did (cmd s k).2) (cmd s k).1 := by
  cases k with
  | q idx xs => exact subs_kept hk xs idx ho hi
  | ul sidx l xs =>
    have h1 := hk.look h s sidx l ho.1 hi
    simp only [cmd]
    obtain ⟨s1, b, hy⟩ : ∃ s1 b, look s sidx l = (s1, b) := ⟨_, _, rfl⟩
    rw [hy] at h1
    simp only [hy]
    cases b with
    | true =>
      simp only [if_true] at h1
      have := subs_kept hk xs (!sidx) ho.2 h1
      simpa [Cmd.did] using this
    | false => simpa [Cmd.did] using h1

theorem step_kept (hk : Kept L S P) (ht : ∀ (h : List Done) (s : Sess) (f : Bool → Int), P h s → P h { s with ttl := f }) {h : List Done} {st st' : St} {e : Ev} (ho : e.ok L S) (hi : P h st.s)
    (hs : step st e = some st') : P (h ++ e.did st) st'.s := by
  cases e with
  | cmd k => simp only [step, Option.some.injEq] at hs; subst hs; exact cmd_kept hk k ho hi
  | load d => simp only [step, Option.some.injEq] at hs; subst hs; simpa [Ev.did] using hi
  | tick =>
    simp only [step, Option.some.injEq] at hs; subst hs
    simp only [Ev.did, List.append_nil, decr]
    split <;> exact ht _ _ _ hi
  | store k =>
    simp only [step] at hs
    cases hp : st.pk[k]? with
    | none => rw [hp] at hs; cases hs
    | some x =>
      rw [hp] at hs
      simp only [Option.some.injEq] at hs
      subst hs
      simp only [Ev.did, List.append_nil]
      exact ht _ _ _ hi

theorem run_kept (hk : Kept L S P) (ht : ∀ (h : List Done) (s : Sess) (f : Bool → Int), P h s → P h { s with ttl := f }) : ∀ (es : List Ev) {h : List Done} {st st' : St}, (∀ e ∈ es, e.ok L S) → P h st.s →
    run st es = some st' → P (h ++ done st es) st'.s
  | [], h, st, st', _, hi, hr => by
    simp only [run, Option.some.injEq] at hr; subst hr; simpa [done] using hi
  | e :: es, h, st, st', ho, hi, hr => by
    simp only [run] at hr
    cases hs : step st e with
    | none => rw [hs] at hr; cases hr
    | some s1 =>
      rw [hs] at hr
      have := run_kept hk ht es (fun y hy => ho y (List.mem_cons_of_mem _ hy)) (step_kept hk ht (ho e (by simp)) hi hs) hr
      simp only [done, hs]
      rw [← List.append_assoc]
      exact this

theorem all_kept (hk : Kept L S P) (ht : ∀ (h : List Done) (s : Sess) (f : Bool → Int), P h s → P h { s with ttl := f }) {c : Conf} {v4a v4b tosOk : Bool} (h0 : P [] (create c v4a v4b tosOk)) {xs : List Sub}
    {es : List Ev} {st : St} (hx : ∀ x ∈ xs, x.ok L S) (he : ∀ e ∈ es, e.ok L S)
    (hr : run (start c v4a v4b tosOk xs) es = some st) : P (history c v4a v4b tosOk xs es) st.s := by
  have h1 : P (did true xs (subs (create c v4a v4b tosOk) true xs).2) (start c v4a v4b tosOk xs).s := by
    simpa [start] using subs_kept hk xs true hx h0
  exact run_kept hk ht es he h1 hr

end

theorem create_ttl (c : Conf) (v4a v4b tosOk : Bool) : TInv c [] (create c v4a v4b tosOk) :=
  ⟨rfl, fun _ => rfl, fun _ => rfl, rfl, by simp [create], by simp [create]⟩

theorem kept_ttl (c : Conf) : Kept (fun _ => True) (fun _ _ _ => True) (TInv c) :=
  ⟨fun _ _ leg l _ hi => look_ttl hi leg l, fun _ _ inn x ok okC _ hi => set_ttl hi inn x ok okC⟩

theorem ok_trivial (e : Ev) : e.ok (fun _ => True) (fun _ _ _ => True) := by
  have : ∀ x : Sub, x.ok (fun _ => True) (fun _ _ _ => True) := by intro x; cases x <;> trivial
  cases e with
  | cmd k => cases k <;> simp [Ev.ok, this]
  | _ => trivial

/-- **C76.**  The time a leg may be silent is what the last successful `S ttl=` said that addressed it (or, with a shared
timer, either leg); without one it is the configured time, for sessions being set up or complete ones.  A session is
complete once its second leg was looked up or a new port asked for. -/
theorem C76_ttl (c : Conf) (v4a v4b tosOk : Bool) (xs : List Sub) (es : List Ev) (st : St)
    (hr : run (start c v4a v4b tosOk xs) es = some st) (leg : Bool) :
    st.s.maxTtl (cell st.s leg) =
      last .ttl c.shared leg (if completed (history c v4a v4b tosOk xs es) then c.max else c.setup) (history c v4a v4b tosOk xs es) := by
  exact (all_kept (kept_ttl c) (fun _ _ _ hi => hi.congr rfl rfl rfl rfl (fun _ => Iff.rfl)) (create_ttl c v4a v4b tosOk) (fun x _ => by cases x <;> trivial) (fun e _ => ok_trivial e) hr).lim leg

/-! ## Types of service -/

/-- The sockets are set as the streams are, and these as was asked for. -/
structure OInv (c : Conf) (h : List Done) (s : Sess) : Prop where
  v4 : ∀ d, s.v4 d = true
  tos : ∀ d, s.tos d = last .tos false d c.tos h
  tosC : ∀ d, s.tosC d = s.tos d
  nn : ∀ d, 0 ≤ s.tos d
  sock : ∀ d t, s.sock d = some t → t = s.tos d
  sockC : ∀ d t, s.sockC d = some t → t = s.tos d

theorem OInv.congr {c : Conf} {h h' : List Done} {s s' : Sess} (hi : OInv c h s)
    (e0 : ∀ d, last .tos false d c.tos h' = last .tos false d c.tos h) (e1 : s'.v4 = s.v4)
    (e2 : s'.tos = s.tos) (e3 : s'.tosC = s.tosC) (e4 : s'.sock = s.sock) (e5 : s'.sockC = s.sockC) : OInv c h' s' :=
  ⟨fun d => by rw [e1]; exact hi.v4 d, fun d => by rw [e2, e0]; exact hi.tos d, fun d => by rw [e2, e3]; exact hi.tosC d,
    fun d => by rw [e2]; exact hi.nn d, fun d => by rw [e2, e4]; exact hi.sock d, fun d => by rw [e2, e5]; exact hi.sockC d⟩

theorem look_tos {c : Conf} {h : List Done} {s : Sess} (hi : OInv c h s) (leg : Bool) (l : Look) (hl : l.fine) :
    OInv c (if (look s leg l).2 then h ++ [.look leg l.newPort] else h) (look s leg l).1 := by
  have hlast : ∀ d, last .tos false d c.tos (h ++ [.look leg l.newPort]) = last .tos false d c.tos h := by
    intro d; rw [last_append]; rfl
  unfold look
  by_cases hc : s.sock leg = none ∨ l.newPort = true
  · rw [if_pos hc]
    have hi0 : OInv c h (relocate s leg l) := by
      unfold relocate
      cases hf : l.fam with
      | none => exact hi
      | some f =>
        have hft : f = true := by
          cases f with
          | true => rfl
          | false => exact absurd hf hl.2
        subst hft
        refine ⟨fun d => ?_, hi.tos, hi.tosC, hi.nn, hi.sock, hi.sockC⟩
        simp only [upd]
        split
        · rfl
        · exact hi.v4 d
    generalize relocate s leg l = s1 at hi0
    by_cases hok : l.listenOk = false
    · rw [if_pos hok]; exact hi0
    · rw [if_neg hok]
      simp only [if_true]
      have hn : newSock (s1.v4 leg) l.tosOk (s1.tos leg) = s1.tos leg := by
        unfold newSock; rw [if_pos ⟨hi0.v4 leg, hi0.nn leg, hl.1⟩]
      have hi1 : OInv c h { s1 with sock := upd s1.sock leg (some (s1.tos leg)), sockC := upd s1.sockC leg (some (s1.tos leg)) } := by
        refine ⟨hi0.v4, hi0.tos, hi0.tosC, hi0.nn, fun d t ht => ?_, fun d t ht => ?_⟩
        · simp only [upd] at ht
          by_cases hd : d = leg
          · subst hd; simp only [if_true, Option.some.injEq] at ht; exact ht.symm
          · rw [if_neg hd] at ht; exact hi0.sock d t ht
        · simp only [upd] at ht
          by_cases hd : d = leg
          · subst hd; simp only [if_true, Option.some.injEq] at ht; exact ht.symm
          · rw [if_neg hd] at ht; exact hi0.sockC d t ht
      unfold listen
      rw [hn]
      cases s1.complete <;> exact hi1.congr hlast rfl rfl rfl rfl rfl
  · rw [if_neg hc]
    exact hi.congr hlast rfl rfl rfl rfl rfl

theorem set_tos {c : Conf} {h : List Done} {s : Sess} (hi : OInv c h s) (inn : Bool) (x : Set_) (hv : 0 < x.val) :
    OInv c (if (setH s inn x true true).2 then h ++ [.set (inn ^^ x.rev) x.param x.val] else h) (setH s inn x true true).1 := by
  unfold setH
  rw [leg_eq]
  generalize hd : (inn ^^ x.rev) = d
  cases hp : x.param with
  | ttl =>
    have hlast : ∀ d', last .tos false d' c.tos (h ++ [.set d .ttl x.val]) = last .tos false d' c.tos h := by
      intro d'; rw [last_set, if_neg (by rintro ⟨h1, -⟩; cases h1)]
    simp only [if_true]
    cases s.shared <;> exact hi.congr hlast rfl rfl rfl rfl rfl
  | tos =>
    have ht : setTos s d x.val true = ({ s with sock := upd s.sock d ((s.sock d).map fun _ => x.val), tos := upd s.tos d x.val }, true) := by
      unfold setTos
      rw [if_neg (by rw [hi.v4 d]; decide)]
      cases hk : s.sock d with
      | none =>
        have : upd s.sock d none = s.sock := by
          funext e; simp only [upd]; by_cases he : e = d
          · rw [if_pos he, he, hk]
          · rw [if_neg he]
        simp only [Option.map_none, this]
      | some t => rfl
    have htC : ∀ s : Sess, s.v4 d = true → setTosC s d x.val true =
        ({ s with sockC := upd s.sockC d ((s.sockC d).map fun _ => x.val), tosC := upd s.tosC d x.val }, true) := by
      intro s hv4
      unfold setTosC
      rw [if_neg (by rw [hv4]; decide)]
      cases hk : s.sockC d with
      | none =>
        have : upd s.sockC d none = s.sockC := by
          funext e; simp only [upd]; by_cases he : e = d
          · rw [if_pos he, he, hk]
          · rw [if_neg he]
        simp only [Option.map_none, this]
      | some t => rfl
    simp only [ht]
    rw [htC _ (by exact hi.v4 d)]
    simp only [if_true]
    refine ⟨hi.v4, fun e => ?_, fun e => ?_, fun e => ?_, fun e t h1 => ?_, fun e t h1 => ?_⟩
    · rw [last_set]
      simp only [upd]
      by_cases he : e = d
      · rw [if_pos he, if_pos (by simp [he])]
      · rw [if_neg he, if_neg (by simp [Ne.symm he])]; exact hi.tos e
    · simp only [upd]
      by_cases he : e = d
      · simp only [if_pos he]
      · simp only [if_neg he]; exact hi.tosC e
    · simp only [upd]
      by_cases he : e = d
      · simp only [if_pos he]; omega
      · simp only [if_neg he]; exact hi.nn e
    · simp only [upd] at h1 ⊢
      by_cases he : e = d
      · simp only [if_pos he, Option.map_eq_some_iff] at h1 ⊢
        obtain ⟨_, _, h2⟩ := h1; exact h2.symm
      · simp only [if_neg he] at h1 ⊢; exact hi.sock e t h1
    · simp only [upd] at h1 ⊢
      by_cases he : e = d
      · simp only [if_pos he, Option.map_eq_some_iff] at h1 ⊢
        obtain ⟨_, _, h2⟩ := h1; exact h2.symm
      · simp only [if_neg he] at h1 ⊢; exact hi.sockC e t h1

theorem kept_tos (c : Conf) : Kept Look.fine (fun x ok okC => ok = true ∧ okC = true ∧ 0 < x.val) (OInv c) :=
  ⟨fun _ _ leg l hl hi => look_tos hi leg l hl,
    fun _ _ inn x ok okC hs hi => by obtain ⟨rfl, rfl, hv⟩ := hs; exact set_tos hi inn x hv⟩

theorem Sub.fine_ok {x : Sub} (h : x.fine) : x.ok Look.fine (fun x ok okC => ok = true ∧ okC = true ∧ 0 < x.val) := by
  cases x <;> exact h

theorem Ev.fine_ok {e : Ev} (h : e.fine) : e.ok Look.fine (fun x ok okC => ok = true ∧ okC = true ∧ 0 < x.val) := by
  cases e with
  | cmd k => cases k with
    | ul sidx l xs => exact ⟨h.1, fun x hx => Sub.fine_ok (h.2 x hx)⟩
    | q idx xs => exact fun x hx => Sub.fine_ok (h x hx)
  | _ => trivial

theorem create_tos (c : Conf) (hc : 0 ≤ c.tos) : OInv c [] (create c true true true) := by
  refine ⟨fun d => by cases d <;> rfl, fun _ => rfl, fun _ => rfl, fun _ => hc, fun d t h => ?_, fun d t h => ?_⟩
  all_goals
    cases d
    · simp only [create, newSock, Bool.false_eq_true, if_false, Option.some.injEq] at h
      rw [if_pos (by simp [hc])] at h
      exact h.symm
    · simp [create] at h

/-- **C76, partial.**  Every socket of a leg, for media and for control packets, sends with the type of service that the
last successful `S tos=` for that leg asked for, or the configured one.  Missing: addresses of the new family, for which
`S tos=` fails, and systems that refuse to set it. -/
theorem C76_tos_partial (c : Conf) (xs : List Sub) (es : List Ev) (st : St) (hc : 0 ≤ c.tos)
    (hx : ∀ x ∈ xs, x.fine) (he : ∀ e ∈ es, e.fine)
    (hr : run (start c true true true xs) es = some st) (leg : Bool) (t : Int)
    (ht : st.s.sock leg = some t ∨ st.s.sockC leg = some t) :
    t = last .tos false leg c.tos (history c true true true xs es) := by
  have hi := all_kept (kept_tos c) (fun _ _ _ hi => hi.congr (fun _ => rfl) rfl rfl rfl rfl rfl) (create_tos c hc)
    (fun x h => Sub.fine_ok (hx x h)) (fun e h => Ev.fine_ok (he e h)) hr
  rw [← hi.tos leg]
  rcases ht with h | h
  · exact hi.sock leg t h
  · exact hi.sockC leg t h

/-! ## No timer exceeds its limit -/

def Low (s : Sess) : Prop := ∀ d, s.ttl (cell s d) ≤ s.maxTtl (cell s d)

theorem low_reset {s : Sess} (h : Low s) (d : Bool) : Low (reset s d) := by
  intro e
  have he := h e
  show (if cell s e = cell s d then s.maxTtl (cell s d) else s.ttl (cell s e)) ≤ s.maxTtl (cell s e)
  by_cases h1 : cell s e = cell s d
  · rw [if_pos h1, h1]; exact Int.le_refl _
  · rw [if_neg h1]; exact he

theorem low_resetWith {s : Sess} (h : Low s) (d : Bool) (v : Int) : Low (resetWith s d v) := by
  intro e
  have he := h e
  show (if cell s e = cell s d then v else s.ttl (cell s e)) ≤ (if cell s e = cell s d then v else s.maxTtl (cell s e))
  by_cases h1 : cell s e = cell s d
  · rw [if_pos h1, if_pos h1]; exact Int.le_refl _
  · rw [if_neg h1, if_neg h1]; exact he

theorem Low.congr {s s' : Sess} (h : Low s) (e1 : s'.shared = s.shared) (e2 : s'.ttl = s.ttl) (e3 : s'.maxTtl = s.maxTtl) : Low s' := by
  intro d; have := h d; simp only [cell] at this ⊢; rw [e1, e2, e3]; exact this

theorem kept_low : Kept (fun _ => True) (fun _ _ _ => True) (fun _ s => Low s) := by
  constructor
  · intro _ s leg l _ h
    unfold look
    split
    · have h0 : Low (relocate s leg l) := by
        unfold relocate; cases l.fam <;> exact h.congr rfl rfl rfl
      split
      · exact h0
      · refine low_reset (low_reset ?_ _) _
        generalize relocate s leg l = s1 at h0
        unfold listen
        cases s1.complete
        · exact (low_resetWith (low_resetWith (h0.congr (s' := { s1 with sock := _, sockC := _ }) rfl rfl rfl) false
            (s1.streamTtl false)) true (s1.streamTtl true)).congr rfl rfl rfl
        · exact h0.congr rfl rfl rfl
    · exact low_reset (low_reset h _) _
  · intro _ s inn x ok okC _ h
    unfold setH
    generalize (if x.rev = true then !inn else inn) = d
    cases x.param with
    | ttl =>
      refine low_resetWith ?_ _ _
      simp only
      split <;> exact h.congr rfl rfl rfl
    | tos =>
      obtain ⟨e1, -, e3, -⟩ := setTos_same s d x.val ok
      have e2 : (setTos s d x.val ok).1.ttl = s.ttl := by
        unfold setTos
        split
        · rfl
        · cases s.sock d with
          | none => rfl
          | some t => simp only; split <;> rfl
      obtain ⟨s1, b, ht⟩ : ∃ s1 b, setTos s d x.val ok = (s1, b) := ⟨_, _, rfl⟩
      rw [ht] at e1 e2 e3
      simp only [ht]
      have h1 : Low s1 := h.congr e1 e2 e3
      cases b with
      | false => exact h1
      | true =>
        obtain ⟨f1, -, f3, -⟩ := setTosC_same s1 d x.val okC
        refine h1.congr f1 ?_ f3
        simp only [setTosC]
        split
        · rfl
        · cases s1.sockC d with
          | none => rfl
          | some t => simp only; split <;> rfl

/-- No timer exceeds its limit, and what packets are about to store are current limits. -/
def BInv (st : St) : Prop := Low st.s ∧ ∀ p ∈ st.pk, p.2 = st.s.maxTtl p.1 ∧ ∃ d, p.1 = cell st.s d

theorem step_low {st st' : St} {e : Ev} (hi : BInv st) (hc : ∀ c, e = .cmd c → st.pk = []) (hs : step st e = some st') : BInv st' := by
  cases e with
  | cmd k =>
    simp only [step, Option.some.injEq] at hs; subst hs
    refine ⟨cmd_kept (h := []) kept_low k (ok_trivial _) hi.1, ?_⟩
    rw [hc k rfl]; simp
  | load d =>
    simp only [step, Option.some.injEq] at hs; subst hs
    refine ⟨hi.1, fun p hp => ?_⟩
    rcases List.mem_append.1 hp with h | h
    · exact hi.2 p h
    · rw [List.mem_singleton.1 h]; exact ⟨rfl, d, rfl⟩
  | tick =>
    simp only [step, Option.some.injEq] at hs; subst hs
    obtain ⟨h1, h2⟩ := hi
    refine ⟨fun d => ?_, fun p hp => ?_⟩
    · have := h1 d
      simp only [decr]
      cases hsh : st.s.shared with
      | true => simp only [cell, hsh, if_true, upd] at this ⊢; omega
      | false => simp only [cell, hsh, Bool.false_eq_true, if_false] at this ⊢; omega
    · obtain ⟨h3, d, h4⟩ := h2 p hp
      simp only [decr]
      cases hsh : st.s.shared with
      | true => simp only [if_true]; exact ⟨h3, d, by rw [h4]; simp [cell, hsh]⟩
      | false => simp only [Bool.false_eq_true, if_false]; exact ⟨h3, d, by rw [h4]; simp [cell, hsh]⟩
  | store k =>
    simp only [step] at hs
    cases hp : st.pk[k]? with
    | none => rw [hp] at hs; cases hs
    | some x =>
      rw [hp] at hs
      obtain ⟨c, v⟩ := x
      simp only [Option.some.injEq] at hs
      subst hs
      obtain ⟨h3, -⟩ := hi.2 (c, v) (List.mem_of_getElem? hp)
      simp only at h3
      refine ⟨fun d => ?_, fun p hq => hi.2 p (List.mem_of_mem_eraseIdx hq)⟩
      have := hi.1 d
      show (if cell st.s d = c then v else st.s.ttl (cell st.s d)) ≤ st.s.maxTtl (cell st.s d)
      by_cases hd : cell st.s d = c
      · rw [if_pos hd, hd, h3]; exact Int.le_refl _
      · rw [if_neg hd]; exact this

/-- **C76, partial.**  As long as no command comes between the two halves of a packet's restart of a timer, a silent leg
is never given more time than its limit says (`C76_ttl`).  Without that it may be (`C76_stale_counterexample`). -/
theorem C76_bound_partial (c : Conf) (v4a v4b tosOk : Bool) (xs : List Sub) (es : List Ev) (st : St)
    (hcalm : calm (start c v4a v4b tosOk xs) es) (hr : run (start c v4a v4b tosOk xs) es = some st) (leg : Bool) :
    st.s.ttl (cell st.s leg) ≤
      last .ttl c.shared leg (if completed (history c v4a v4b tosOk xs es) then c.max else c.setup) (history c v4a v4b tosOk xs es) := by
  have key : ∀ (es : List Ev) (s0 : St), BInv s0 → calm s0 es → run s0 es = some st → BInv st := by
    intro es
    induction es with
    | nil => intro s0 hi _ hr; simp only [run, Option.some.injEq] at hr; subst hr; exact hi
    | cons e es ih =>
      intro s0 hi hc hr
      simp only [run] at hr
      simp only [calm] at hc
      cases hs : step s0 e with
      | none => rw [hs] at hr; cases hr
      | some s1 =>
        rw [hs] at hr hc
        exact ih s1 (step_low hi hc.1 hs) hc.2 hr
  have h0 : BInv (start c v4a v4b tosOk xs) := by
    refine ⟨subs_kept (h := []) kept_low xs true (fun x _ => by cases x <;> trivial) ?_, by simp [start]⟩
    intro d; exact Int.le_refl _
  rw [← C76_ttl c v4a v4b tosOk xs es st hr leg]
  exact (key es _ h0 hcalm hr).1 leg

/-! ## Which `S` subcommands are accepted -/

/-- **C76, partial.**  `S` is accepted with `ttl=` or `tos=` and a positive number in the range of C's `int`, and it means
that number; the letter after `S` makes it address the other leg.  Numbers out of that range are not refused
(`C76_number_counterexample`). -/
theorem C76_parse_partial :
    (∀ (v0 num : List UInt8) (p : Param) (v : Int), (v0.length = 1 ∨ v0.length = 2) → Str.CStr num → Str.Numeral num v →
      0 < v → v ≤ 2147483647 →
      parseS [v0, key p ++ num] = some ⟨decide (v0[1]? = some 114 ∨ v0[1]? = some 82), p, v⟩) ∧
    (∀ (args : List (List UInt8)) (x : Set_), (∀ a ∈ args, Str.CStr a) → parseS args = some x →
      ∃ v0 num v, args = [v0, key x.param ++ num] ∧ (v0.length = 1 ∨ v0.length = 2) ∧ Str.Numeral num v ∧ 0 < x.val ∧
        x.val ≤ 2147483647 ∧ (x.rev = true ↔ v0[1]? = some 114 ∨ v0[1]? = some 82) ∧
        (-2147483648 ≤ v → v ≤ 2147483647 → x.val = v)) := by
  have hne : ∀ num v, Str.Numeral num v → num ≠ [] := by
    intro num v h
    have := Str.strtol_numeral (rest := []) h (by intro c hc; simp at hc)
    exact this.2.2
  constructor
  · intro v0 num p v hv0 hc hn h1 h2
    have ha := ((Str.C17_atoi_partial num hc).2.1 v hn (by omega) h2).1
    have hl : 1 ≤ num.length := by
      cases num with
      | nil => exact absurd rfl (hne _ _ hn)
      | cons a l => simp
    have hm : (v0.drop 1).head? = v0[1]? := by rw [List.head?_drop]
    simp only [parseS]
    rw [if_neg (by omega)]
    unfold parseSet
    simp only [hm]
    cases p with
    | ttl =>
      have e1 : (key .ttl ++ num).take 4 = [116, 116, 108, 61] := by simp [key]
      have e2 : (key .ttl ++ num).drop 4 = num := by simp [key]
      rw [if_neg (by simp [key]; omega), if_pos e1, e2, ha]
      simp only
      rw [if_neg (by omega)]
    | tos =>
      have e1 : (key .tos ++ num).take 4 = [116, 111, 115, 61] := by simp [key]
      have e2 : (key .tos ++ num).drop 4 = num := by simp [key]
      rw [if_neg (by simp [key]; omega), if_neg (by rw [e1]; decide), if_pos e1, e2, ha]
      simp only
      rw [if_neg (by omega)]
  · intro args x hc h
    match args, hc, h with
    | [v0, v1], hc, h =>
      simp only [parseS] at h
      by_cases hv0 : v0.length < 1 ∨ v0.length > 2
      · rw [if_pos hv0] at h; cases h
      · rw [if_neg hv0] at h
        unfold parseSet at h
        simp only at h
        by_cases h5 : v1.length < 5
        · rw [if_pos h5] at h; cases h
        · rw [if_neg h5] at h
          have hcd : Str.CStr (v1.drop 4) := fun c h => hc v1 (by simp) c (List.mem_of_mem_drop h)
          have fin : ∀ p, key p = v1.take 4 → (match Str.atoiSafe (v1.drop 4) with
              | .ok n => if n ≤ 0 then none
                else some (⟨decide ((v0.drop 1).head? = some 114 ∨ (v0.drop 1).head? = some 82), p, n⟩ : Set_)
              | _ => none) = some x →
              ∃ v0' num v, [v0, v1] = [v0', key x.param ++ num] ∧ (v0'.length = 1 ∨ v0'.length = 2) ∧ Str.Numeral num v ∧ 0 < x.val ∧
                x.val ≤ 2147483647 ∧ (x.rev = true ↔ v0'[1]? = some 114 ∨ v0'[1]? = some 82) ∧
                (-2147483648 ≤ v → v ≤ 2147483647 → x.val = v) := by
            intro p hp h
            cases ha : Str.atoiSafe (v1.drop 4) with
            | notInt => rw [ha] at h; cases h
            | outRange => rw [ha] at h; cases h
            | ok n =>
              rw [ha] at h
              simp only at h
              by_cases hn : n ≤ 0
              · rw [if_pos hn] at h; cases h
              · rw [if_neg hn, Option.some.injEq] at h
                subst h
                obtain ⟨v, hv, hr⟩ := (Str.atoiSafe_iff hcd n).1 ha
                refine ⟨v0, v1.drop 4, v, ?_, by omega, hv, by simp only; omega, ?_, ?_, ?_⟩
                · simp only; rw [hp, List.take_append_drop]
                · simp only; rw [hr]; unfold Str.toInt; omega
                · simp only [List.head?_drop, decide_eq_true_eq]
                · intro a b
                  have := ((Str.C17_atoi_partial _ hcd).2.1 v hv a b).1
                  rw [this] at ha
                  cases ha; rfl
          by_cases ht : v1.take 4 = [116, 116, 108, 61]
          · rw [if_pos ht] at h; exact fin .ttl ht.symm h
          · rw [if_neg ht] at h
            by_cases ho : v1.take 4 = [116, 111, 115, 61]
            · rw [if_pos ho] at h; exact fin .tos ho.symm h
            · rw [if_neg ho] at h; cases h
    | [], _, h => cases h
    | [_], _, h => cases h
    | _ :: _ :: _ :: _, _, h => cases h

end Verif.Subc
