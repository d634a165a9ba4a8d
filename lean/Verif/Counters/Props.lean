import Verif.Counters.Sessions
import Verif.Util.Tot

/-!
# C44, C58, C59: counters; one reply for each command; nothing left of a session that could not be set up
-/

namespace Verif.Counters
open Verif.Util

/-- The commands that may come with subcommands: `has_subc`, rtpp_command_parse.c:83, 96, 220, checked at 275. -/
def subcAllowed (op : Op) (e : Env) : Prop := op = .update ∨ op = .lookup ∨ op = .query ∨ e.subcOk = []

def isReply : Ev → Bool
  | .reply _ => true
  | _ => false

/-- Number of option objects allocated and not freed after each prefix is 0 or 1: nothing is freed that is not there. -/
def optsOk : Nat → List Ev → Bool
  | n, [] => n = 0
  | n, .alloc :: es => optsOk (n + 1) es
  | 0, .free :: _ => false
  | n + 1, .free :: es => optsOk n es
  | n, _ :: es => optsOk n es

theorem ulImpl0_silent (u : UlEnv) : ∃ r, ulImpl0 false .lookup true u = .ok ([], r) := by
  unfold ulImpl0
  simp only [ulNotifyOff, ulFail]
  split
  · exact ⟨_, rfl⟩
  · simp only [if_true]
    split <;> exact ⟨_, rfl⟩

theorem runSubs_silent : ∀ ss : List Sub, runSubs ss = .ok []
  | [] => rfl
  | .look u f :: ss => by
    obtain ⟨r, hr⟩ := ulImpl0_silent u
    simp only [runSubs, asSubc, hr, runSubs_silent ss]
    by_cases h0 : r = 0 <;> cases f <;> simp [h0, Except.map]
  | .other r :: ss => by
    simp only [runSubs]
    split
    · rfl
    · exact runSubs_silent ss

theorem ulFinish_eq (ss : List Sub) (log : List Ev) : ulFinish ss log = .ok (log ++ [.reply .ok]) := by
  simp [ulFinish, runSubs_silent, Except.map]

/-- What `ulImpl` can come to. -/
theorem ulImpl_cases (op : Op) (found : Bool) (u : UlEnv) (ss : List Sub) :
    ∃ l r, ulImpl op found u ss = .ok (l ++ [.reply r]) ∧ l.countP isReply = 0 ∧ (∀ e ∈ l, e ≠ .alloc ∧ e ≠ .free) := by
  unfold ulImpl
  split
  · exact ⟨[], .err 75, rfl, rfl, by simp⟩
  · cases found
    · simp only [Bool.false_eq_true, if_false, ulCreate, handleNomem, ulFail, if_true]
      cases u.slow
      · cases u.overload
        · cases u.ctorOk
          · exact ⟨[], .err 72, rfl, rfl, by simp⟩
          · cases u.htOk
            · exact ⟨[.sessNew, .decref], .err 85, rfl, rfl, by simp⟩
            · cases u.wrtOk
              · exact ⟨[.sessNew, .htAdd, .htDel, .decref], .err 88, rfl, rfl, by simp⟩
              · cases (u.lpp && !u.regOk)
                · exact ⟨[.sessNew, .htAdd, .wrtAdd, .attach], .ok, by simp [ulFinish_eq], rfl, by simp⟩
                · exact ⟨[.sessNew, .htAdd, .wrtAdd, .decref], .err 89, rfl, rfl, by simp⟩
        · exact ⟨[], .err u.overloadCode, rfl, rfl, by simp⟩
      · exact ⟨[], .err 99, rfl, rfl, by simp⟩
    · simp only [if_true]
      cases ulPort u
      · exact ⟨[], .ok, by simp [ulFinish_eq], rfl, by simp⟩
      · rename_i c
        exact ⟨[], .err c, rfl, rfl, by simp⟩

theorem optsOk_skip (n : Nat) (l l' : List Ev) (h : ∀ e ∈ l, e ≠ .alloc ∧ e ≠ .free) :
    optsOk n (l ++ l') = optsOk n l' := by
  induction l with
  | nil => rfl
  | cons e l ih =>
    have h1 := h e (by simp)
    have h2 := ih fun e he => h e (by simp [he])
    cases e <;> first | (exact absurd rfl h1.1) | (exact absurd rfl h1.2) | (cases n <;> simpa [optsOk] using h2)

/-- Every command that is handled is answered exactly once, whatever the rest of the program does, and the option object
allocated for it is freed exactly once; in particular the `abort()` at rtpp_command.c:704 is never reached. -/
theorem C58_answered_once (op : Op) (e : Env) (hs : subcAllowed op e) :
    ∃ log, handle op e = .ok log ∧ log.countP isReply = 1 ∧ optsOk 0 log = true := by
  have hsub : ∀ (h : ¬ (op = .update ∨ op = .lookup ∨ op = .query)), parseSubs op e = none := by
    intro h
    rcases hs with h1 | h1 | h1 | h1
    · exact absurd (Or.inl h1) h
    · exact absurd (Or.inr (Or.inl h1)) h
    · exact absurd (Or.inr (Or.inr h1)) h
    · simp [parseSubs, h1]
  unfold handle
  obtain ⟨om, oo, oc, so, sb, fo, ul, cp, pl, fu, un⟩ := e
  obtain ⟨p1, p2, p3, p4⟩ := pl
  cases op
  case verFeature => exact ⟨_, rfl, rfl, rfl⟩
  case getVer => exact ⟨_, rfl, rfl, rfl⟩
  case deleteAll => exact ⟨_, rfl, rfl, rfl⟩
  case info =>
    simp only [parseOpts, handleInfo]
    cases oo <;> cases fu <;> exact ⟨_, rfl, rfl, rfl⟩
  case getStats =>
    simp only [parseOpts, handleGetStats]
    cases oo <;> cases fu <;> cases un <;> exact ⟨_, rfl, rfl, rfl⟩
  case play =>
    rw [hsub (by simp)]
    simp only [parseOpts, lookFor, run, playHandle]
    cases om <;> cases oo <;> cases fo <;> cases p1 <;> cases p2 <;>
      cases p3 <;> cases p4 <;> exact ⟨_, rfl, rfl, rfl⟩
  case copy =>
    rw [hsub (by simp)]
    simp only [parseOpts, lookFor, run, handleCopy]
    cases om
    · exact ⟨_, rfl, rfl, rfl⟩
    cases oo
    · exact ⟨_, rfl, rfl, rfl⟩
    cases fo
    · exact ⟨_, rfl, rfl, rfl⟩
    obtain ⟨a1, a2, a3, a4, a5, a6, a7, a8⟩ := cp
    cases a1 <;> cases a2 <;> cases a3 <;> cases a4 <;> cases a5 <;> cases a6 <;> cases a7 <;> cases a8 <;>
      exact ⟨_, rfl, rfl, rfl⟩
  case record =>
    rw [hsub (by simp)]
    simp only [parseOpts, lookFor, run]
    cases om <;> cases oo <;> cases fo <;> exact ⟨_, rfl, rfl, rfl⟩
  case delete =>
    rw [hsub (by simp)]
    simp only [parseOpts, lookFor, run]
    cases om <;> cases oo <;> cases fo <;> exact ⟨_, rfl, rfl, rfl⟩
  case norecord =>
    rw [hsub (by simp)]
    simp only [parseOpts, lookFor, run]
    cases oo <;> cases fo <;> exact ⟨_, rfl, rfl, rfl⟩
  case noplay =>
    rw [hsub (by simp)]
    simp only [parseOpts, lookFor, run]
    cases fo <;> exact ⟨_, rfl, rfl, rfl⟩
  case query =>
    simp only [parseOpts, parseSubs, lookFor, run, handleQuery, runSubs_silent, Op.isUl]
    cases hso : so.all id <;> cases fo <;> cases oo <;> cases un <;> cases fu <;>
      exact ⟨_, rfl, rfl, rfl⟩
  case update =>
    obtain ⟨l, r, h1, h2, h3⟩ := ulImpl_cases .update fo ul sb
    simp only [parseOpts, parseSubs, lookFor, run, h1, Op.isUl]
    cases om
    · exact ⟨_, rfl, rfl, rfl⟩
    cases oo
    · exact ⟨_, rfl, rfl, rfl⟩
    cases hso : so.all id
    · exact ⟨_, rfl, rfl, rfl⟩
    refine ⟨.alloc :: (l ++ [.reply r] ++ [.free]), by simp [Except.map], ?_, ?_⟩
    · simp [List.countP_append, List.countP_cons, h2, isReply]
    · simp only [optsOk, List.append_assoc]
      rw [optsOk_skip _ _ _ h3]; rfl
  case lookup =>
    obtain ⟨l, r, h1, h2, h3⟩ := ulImpl_cases .lookup fo ul sb
    simp only [parseOpts, parseSubs, lookFor, run, h1, Op.isUl]
    cases om
    · exact ⟨_, rfl, rfl, rfl⟩
    cases oo
    · exact ⟨_, rfl, rfl, rfl⟩
    cases hso : so.all id
    · exact ⟨_, rfl, rfl, rfl⟩
    cases fo
    · exact ⟨_, rfl, rfl, rfl⟩
    refine ⟨.alloc :: (l ++ [.reply r] ++ [.free]), by simp [Except.map], ?_, ?_⟩
    · simp [List.countP_append, List.countP_cons, h2, isReply]
    · simp only [optsOk, List.append_assoc]
      rw [optsOk_skip _ _ _ h3]; rfl

/-! ## Counting commands -/

def St.tot (s : St) : Cnt := s.shared.add s.own

theorem apply_tot : ∀ (l : List Ev) (c : Cnt), (c.apply l).rcvd = c.rcvd ∧ (c.apply l).ndups = c.ndups ∧
    (c.apply l).succd + (c.apply l).errs = c.succd + c.errs + l.countP isReply ∧
    (c.apply l).repld = c.repld + l.countP isReply
  | [], c => ⟨rfl, rfl, rfl, rfl⟩
  | .reply r :: l, c => by
    obtain ⟨h1, h2, h3, h4⟩ := apply_tot l (c.deliver r)
    simp only [Cnt.apply, List.countP_cons, isReply]
    rw [h1, h2, h3, h4]
    unfold Cnt.deliver
    split <;> refine ⟨rfl, rfl, ?_, ?_⟩ <;> simp <;> omega
  | .alloc :: l, c => by simpa [Cnt.apply, List.countP_cons, isReply] using apply_tot l c
  | .free :: l, c => by simpa [Cnt.apply, List.countP_cons, isReply] using apply_tot l c
  | .sessNew :: l, c => by simpa [Cnt.apply, List.countP_cons, isReply] using apply_tot l c
  | .htAdd :: l, c => by simpa [Cnt.apply, List.countP_cons, isReply] using apply_tot l c
  | .htDel :: l, c => by simpa [Cnt.apply, List.countP_cons, isReply] using apply_tot l c
  | .wrtAdd :: l, c => by simpa [Cnt.apply, List.countP_cons, isReply] using apply_tot l c
  | .decref :: l, c => by simpa [Cnt.apply, List.countP_cons, isReply] using apply_tot l c
  | .attach :: l, c => by simpa [Cnt.apply, List.countP_cons, isReply] using apply_tot l c

/-- A message with a command in it (as opposed to a retransmission or the end of a round). -/
def In.isMsg : In → Bool
  | .dup => false
  | .idle => false
  | _ => true

def In.isDup : In → Bool
  | .dup => true
  | _ => false

def In.isNoBorrow : In → Bool
  | .noBorrow => true
  | _ => false

def In.isNomemStream : In → Bool
  | .nomemStream _ => true
  | _ => false

def In.isNomem : In → Bool
  | .nomemDgram => true
  | .nomemStream false => true
  | _ => false

/-- Subcommands only where the parser lets them through. -/
def In.ok : In → Prop
  | .cmd op e => subcAllowed op e
  | _ => True

theorem flush_tot (s : St) : s.flush.tot = s.tot := by
  simp [St.flush, St.tot, Cnt.add, Cnt.zero]

/-- What one message does to the counters. -/
theorem step_counts (s : St) (i : In) (h : i.ok) : ∃ s', step s i = .ok s' ∧
    s'.tot.rcvd + (if i.isNomemStream then 1 else 0) = s.tot.rcvd + (if i.isMsg then 1 else 0) ∧
    s'.tot.ndups = s.tot.ndups + (if i.isDup then 1 else 0) ∧
    s'.tot.succd + s'.tot.errs + (if i.isNoBorrow then 1 else 0) = s.tot.succd + s.tot.errs +
      (if i.isMsg then 1 else 0) ∧
    s'.tot.repld + (if i.isNoBorrow then 1 else 0) + (if i.isNomem then 1 else 0) = s.tot.repld +
      (if i.isMsg then 1 else 0) := by
  cases i with
  | nomemDgram =>
    refine ⟨_, rfl, ?_⟩
    simp [St.tot, Cnt.add, In.isMsg, In.isDup, In.isNoBorrow, In.isNomemStream, In.isNomem]
    omega
  | nomemStream w =>
    refine ⟨_, rfl, ?_⟩
    cases w <;> simp [St.tot, Cnt.add, In.isMsg, In.isDup, In.isNoBorrow, In.isNomemStream, In.isNomem] <;> omega
  | dup =>
    refine ⟨_, rfl, ?_⟩
    simp [St.tot, Cnt.add, In.isMsg, In.isDup, In.isNoBorrow, In.isNomemStream, In.isNomem]
    omega
  | noBorrow =>
    refine ⟨_, rfl, ?_⟩
    simp [St.tot, Cnt.add, In.isMsg, In.isDup, In.isNoBorrow, In.isNomemStream, In.isNomem]
    omega
  | refused c =>
    refine ⟨_, rfl, ?_⟩
    simp [St.tot, Cnt.add, In.isMsg, In.isDup, In.isNoBorrow, In.isNomemStream, In.isNomem, Cnt.deliver, Rep.errd]
    omega
  | idle =>
    refine ⟨_, rfl, ?_⟩
    simp [flush_tot, In.isMsg, In.isDup, In.isNoBorrow, In.isNomemStream, In.isNomem]
  | cmd op e =>
    obtain ⟨log, h1, h2, -⟩ := C58_answered_once op e h
    simp only [step, h1]
    refine ⟨_, rfl, ?_⟩
    have key : ∀ t : St, t.tot.rcvd = s.tot.rcvd + 1 ∧ t.tot.ndups = s.tot.ndups ∧ t.tot.succd = s.tot.succd ∧
        t.tot.errs = s.tot.errs ∧ t.tot.repld = s.tot.repld →
        (St.tot { t with own := t.own.apply log }).rcvd = s.tot.rcvd + 1 ∧
        (St.tot { t with own := t.own.apply log }).ndups = s.tot.ndups ∧
        (St.tot { t with own := t.own.apply log }).succd + (St.tot { t with own := t.own.apply log }).errs =
          s.tot.succd + s.tot.errs + 1 ∧
        (St.tot { t with own := t.own.apply log }).repld = s.tot.repld + 1 := by
      intro t ht
      obtain ⟨a1, a2, a3, a4⟩ := apply_tot log t.own
      simp only [St.tot, Cnt.add] at ht ⊢
      rw [a1, a2, a4, h2]
      rw [h2] at a3
      omega
    have hk := key (if op = .getStats ∨ op = .info then
        St.flush { s with own := { s.own with rcvd := s.own.rcvd + 1 } } else
        { s with own := { s.own with rcvd := s.own.rcvd + 1 } }) (by
      split
      · rw [flush_tot]; simp [St.tot, Cnt.add]; omega
      · simp [St.tot, Cnt.add]; omega)
    simp only [In.isMsg, In.isDup, In.isNoBorrow, In.isNomemStream, In.isNomem, if_true, Bool.false_eq_true, if_false]
    omega

/-- The counters after any history of messages: every message with a command is counted once as succeeded or failed,
except where the reply cache could not be borrowed; every one is counted as received, except where a stream command got
no memory; retransmissions are counted apart.  Nothing aborts. -/
theorem C44_commands_partial (is : List In) (h : ∀ i ∈ is, i.ok) : ∃ s, runAll .init is = .ok s ∧
    s.tot.succd + s.tot.errs + is.countP In.isNoBorrow = is.countP In.isMsg ∧
    s.tot.rcvd + is.countP In.isNomemStream = is.countP In.isMsg ∧
    s.tot.ndups = is.countP In.isDup ∧
    s.tot.repld + is.countP In.isNoBorrow + is.countP In.isNomem = is.countP In.isMsg := by
  suffices H : ∀ (is : List In) (s0 : St), (∀ i ∈ is, i.ok) → ∃ s, runAll s0 is = .ok s ∧
      s.tot.succd + s.tot.errs + is.countP In.isNoBorrow = s0.tot.succd + s0.tot.errs + is.countP In.isMsg ∧
      s.tot.rcvd + is.countP In.isNomemStream = s0.tot.rcvd + is.countP In.isMsg ∧
      s.tot.ndups = s0.tot.ndups + is.countP In.isDup ∧
      s.tot.repld + is.countP In.isNoBorrow + is.countP In.isNomem = s0.tot.repld + is.countP In.isMsg by
    obtain ⟨s, h1, h2, h3, h4, h5⟩ := H is .init h
    refine ⟨s, h1, ?_, ?_, ?_, ?_⟩
    all_goals simp only [St.init, St.tot, Cnt.add, Cnt.zero] at *
    all_goals omega
  intro is
  induction is with
  | nil => intro s0 _; exact ⟨s0, rfl, rfl, rfl, rfl, rfl⟩
  | cons i is ih =>
    intro s0 h
    obtain ⟨s1, e1, e2, e3, e4, e5⟩ := step_counts s0 i (h i (by simp))
    obtain ⟨s, f1, f2, f3, f4, f5⟩ := ih s1 fun j hj => h j (by simp [hj])
    refine ⟨s, by simp [runAll, e1, f1], ?_, ?_, ?_, ?_⟩
    all_goals simp only [List.countP_cons]
    all_goals omega

/-- With enough memory: received = succeeded + failed = replied. -/
theorem C44_commands_no_nomem (is : List In) (h : ∀ i ∈ is, i.ok)
    (hm : ∀ i ∈ is, i.isNoBorrow = false ∧ i.isNomem = false ∧ i.isNomemStream = false) :
    ∃ s, runAll .init is = .ok s ∧ s.tot.rcvd = s.tot.succd + s.tot.errs ∧ s.tot.repld = s.tot.rcvd ∧
      s.tot.rcvd = is.countP In.isMsg := by
  obtain ⟨s, h1, h2, h3, -, h5⟩ := C44_commands_partial is h
  have z1 : is.countP In.isNoBorrow = 0 := List.countP_eq_zero.2 fun i hi => by simp [(hm i hi).1]
  have z2 : is.countP In.isNomem = 0 := List.countP_eq_zero.2 fun i hi => by simp [(hm i hi).2.1]
  have z3 : is.countP In.isNomemStream = 0 := List.countP_eq_zero.2 fun i hi => by simp [(hm i hi).2.2]
  exact ⟨s, h1, by omega, by omega, by omega⟩

/-- The counters shown are those of all messages handled before: `G` and `I` move the thread's own counters first. -/
theorem C44_stats_current (s : St) (op : Op) (e : Env) (hop : op = .getStats ∨ op = .info) (log : List Ev)
    (h : handle op e = .ok log) : ∃ s', step s (.cmd op e) = .ok s' ∧
      s'.shared = { s.tot with rcvd := s.tot.rcvd + 1 } := by
  simp only [step, h]
  refine ⟨_, rfl, ?_⟩
  simp [hop, St.flush, St.tot, Cnt.add]
  omega

/-- A message counted as received and neither succeeded nor failed, and never answered. -/
theorem C44_borrow_counterexample : ∃ s, runAll .init [.noBorrow] = .ok s ∧ s.tot.rcvd = 1 ∧
    s.tot.succd + s.tot.errs = 0 ∧ s.tot.repld = 0 := ⟨_, rfl, rfl, rfl, rfl⟩

/-- A message counted as failed and not as received. -/
theorem C44_nomem_counterexample : ∃ s, runAll .init [.nomemStream true] = .ok s ∧ s.tot.rcvd = 0 ∧ s.tot.errs = 1 :=
  ⟨_, rfl, rfl, rfl⟩

/-! ## Sessions created, destroyed, alive -/

theorem tot_app (f : Nat → Nat) : ∀ l l' : List Nat, tot f (l ++ l') = tot f l + tot f l'
  | [], l' => by simp [tot]
  | a :: l, l' => by
    have := tot_app f l l'
    simp only [List.cons_append, tot_cons]; omega

/-- Sessions with at least one reference. -/
def Ss.alive (s : Ss) : Nat := tot (fun n => if n = 0 then 0 else 1) s.refs

theorem ss_step (s : Ss) (e : Sev) (h : s.own + s.created = s.destroyed + s.alive) :
    (s.step e).own + (s.step e).created = (s.step e).destroyed + (s.step e).alive := by
  cases e with
  | new =>
    simp only [Ss.step, Ss.alive] at h ⊢
    have := tot_app (fun n : Nat => if n = 0 then 0 else 1) s.refs [1]
    rw [this]
    have : tot (fun n : Nat => if n = 0 then 0 else 1) [1] = 1 := by decide
    omega
  | flush => simp only [Ss.step, Ss.alive] at h ⊢; omega
  | hold i =>
    simp only [Ss.step]
    split
    · rename_i n hn
      have := tot_set (fun n : Nat => if n = 0 then 0 else 1) s.refs i (n + 1) (n + 2) hn
      simp only [Ss.alive] at h ⊢
      simp at this
      omega
    · exact h
  | drop i =>
    simp only [Ss.step]
    split
    · rename_i n hn
      have := tot_set (fun n : Nat => if n = 0 then 0 else 1) s.refs i (n + 1) n hn
      simp only [Ss.alive] at h ⊢
      simp at this
      split
      · simp_all; omega
      · simp_all
    · exact h

/-- Created = destroyed + alive at any time (counting what the thread has not flushed yet). -/
theorem C44_sessions (es : List Sev) : (Ss.init.run es).own + (Ss.init.run es).created =
    (Ss.init.run es).destroyed + (Ss.init.run es).alive := by
  suffices H : ∀ (es : List Sev) (s : Ss), s.own + s.created = s.destroyed + s.alive →
      (s.run es).own + (s.run es).created = (s.run es).destroyed + (s.run es).alive from H es _ rfl
  intro es
  induction es with
  | nil => intro s h; exact h
  | cons e es ih => intro s h; exact ih _ (ss_step s e h)

/-- What `I` reports is the number of sessions alive. -/
theorem C44_info (es : List Sev) : (Ss.init.run es).info = (Ss.init.run es).alive := by
  have h := C44_sessions es
  simp only [Ss.info, Ss.step]
  omega

/-! ## Packets -/

theorem loop_ran {P : Type} (pkt : P) (relay : Pproc.Proc P → Bool)
    (hr : ∀ p, relay p = true → (p.enqueue pkt).1.take = true → (p.enqueue pkt).1.drop = false) : ∀ (t : List (Pproc.Proc P)) (res : Pproc.Act)
    (loc : Nat) (ran : List (Pproc.Proc P)), res.take = false → res.drop = false →
    ran.countP (fun p => relay p && (p.enqueue pkt).1.take) = 0 →
    let o := Pproc.loop 0 pkt t res loc ran
    o.2.2.countP (fun p => relay p && (p.enqueue pkt).1.take) ≤ 1 ∧
    (o.2.2.countP (fun p => relay p && (p.enqueue pkt).1.take) = 1 → o.1.take = true ∧ o.1.drop = false)
  | [], res, loc, ran, h1, h2, h3 => by simp [Pproc.loop, h3]
  | p :: t, res, loc, ran, h1, h2, h3 => by
    simp only [Pproc.loop, Nat.lt_irrefl, gt_iff_lt, false_and, if_false]
    split
    · exact loop_ran pkt relay hr t res loc ran h1 h2 h3
    · split
      · rename_i hd
        simp only [List.countP_append, h3, List.countP_cons, List.countP_nil, Nat.zero_add]
        refine ⟨by split <;> omega, ?_⟩
        intro hc
        split at hc
        · rename_i hp
          simp only [Bool.and_eq_true] at hp
          simp [Pproc.Act.or, h1, h2, hp.2, hr p hp.1 hp.2]
        · cases hc
      · rename_i hd
        simp only [Bool.or_eq_true, not_or, Bool.not_eq_true] at hd
        refine loop_ran pkt relay hr t _ _ _ hd.1 hd.2 ?_
        simp only [List.countP_append, h3, List.countP_cons, List.countP_nil, Nat.zero_add]
        have : (p.enqueue pkt).1.take = false := by
          have := hd.1
          simp [Pproc.Act.or, h1] at this
          exact this
        simp [this]

theorem loop_take {P : Type} (pkt : P) : ∀ (t : List (Pproc.Proc P)) (res : Pproc.Act) (loc : Nat)
    (ran : List (Pproc.Proc P)), res.take = false → (Pproc.loop 0 pkt t res loc ran).1.take = true →
    ∃ p ∈ (Pproc.loop 0 pkt t res loc ran).2.2, (p.enqueue pkt).1.take = true
  | [], res, loc, ran, h, ht => by simp [Pproc.loop, h] at ht
  | p :: t, res, loc, ran, h, ht => by
    simp only [Pproc.loop, Nat.lt_irrefl, gt_iff_lt, false_and, if_false] at ht ⊢
    split at ht
    · rename_i h1
      rw [if_pos h1]
      exact loop_take pkt t res loc ran h ht
    · rename_i h1
      rw [if_neg h1]
      split at ht
      · rename_i h2
        rw [if_pos h2]
        refine ⟨p, by simp, ?_⟩
        simpa [Pproc.Act.or, h] using ht
      · rename_i h2
        rw [if_neg h2]
        simp only [Bool.or_eq_true, not_or, Bool.not_eq_true] at h2
        exact loop_take pkt t _ _ _ h2.1 ht

/-- A packet received is counted at most once, as relayed, dropped or ignored — whatever processors are in the chain,
so long as the relaying one does not ask for the packet to be dropped after taking it — and it goes uncounted only if a
processor other than the relaying one has taken it. -/
theorem C44_packet {P : Type} (t : List (Pproc.Proc P)) (relay : Pproc.Proc P → Bool) (here : Nat) (auth : Bool)
    (pkt : P) (hr : ∀ p, relay p = true → (p.enqueue pkt).1.take = true → (p.enqueue pkt).1.drop = false) (c : Pk) :
    let c' := rxOne t relay here auth pkt c
    c.relayed ≤ c'.relayed ∧ c.dropped ≤ c'.dropped ∧ c.ignored ≤ c'.ignored ∧
    c'.relayed + c'.dropped + c'.ignored ≤ c.relayed + c.dropped + c.ignored + 1 ∧
    (c'.relayed + c'.dropped + c'.ignored = c.relayed + c.dropped + c.ignored → auth = true ∧
      ∃ p ∈ (Pproc.handleat t here false 0 pkt).ran, relay p = false ∧ (p.enqueue pkt).1.take = true) := by
  unfold rxOne
  cases auth
  · simp; omega
  · have h := loop_ran pkt relay hr t Pproc.Act.nop here [] rfl rfl rfl
    have h' := loop_take pkt t Pproc.Act.nop here [] rfl
    have hcnt : (Pproc.handleat t here false 0 pkt).counted.isSome =
        (!(Pproc.loop 0 pkt t Pproc.Act.nop here []).1.take || (Pproc.loop 0 pkt t Pproc.Act.nop here []).1.drop) := by
      simp only [Pproc.handleat, Bool.not_false, Bool.and_true]
      split <;> simp_all
    have hran : (Pproc.handleat t here false 0 pkt).ran = (Pproc.loop 0 pkt t Pproc.Act.nop here []).2.2 := rfl
    simp only [hran, Bool.not_true, Bool.false_eq_true, if_false] at h ⊢
    by_cases hc : (Pproc.loop 0 pkt t Pproc.Act.nop here []).2.2.countP
        (fun p => relay p && (p.enqueue pkt).1.take) = 1
    · have hf : (Pproc.handleat t here false 0 pkt).counted.isSome = false := by
        rw [hcnt, (h.2 hc).1, (h.2 hc).2]; rfl
      simp [hc, hf]; omega
    · have hz : (Pproc.loop 0 pkt t Pproc.Act.nop here []).2.2.countP
        (fun p => relay p && (p.enqueue pkt).1.take) = 0 := by omega
      rw [hz]
      refine ⟨by omega, by omega, by omega, by split <;> omega, ?_⟩
      intro he
      refine ⟨trivial, ?_⟩
      cases hta : (Pproc.loop 0 pkt t Pproc.Act.nop here []).1.take
      · rw [hta] at hcnt; simp [hcnt] at he
      · obtain ⟨p, hp, hpt⟩ := h' hta
        refine ⟨p, hp, ?_, hpt⟩
        have := List.countP_eq_zero.1 hz p hp
        simpa [hpt] using this

/-- The hypothesis holds of the relaying processor: `relay_packet` answers `PPROC_ACT_TAKE` or `PPROC_ACT_DROP`.  One
packet relayed, one dropped, one ignored, one taken by another processor. -/
def exRelay : Pproc.Proc Nat := ⟨5, 1, none, fun n => (if n = 0 then ⟨false, true, false⟩ else ⟨false, false, true⟩, 7)⟩
def exOther : Pproc.Proc Nat := ⟨3, 2, some (· = 9), fun _ => (⟨false, true, false⟩, 8)⟩
example : ∀ n, ∀ p, (p.key == 1) = true → p ∈ [exOther, exRelay] → (p.enqueue n).1.take = true →
    (p.enqueue n).1.drop = false := by
  intro n p hk hp
  simp only [List.mem_cons, List.not_mem_nil, or_false] at hp
  rcases hp with rfl | rfl
  · simp [exOther] at hk
  · simp only [exRelay]; split <;> simp
example : rxOne [exOther, exRelay] (·.key == 1) 0 true 0 ⟨0, 0, 0⟩ = ⟨1, 0, 0⟩ := by decide
example : rxOne [exOther, exRelay] (·.key == 1) 0 true 1 ⟨0, 0, 0⟩ = ⟨0, 1, 0⟩ := by decide
example : rxOne [exOther, exRelay] (·.key == 1) 0 false 1 ⟨0, 0, 0⟩ = ⟨0, 0, 1⟩ := by decide
example : rxOne [exOther, exRelay] (·.key == 1) 0 true 9 ⟨0, 0, 0⟩ = ⟨0, 0, 0⟩ := by decide

/-! ## Setting up a session -/

/-- The reply among the events. -/
def replyOf : List Ev → Option Rep
  | [] => none
  | .reply r :: _ => some r
  | _ :: es => replyOf es

/-- A U command for a session not there yet, answered without error, leaves one session in both tables, held by these
two only; answered with an error it leaves nothing — unless the packet port could not take the session. -/
theorem C59_update_partial (u : UlEnv) (ss : List Sub) (hu : u.lpp = true → u.regOk = true) :
    ∃ log, ulImpl .update false u ss = .ok log ∧
      ((replyOf log = some .ok ∧ One.run ⟨0, false, false⟩ log = ⟨2, true, true⟩) ∨
       ((∃ c, replyOf log = some (.err c)) ∧ One.run ⟨0, false, false⟩ log = ⟨0, false, false⟩)) := by
  unfold ulImpl
  split
  · exact ⟨_, rfl, .inr ⟨⟨75, rfl⟩, rfl⟩⟩
  · simp only [Bool.false_eq_true, if_false, ulCreate, handleNomem, ulFail, if_true]
    obtain ⟨n, tn, np, pp, lo, rg, sl, ov, oc, ct, ht, wr, lp⟩ := u
    have hl : (lp && !rg) = false := by cases lp <;> simp_all
    simp only [hl]
    cases sl
    · cases ov
      · cases ct
        · exact ⟨_, rfl, .inr ⟨⟨72, rfl⟩, rfl⟩⟩
        · cases ht
          · exact ⟨_, rfl, .inr ⟨⟨85, rfl⟩, rfl⟩⟩
          · cases wr
            · exact ⟨_, rfl, .inr ⟨⟨88, rfl⟩, rfl⟩⟩
            · exact ⟨_, by simp only [ulFinish_eq]; rfl, .inl ⟨rfl, rfl⟩⟩
      · exact ⟨_, rfl, .inr ⟨⟨oc, rfl⟩, rfl⟩⟩
    · exact ⟨_, rfl, .inr ⟨⟨99, rfl⟩, rfl⟩⟩

def exUl : UlEnv :=
  { notify := false, tnEnabled := false, needPort := false, packetport := false, listenOk := true, regOk := true
    slow := false, overload := false, overloadCode := 98, ctorOk := true, htOk := true, wrtOk := true, lpp := true }

/-- The hypothesis can be met, with either outcome. -/
example : (exUl.lpp = true → exUl.regOk = true) ∧
    ({ exUl with wrtOk := false }.lpp = true → { exUl with wrtOk := false }.regOk = true) := by decide

/-- If the packet port cannot take the session (no memory) the command fails, and the session stays in both tables. -/
theorem C59_packetport_counterexample : ∃ log, ulImpl .update false { exUl with regOk := false } [] = .ok log ∧
    replyOf log = some (.err 89) ∧ One.run ⟨0, false, false⟩ log = ⟨2, true, true⟩ := ⟨_, rfl, rfl, rfl⟩

/-- The commands that act on a session. -/
def Op.needsSession : Op → Bool
  | .delete | .record | .play | .noplay | .copy | .lookup | .query | .norecord => true
  | _ => false

/-- A command for a session that is not there is answered with an error, whatever else is wrong with it; if nothing else
is wrong with it the error says so. -/
theorem C58_unknown_session (op : Op) (e : Env) (hs : subcAllowed op e) (hop : op.needsSession = true)
    (hf : e.found = false) : ∃ log r, handle op e = .ok log ∧ replyOf log = some r ∧ r.errd = true ∧
      (e.optMem = true → e.optOk = true → e.subcOk.all id = true → r = if op = .lookup then .noport else .err 50) := by
  have hsub : ∀ (h : ¬ (op = .update ∨ op = .lookup ∨ op = .query)), e.subcOk = [] := by
    intro h
    rcases hs with h1 | h1 | h1 | h1
    · exact absurd (Or.inl h1) h
    · exact absurd (Or.inr (Or.inl h1)) h
    · exact absurd (Or.inr (Or.inr h1)) h
    · exact h1
  obtain ⟨om, oo, oc, so, sb, fo, ul, cp, pl, fu, un⟩ := e
  simp only at hf
  subst hf
  cases op <;> simp only [Op.needsSession, Bool.false_eq_true] at hop
  case lookup =>
    cases hso : so.all id <;> cases om <;> cases oo <;>
      (simp only [handle, parseOpts, parseSubs, hso, lookFor, Op.isUl]; exact ⟨_, _, rfl, rfl, rfl, by simp⟩)
  case query =>
    cases hso : so.all id <;>
      (simp only [handle, parseOpts, parseSubs, hso, lookFor, Op.isUl]; exact ⟨_, _, rfl, rfl, rfl, by simp⟩)
  all_goals
    have hso : so = [] := hsub (by simp)
    subst hso
    cases om <;> cases oo <;>
      (simp only [handle, parseOpts, parseSubs, lookFor, Op.isUl]; exact ⟨_, _, rfl, rfl, rfl, by simp⟩)

/-! ## Examples -/

def exEnv : Env :=
  { optMem := true, optOk := true, optCode := 5, subcOk := [true, true], subs := [.look exUl true, .other 0]
    found := true, ul := exUl, copy := ⟨true, true, false, false, true, true, true, true⟩
    play := ⟨true, true, true, true⟩, full := false, unknown := false }

example : subcAllowed .update exEnv := .inl rfl
example : (handle .update exEnv).toOption = some [.alloc, .reply .ok, .free] := rfl
example : (handle .lookup { exEnv with found := false }).toOption = some [.alloc, .free, .reply .noport] := rfl

example : ∀ i ∈ [In.cmd .update exEnv, .dup, .refused 5, .idle, .cmd .getVer { exEnv with subcOk := [] }], i.ok := by
  intro i hi
  simp only [List.mem_cons, List.not_mem_nil, or_false] at hi
  rcases hi with rfl | rfl | rfl | rfl | rfl
  · exact .inl rfl
  · trivial
  · trivial
  · trivial
  · exact .inr (.inr (.inr rfl))

end Verif.Counters
