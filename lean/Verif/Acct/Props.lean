import Mathlib.Data.List.Induction
import Verif.Acct.Body
import Verif.Acct.Full
import Verif.Acct.RowProps

/-! # C72: what is in the accounting files -/

namespace Verif.Acct

theorem run_snoc {s s' : St} {es : List Ev} {e : Ev} (h : run s (es ++ [e]) = some (.ok s')) :
    ∃ s1, run s es = some (.ok s1) ∧ step s1 e = some (.ok s') := by
  induction es generalizing s with
  | nil =>
    simp only [List.nil_append, run] at h
    refine ⟨s, rfl, ?_⟩
    split at h
    · cases h
    · cases h
    next s1 h1 => rw [h1, ← h]
  | cons a es ih =>
    simp only [List.cons_append, run] at h ⊢
    split at h
    · cases h
    · cases h
    next s1 h1 => obtain ⟨s2, h2, h3⟩ := ih h; exact ⟨s2, by rw [← h2], h3⟩

/-- Induction over the steps taken. -/
theorem run_ind {C : Ev → Prop} {P : List Ev → St → Prop} (h0 : P [] init)
    (hstep : ∀ es s e s', P es s → C e → step s e = some (.ok s') → P (es ++ [e]) s')
    {es : List Ev} {s : St} (hr : run init es = some (.ok s)) (hc : ∀ e ∈ es, C e) : P es s := by
  induction es using List.reverseRecOn generalizing s with
  | nil => simp only [run, Option.some.injEq, Except.ok.injEq] at hr; rw [← hr]; exact h0
  | append_singleton es e ih =>
    obtain ⟨s1, h1, h2⟩ := run_snoc hr
    exact hstep es s1 e s (ih h1 fun x hx => hc x (by simp [hx])) (hc e (by simp)) h2

theorem inv_init : Inv init :=
  ⟨by simp [init], by simp [init], by simp [init, Pc.held], by simp [init], by simp [init]⟩

theorem body_init : Body init (hist []) [] := by
  refine ⟨rfl, by simp, by simp [init], ?_, by simp [init], by simp [init, Pc.left]⟩
  rintro p i o _ ⟨n, h, _⟩; simp [init] at h

/-- **C72 (partial).** If no write was cut short and nobody emptied a file, then each file is empty or has the line of the names and
then rows, whole, in the order of writing, and each row written is in exactly one file. -/
theorem C72_contents_partial {es : List Ev} {s : St} (hr : run init es = some (.ok s)) (ht : ∀ e ∈ es, e.Tidy) :
    ∃ l : List (Nat × Nat × List UInt8), (l.map fun x => x.2) = written es ∧ (∀ x ∈ l, x.1 < s.files.length) ∧
      ∀ i d, s.files[i]? = some d → (d = [] ∧ ∀ x ∈ l, x.1 ≠ i) ∨
        d = headLine ++ [10] ++ ((l.filter fun x => decide (x.1 = i)).map fun x => x.2.2).flatten := by
  obtain ⟨_, l, hb⟩ := run_ind (C := Ev.Tidy) (P := fun es s => Inv s ∧ ∃ l, Body s (hist es) l) ⟨inv_init, [], body_init⟩
    (fun es s e s' ⟨hi, l, hb⟩ hc hs => ⟨step_inv hi hs, by rw [hist_snoc]; exact step_body hi hb hc hs⟩) hr ht
  refine ⟨l, hb.out, hb.bound, fun i d hd => ?_⟩
  have := hb.files i d hd
  rw [head_eq] at this
  exact this

theorem cur_run {es : List Ev} {s : St} (hr : run init es = some (.ok s)) :
    Cur s (hist es) ∧ ∀ p, ((hist es).of p ++ (s.procs p).pc.left).Sublist (handed p es) := by
  refine run_ind (C := fun _ => True) (P := fun es s => Cur s (hist es) ∧
    ∀ p, ((hist es).of p ++ (s.procs p).pc.left).Sublist (handed p es)) ?_ ?_ hr (fun _ _ => trivial)
  · exact ⟨by intro p w hw; simp [init, Pc.left] at hw, by simp [hist, Hist.of, init, Pc.left]⟩
  · rintro es s e s' ⟨hc, hp⟩ _ hs
    rw [hist_snoc]
    refine ⟨step_cur hc hs, fun p => ?_⟩
    rw [step_of hc hs, handed_snoc, List.append_assoc]
    refine ((List.Sublist.append_left (step_left p hs) _)).trans ?_
    rw [← List.append_assoc]
    exact (hp p).append_right _

/-- **C72.** What a process writes are rows handed to it, in that order, none of them twice. -/
theorem C72_once {es : List Ev} {s : St} (hr : run init es = some (.ok s)) (p : Nat) :
    (((written es).filter fun x => decide (x.1 = p)).map fun x => x.2).Sublist (handed p es) :=
  (List.sublist_append_left _ _).trans ((cur_run hr).2 p)

theorem lines_flatten (ws : List (List UInt8)) (h : ∀ w ∈ ws, 10 ∉ w) : lines (ws.map (· ++ [10])).flatten = ws := by
  induction ws with
  | nil => rfl
  | cons w ws ih =>
    simp only [List.map_cons, List.flatten_cons, List.append_assoc, List.singleton_append]
    rw [lines_cons (h w (by simp)), ih fun v hv => h v (by simp [hv])]

/-- **C72 (partial).** So if the rows handed over are lines, the lines of a file that is not empty are the names and rows handed
over. -/
theorem C72_lines_partial {es : List Ev} {s : St} (hr : run init es = some (.ok s)) (ht : ∀ e ∈ es, e.Tidy)
    (hl : ∀ p w, w ∈ handed p es → ∃ v, w = v ++ [10] ∧ 10 ∉ v) {i : Nat} {d : List UInt8} (hd : s.files[i]? = some d)
    (hn : d ≠ []) : ∃ ws, lines d = headLine :: ws ∧ ∀ v ∈ ws, ∃ p, v ++ [10] ∈ handed p es := by
  obtain ⟨l, h1, _, h3⟩ := C72_contents_partial hr ht
  rcases h3 i d hd with ⟨h, _⟩ | h
  · exact absurd h hn
  have hin : ∀ x ∈ l, x.2.2 ∈ handed x.2.1 es := by
    intro x hx
    refine (C72_once hr x.2.1).subset ?_
    rw [← h1, List.mem_map]
    exact ⟨x.2, List.mem_filter.mpr ⟨List.mem_map.mpr ⟨x, hx, rfl⟩, by simp⟩, rfl⟩
  have hm : ∀ l' : List (Nat × Nat × List UInt8), (∀ x ∈ l', x ∈ l) → ∃ ws : List (List UInt8), (l'.map fun x => x.2.2) = ws.map (· ++ [10]) ∧
      (∀ w ∈ ws, 10 ∉ w) ∧ ∀ v ∈ ws, ∃ p, v ++ [10] ∈ handed p es := by
    intro l' hl'
    induction l' with
    | nil => exact ⟨[], rfl, by simp, by simp⟩
    | cons x l' ih =>
      obtain ⟨ws, a1, a2, a3⟩ := ih fun y hy => hl' y (by simp [hy])
      have hx := hin x (hl' x (by simp))
      obtain ⟨v, b1, b2⟩ := hl _ _ hx
      refine ⟨v :: ws, by simp [a1, b1], ?_, ?_⟩
      · simpa using ⟨b2, a2⟩
      · intro u hu
        rcases List.mem_cons.mp hu with rfl | hu
        · exact ⟨_, b1 ▸ hx⟩
        · exact a3 u hu
  obtain ⟨ws, a1, a2, a3⟩ := hm (l.filter fun x => decide (x.1 = i)) fun x hx => (List.mem_filter.mp hx).1
  refine ⟨ws, ?_, a3⟩
  rw [h, a1, List.append_assoc, List.singleton_append, lines_cons headLine_line, lines_flatten ws a2]

/-- **C72 (partial).** If all calls of a process succeed, no file gets to two gigabytes and nobody empties one, then all rows handed
to it are written, in order, but for the one that it is at. -/
theorem C72_written_partial {es : List Ev} {s : St} (hr : run init es = some (.ok s)) (p : Nat)
    (hf : ∀ e ∈ es, e.proc = some p → e.Fine) (ht : ∀ e ∈ es, ∀ i, e ≠ .trunc i) (hs : Small s) :
    handed p es = (((written es).filter fun x => decide (x.1 = p)).map fun x => x.2) ++ (s.procs p).pc.left := by
  have key : Small s → (Inv s ∧ (∀ p, Off s p) ∧ Cur s (hist es) ∧ Full s p ∧
      handed p es = (hist es).of p ++ (s.procs p).pc.left) := by
    refine run_ind (C := fun e => (e.proc = some p → e.Fine) ∧ ∀ i, e ≠ .trunc i) (P := fun es s => Small s →
      (Inv s ∧ (∀ p, Off s p) ∧ Cur s (hist es) ∧ Full s p ∧ handed p es = (hist es).of p ++ (s.procs p).pc.left))
      ?_ ?_ hr (fun e he => ⟨hf e he, ht e he⟩)
    · exact fun _ => ⟨inv_init, off_init, by intro p w hw; simp [init, Pc.left] at hw, full_init p, by
        simp [handed, hist, Hist.of, init, Pc.left]⟩
    · rintro es s e s' ih ⟨hc, ht⟩ hs hsm
      have hsm' := small_of_le (step_le hs ht) hsm
      obtain ⟨i1, i2, i3, i4, i5⟩ := ih hsm'
      obtain ⟨j1, j2⟩ := step_full i1 (i2 p) hsm' i4 hs hc
      rw [hist_snoc]
      refine ⟨step_inv i1 hs, step_off i1 i2 hs ht, step_cur i3 hs, j1, ?_⟩
      rw [handed_snoc, i5, List.append_assoc, j2, step_of i3 hs, List.append_assoc]
  exact (key hs).2.2.2.2

/-- **C72 (partial).** If a new file can be locked and looked at, no descriptor of another thread is closed, locked or
written to. -/
theorem C72_no_fault_partial {es : List Ev} (hsf : ∀ e ∈ es, e.Safe) (f : Fault) : run init es ≠ some (.error f) := by
  have key : ∀ (es : List Ev) (s : St), Inv s → (∀ p, Keep s p) → (∀ e ∈ es, e.Safe) → run s es ≠ some (.error f) := by
    intro es
    induction es with
    | nil => intro s _ _ _ h; cases h
    | cons e es ih =>
      intro s hi hk hc h
      simp only [run] at h
      split at h
      · cases h
      next h1 => exact step_safe hi hk (hc e (by simp)) _ h1
      next s1 h1 =>
        exact ih s1 (step_inv hi h1) (step_keep hi hk h1 (hc e (by simp))) (fun x hx => hc x (by simp [hx])) h
  exact key es init inv_init keep_init hsf

/-- **C72 (partial).** Below two gigabytes, the processes do not block each other for ever: if a module is at work, then some module can go on, by a call
that succeeds. -/
theorem C72_progress_partial {es : List Ev} {s : St} (hr : run init es = some (.ok s)) (hsf : ∀ e ∈ es, e.Safe)
    (ht : ∀ e ∈ es, ∀ i, e ≠ .trunc i) (hs : Small s) {p : Nat} (hp : (s.procs p).pc.active = true) :
    ∃ e s', e.module = true ∧ e.Fine ∧ step s e = some (.ok s') := by
  have key : Small s → (Inv s ∧ (∀ p, Off s p) ∧ (∀ p, Keep s p) ∧ (∀ p, Lks s p) ∧ ∀ p, Fin' s p) := by
    refine run_ind (C := fun e => e.Safe ∧ ∀ i, e ≠ .trunc i) (P := fun es s => Small s →
      (Inv s ∧ (∀ p, Off s p) ∧ (∀ p, Keep s p) ∧ (∀ p, Lks s p) ∧ ∀ p, Fin' s p)) ?_ ?_ hr (fun e he => ⟨hsf e he, ht e he⟩)
    · exact fun _ => ⟨inv_init, off_init, keep_init, lks_init, fin_init⟩
    · rintro es s e s' ih ⟨hc, ht⟩ hs hsm
      have hsm' := small_of_le (step_le hs ht) hsm
      obtain ⟨i1, i2, i3, i4, i5⟩ := ih hsm'
      exact ⟨step_inv i1 hs, step_off i1 i2 hs ht, step_keep i1 i3 hs hc, step_lks i1 i3 i2 hsm' i4 hs hc,
        fun p => step_fin (i5 p) hs⟩
  obtain ⟨hi, hof, hk, hl, hfin⟩ := key hs
  have hbusy : ∀ q i o, s.busy q i o = true → ∃ e s', e.module = true ∧ e.Fine ∧ step s e = some (.ok s') := by
    intro q i o hb
    simp only [St.busy, List.any_eq_true] at hb
    obtain ⟨m, hm, _⟩ := hb
    obtain ⟨e, s', h1, _, h3, h4⟩ := held_step hi (p := m.pid) (by rw [(hl m.pid m hm rfl).1]; simp)
    exact ⟨e, s', h1, h3, h4⟩
  by_cases hh : (s.procs p).pc.pos = none
  case neg => obtain ⟨e, s', h1, _, h3, h4⟩ := held_step hi hh; exact ⟨e, s', h1, h3, h4⟩
  have hsafe := fun (e : Ev) (he : e.Safe) (f : Fault) => step_safe hi hk he f
  have hlen : ∀ i o, (s.procs p).at i o → toInt o = o := by
    intro i o ha
    exact toInt_small (Nat.lt_of_le_of_lt (hof p i o ha) ((small_iff s).mp hs i))
  cases hpc : (s.procs p).pc <;> rw [hpc] at hh hp <;> simp [Pc.active, Pc.pos] at hh hp
  case stat w =>
    by_cases hn : s.name ≠ none ∧ s.name = (s.procs p).stt
    · exact ⟨.stat p true, _, rfl, trivial, by simp only [step, hpc, if_true]; rw [if_pos hn]⟩
    · exact ⟨.stat p true, _, rfl, trivial, by simp only [step, hpc, if_true]; rw [if_neg hn]⟩
  case close k =>
    cases hr : doClose s p k with
    | ok s1 => exact ⟨.close p, s1, rfl, trivial, by simp [step, hpc, hr]⟩
    | error f => exact absurd (by simp [step, hpc, hr]) (hsafe (.close p) trivial f)
  case «open» k =>
    obtain ⟨N, hN⟩ := hfin p
    cases hnm : s.name with
    | none => exact ⟨.open p (some N), _, rfl, by simp [Ev.Fine], by simp [step, hpc, doOpen, hN N (Nat.le_refl _), hnm]; rfl⟩
    | some i => exact ⟨.open p (some N), _, rfl, by simp [Ev.Fine], by simp [step, hpc, doOpen, hN N (Nat.le_refl _), hnm]; rfl⟩
  case olock k =>
    obtain ⟨i, ha⟩ := (hk p).ol k hpc
    obtain ⟨n, hf, _⟩ := at_file ha
    cases hb : s.busy p i 0 with
    | true => exact hbusy p i 0 hb
    | false =>
      exact ⟨.olock p true, _, rfl, rfl, by
        simp only [step, hpc, doOlock, hf, hb, if_true, Bool.false_eq_true, if_false]
        rw [if_neg (by decide)]⟩
  case lock w =>
    obtain ⟨r, hf⟩ := keep_file (hk p) (by rw [hpc]; rfl)
    rcases r with _ | ⟨n, i, o⟩
    · exact ⟨.lock p true, _, rfl, rfl, by simp only [step, hpc, doLock, hf]; rfl⟩
    · cases hb : s.busy p i o with
      | true => exact hbusy p i o hb
      | false =>
        exact ⟨.lock p true, _, rfl, rfl, by
          simp only [step, hpc, doLock, hf, hb, if_true, Bool.false_eq_true, if_false]
          rw [if_neg (by rw [hlen i o ⟨n, file_some hf⟩]; omega)]⟩

/-- **C72.** A row takes a module at most ten calls, and its set-up at most six. -/
theorem C72_steps {es : List Ev} {s : St} (hr : run init es = some (.ok s)) (p : Nat) :
    es.countP (fun e => e.module && decide (e.proc = some p)) ≤ 10 * (handed p es).length + 6 * es.count (.ctor p) := by
  have key : es.countP (fun e => e.module && decide (e.proc = some p)) + (s.procs p).pc.rank ≤
      10 * (handed p es).length + 6 * es.count (.ctor p) := by
    refine run_ind (C := fun _ => True) (P := fun es s =>
      es.countP (fun e => e.module && decide (e.proc = some p)) + (s.procs p).pc.rank ≤
        10 * (handed p es).length + 6 * es.count (.ctor p)) ?_ ?_ hr (fun _ _ => trivial)
    · simp [init, Pc.rank]
    · rintro es s e s' ih _ hs
      have h := step_rank p hs
      have h1 : e.ours p = [e].countP (fun e => e.module && decide (e.proc = some p)) := by
        simp only [Ev.ours, List.countP_singleton, Bool.and_eq_true, decide_eq_true_eq]
      have h2 : e.work p ≤ 10 * (e.ins p).length + 6 * [e].count (.ctor p) := by
        cases e <;> simp [Ev.work, Ev.ins, List.count_singleton] <;> split <;> simp_all
      rw [handed_snoc, List.countP_append, List.count_append, List.length_append]
      omega
  omega

end Verif.Acct
