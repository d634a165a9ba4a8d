import Verif.Cmd.Stream

/-!
# C21: framing of stream control connections

Full claim: the lines obtained are the lines of the stream, however it is segmented, and an over-long
line is reported.  The second part is false: a line that fills the buffer makes the server ask for zero
bytes, take the answer for the end of the stream and close the connection without an answer
(`C21_long_line_counterexample`).
-/

namespace Verif.Cmd

/-! ### Specification -/

def Ev.line : Ev → List UInt8
  | .cmd l => l
  | .nomem l => l

/-- A stream cut into complete lines and an unterminated rest. -/
structure Lines (s : List UInt8) (ls : List (List UInt8)) (rest : List UInt8) : Prop where
  join : s = (ls.flatMap fun l => l ++ [10]) ++ rest
  plain : ∀ l ∈ ls, (10 : UInt8) ∉ l
  rest : (10 : UInt8) ∉ rest

/-- The lines are determined by the stream. -/
theorem Lines.unique {s : List UInt8} : ∀ {ls ls' : List (List UInt8)} {r r' : List UInt8}, Lines s ls r →
    Lines s ls' r' → ls = ls' ∧ r = r' := by
  have cut : ∀ (a b x y : List UInt8), (10 : UInt8) ∉ a → (10 : UInt8) ∉ b → a ++ 10 :: x = b ++ 10 :: y → a = b ∧ x = y := by
    intro a
    induction a with
    | nil =>
      intro b x y _ hb h
      cases b with
      | nil => simpa using h
      | cons c b => simp only [List.nil_append, List.cons_append, List.cons.injEq] at h; simp [← h.1] at hb
    | cons c a ih =>
      intro b x y ha hb h
      cases b with
      | nil => simp only [List.nil_append, List.cons_append, List.cons.injEq] at h; simp [h.1] at ha
      | cons d b =>
        simp only [List.cons_append, List.cons.injEq] at h
        obtain ⟨h1, h2⟩ := ih b x y (fun h' => ha (by simp [h'])) (fun h' => hb (by simp [h'])) h.2
        exact ⟨by rw [h.1, h1], h2⟩
  intro ls
  induction ls generalizing s with
  | nil =>
    intro ls' r r' h h'
    cases ls' with
    | nil => exact ⟨rfl, by simpa using h.join.symm.trans h'.join⟩
    | cons l ls' =>
      exfalso
      have := h.join.symm.trans h'.join
      apply h.rest
      simp only [List.flatMap_nil, List.nil_append] at this
      rw [this]; simp
  | cons l ls ih =>
    intro ls' r r' h h'
    have e := h.join.symm.trans h'.join
    cases ls' with
    | nil =>
      exfalso
      apply h'.rest
      simp only [List.flatMap_nil, List.nil_append] at e
      rw [← e]; simp
    | cons l' ls' =>
      simp only [List.flatMap_cons, List.append_assoc, List.singleton_append] at e
      obtain ⟨h1, h2⟩ := cut _ _ _ _ (h.plain l (by simp)) (h'.plain l' (by simp)) e
      obtain ⟨h3, h4⟩ := ih (s := (ls.flatMap fun l => l ++ [10]) ++ r) ⟨rfl, fun l hl => h.plain l (by simp [hl]), h.rest⟩
        ⟨h2, fun l hl => h'.plain l (by simp [hl]), h'.rest⟩
      exact ⟨by rw [h1, h3], h4⟩

/-! ### Lemmas -/

structure CWF (c : Conn) : Prop where
  len : c.inbuf.length = inbufLen
  le : c.ppos ≤ c.epos
  bnd : c.epos ≤ inbufLen

def pend (c : Conn) : List UInt8 := (c.inbuf.drop c.ppos).take (c.epos - c.ppos)

theorem pend_length {c : Conn} (h : CWF c) : (pend c).length = c.epos - c.ppos := by
  have := h.len; have := h.le; have := h.bnd
  simp only [pend, List.length_take, List.length_drop]; omega

theorem getAt_pend {c : Conn} (h : CWF c) : getAt c.inbuf c.ppos (c.epos - c.ppos) = .ok (pend c) := by
  have := h.len; have := h.le; have := h.bnd
  unfold getAt
  rw [if_pos (by omega)]; rfl

theorem compact_ok {c : Conn} (h : CWF c) : ∃ c', compact c = .ok c' ∧ CWF c' ∧ pend c' = pend c ∧ c'.ppos = 0 := by
  have h1 := h.len; have h2 := h.le; have h3 := h.bnd
  unfold compact
  split
  · next h0 =>
    exact ⟨c, rfl, h, rfl, by omega⟩
  · split
    · next h0 =>
      exact ⟨_, rfl, ⟨h1, Nat.le_refl _, Nat.zero_le _⟩, by simp [pend, h0], rfl⟩
    · rw [if_neg (by omega)]
      simp only [getAt_pend h]
      have hl := pend_length h
      simp only [putAt, Nat.zero_add, List.take_zero, List.nil_append]
      rw [if_pos (by omega)]
      refine ⟨_, rfl, ⟨?_, Nat.zero_le _, ?_⟩, ?_, rfl⟩
      · simp only [List.length_append, List.length_drop]; omega
      · simp only; omega
      · simp only [pend, List.drop_zero, Nat.sub_zero]
        rw [← hl]
        simp [pend]

theorem findIdx_split {d : List UInt8} {n : Nat} (h : d.findIdx? (· == 10) = some n) :
    ∃ r, d = d.take n ++ 10 :: r ∧ (10 : UInt8) ∉ d.take n ∧ n < d.length := by
  rw [List.findIdx?_eq_some_iff_getElem] at h
  obtain ⟨hn, he, hlt⟩ := h
  refine ⟨d.drop (n + 1), ?_, ?_, hn⟩
  · have h10 : d[n] = 10 := by simpa using he
    conv => lhs; rw [← List.take_append_drop n d]
    rw [List.drop_eq_getElem_cons hn, h10]
  · intro hm
    obtain ⟨i, hi, e⟩ := List.getElem_of_mem hm
    rw [List.getElem_take] at e
    have hi' : i < n := by rw [List.length_take] at hi; omega
    have := hlt i hi'
    simp [e] at this

theorem get_ok {c : Conn} (h : CWF c) (m : Bool) : ∃ c' o, get c m = .ok (c', o) ∧ CWF c' ∧
    (match o with
     | none => pend c' = pend c ∧ (10 : UInt8) ∉ pend c
     | some ev => pend c = ev.line ++ 10 :: pend c' ∧ (10 : UInt8) ∉ ev.line) := by
  have h1 := h.len; have h2 := h.le; have h3 := h.bnd
  unfold get
  by_cases he : c.epos = c.ppos
  · rw [if_pos he]
    exact ⟨c, none, rfl, h, rfl, by simp [pend, he]⟩
  · rw [if_neg he, if_neg (by omega), getAt_pend h]
    cases hf : (pend c).findIdx? (· == 10) with
    | none =>
      simp only [hf]
      refine ⟨c, none, rfl, h, rfl, ?_⟩
      rw [List.findIdx?_eq_none_iff] at hf
      intro hm
      have := hf 10 hm
      simp at this
    | some n =>
      obtain ⟨r, e1, e2, e3⟩ := findIdx_split hf
      rw [pend_length h] at e3
      have hp : pend { c with ppos := c.ppos + (n + 1) } = r := by
        have : pend { c with ppos := c.ppos + (n + 1) } = (pend c).drop (n + 1) := by
          simp only [pend]
          rw [List.drop_take, List.drop_drop]
          congr 1
          omega
        rw [this, e1]
        have hl : ((pend c).take n).length = n := by rw [List.length_take, pend_length h]; omega
        rw [List.drop_append, hl]
        rw [List.drop_eq_nil_of_le (by omega)]
        simp
      have hw : CWF { c with ppos := c.ppos + (n + 1) } := ⟨h1, by simp only; omega, h3⟩
      simp only [hf]
      cases m with
      | true =>
        rw [if_pos rfl, if_pos (by omega)]
        exact ⟨_, _, rfl, hw, by rw [hp]; exact e1, e2⟩
      | false =>
        rw [if_neg (by simp)]
        exact ⟨_, _, rfl, hw, by rw [hp]; exact e1, e2⟩

def joined (evs : List Ev) : List UInt8 := evs.flatMap fun e => e.line ++ [10]

theorem drain_ok (mem : Nat → Bool) : ∀ (fuel : Nat) (c : Conn) (n : Nat), CWF c → (pend c).length < fuel →
    ∃ c' evs, drain mem fuel c n = .ok (c', evs) ∧ CWF c' ∧ pend c = joined evs ++ pend c' ∧
      (∀ e ∈ evs, (10 : UInt8) ∉ e.line) ∧ (10 : UInt8) ∉ pend c' := by
  intro fuel
  induction fuel with
  | zero => intro c n _ h; omega
  | succ fuel ih =>
    intro c n hw hl
    obtain ⟨c', o, e1, e2, e3⟩ := get_ok hw (mem n)
    rw [drain, e1]
    cases o with
    | none => exact ⟨c', [], rfl, e2, by simp [joined, e3.1], by simp, by rw [e3.1]; exact e3.2⟩
    | some ev =>
      simp only at e3
      have hl' : (pend c').length < fuel := by
        have := congrArg List.length e3.1
        simp only [List.length_append, List.length_cons] at this
        omega
      obtain ⟨c'', evs, f1, f2, f3, f4, f5⟩ := ih c' (n + 1) e2 hl'
      simp only [f1]
      refine ⟨c'', ev :: evs, rfl, f2, ?_, ?_, f5⟩
      · rw [e3.1, f3]; simp [joined]
      · intro e he
        rcases List.mem_cons.mp he with rfl | he
        · exact e3.2
        · exact f4 e he

/-- The state of a connection after bytes `total` have arrived. -/
structure SInv (total : List UInt8) (s : Sess) : Prop where
  wf : CWF s.conn
  all : total = joined s.evs ++ pend s.conn ++ s.sock
  plain : ∀ e ∈ s.evs, (10 : UInt8) ∉ e.line
  rest : (10 : UInt8) ∉ pend s.conn
  closed : s.closed = true → (pend s.conn).length = inbufLen ∧ s.sock ≠ []

theorem sinv_new : SInv [] sessNew := by
  refine ⟨⟨?_, Nat.le_refl _, Nat.zero_le _⟩, ?_, by simp [sessNew], by simp [pend, sessNew, connNew], by simp [sessNew]⟩
  · simp only [sessNew, connNew]; rw [List.length_replicate]
  · simp [joined, pend, sessNew, connNew]

/-- One service of a connection; the second part says that reading makes progress. -/
theorem serve_ok (mem : Nat → Bool) {total : List UInt8} {s : Sess} (h : SInv total s) (a : List UInt8) :
    ∃ s', serve mem s a = .ok s' ∧ SInv (total ++ a) s' ∧
      (s'.closed = true ∨ s'.sock = [] ∨ s'.sock.length < s.sock.length + a.length) := by
  unfold serve
  simp only
  by_cases hc : s.closed = true ∨ s.sock ++ a = []
  · rw [if_pos hc]
    refine ⟨_, rfl, ⟨h.wf, by rw [h.all]; simp, h.plain, h.rest, ?_⟩, ?_⟩
    · intro hcl
      obtain ⟨k1, k2⟩ := h.closed hcl
      exact ⟨k1, by simp [k2]⟩
    · rcases hc with hc | hc
      · exact .inl hc
      · exact .inr (.inl hc)
  · rw [if_neg hc]
    rw [not_or] at hc
    obtain ⟨c1, e1, e2, e3, e4⟩ := compact_ok h.wf
    have hb := e2.bnd
    have hlen := e2.len
    unfold doio
    rw [e1]
    simp only
    rw [if_neg (by omega)]
    simp only [putAt]
    have hfit : c1.epos + (List.take (inbufLen - c1.epos) (s.sock ++ a)).length ≤ c1.inbuf.length := by
      rw [List.length_take]; omega
    rw [if_pos hfit]
    generalize hd : List.take (inbufLen - c1.epos) (s.sock ++ a) = d at hfit
    generalize hr : List.drop (inbufLen - c1.epos) (s.sock ++ a) = r
    have hdr : s.sock ++ a = d ++ r := by rw [← hd, ← hr, List.take_append_drop]
    have hep : (c1.inbuf.take c1.epos).length = c1.epos := by rw [List.length_take]; omega
    -- the connection after the read
    generalize hc2 : (⟨c1.inbuf.take c1.epos ++ d ++ c1.inbuf.drop (c1.epos + d.length), c1.ppos,
      c1.epos + d.length⟩ : Conn) = c2
    have w2 : CWF c2 := by
      subst hc2
      refine ⟨?_, ?_, ?_⟩
      · simp only [List.length_append, List.length_drop]; omega
      · simp only; omega
      · simp only; omega
    have p2 : pend c2 = pend c1 ++ d := by
      subst hc2
      simp only [pend, e4, List.drop_zero, Nat.sub_zero]
      have hle : (c1.inbuf.take c1.epos ++ d).length = c1.epos + d.length := by rw [List.length_append, hep]
      rw [List.take_append_of_le_length (Nat.le_of_eq hle.symm), List.take_of_length_le (Nat.le_of_eq hle)]
    have p1 := e2.len
    by_cases hd0 : d = []
    · subst hd0
      simp only [List.length_nil]
      simp only [List.length_nil, Nat.add_zero] at hc2
      refine ⟨_, rfl, ?_, .inl rfl⟩
      have hfull : c1.epos = inbufLen := by
        have hne : (s.sock ++ a).length ≠ 0 := by
          intro h0; exact hc.2 (List.length_eq_zero_iff.mp h0)
        have := congrArg List.length hd
        rw [List.length_take, List.length_nil] at this
        omega
      simp only [Nat.add_zero]
      rw [hc2]
      have pp : pend c2 = pend s.conn := by rw [p2, e3]; simp
      refine ⟨w2, ?_, h.plain, by simp only [pp]; exact h.rest, ?_⟩
      · simp only [pp]
        rw [h.all, List.append_assoc, List.append_assoc, List.append_assoc, hdr]
        simp
      · intro _
        refine ⟨?_, ?_⟩
        · simp only [pp]; rw [← e3, pend_length e2, e4, hfull]; rfl
        · simp only
          rintro rfl
          exact hc.2 (by rw [hdr]; rfl)
    · obtain ⟨x, d', rfl⟩ : ∃ x d', d = x :: d' := by
        cases d with
        | nil => exact absurd rfl hd0
        | cons x d' => exact ⟨x, d', rfl⟩
      have hpl : (pend c2).length < inbufLen + 1 := by
        rw [pend_length w2]; have := w2.bnd; omega
      obtain ⟨c', evs, f1, f2, f3, f4, f5⟩ := drain_ok mem (inbufLen + 1) c2 s.evs.length w2 hpl
      simp only [List.length_cons] at hc2 ⊢
      rw [hc2, f1]
      refine ⟨_, rfl, ⟨f2, ?_, ?_, f5, by simp⟩, .inr (.inr ?_)⟩
      · rw [h.all, List.append_assoc _ s.sock, hdr, List.append_assoc, ← List.append_assoc (pend s.conn), ← e3, ← p2, f3]
        simp [joined]
      · intro e he
        rcases List.mem_append.mp he with he | he
        · exact h.plain e he
        · exact f4 e he
      · have := congrArg List.length hdr
        simp only [List.length_append, List.length_cons] at this
        simp only
        omega

theorem serveAll_ok (mem : Nat → Bool) : ∀ (arr : List (List UInt8)) {total : List UInt8} {s : Sess}, SInv total s →
    ∃ s', serveAll mem s arr = .ok s' ∧ SInv (total ++ arr.flatten) s' := by
  intro arr
  induction arr with
  | nil => intro total s h; exact ⟨s, rfl, by simpa using h⟩
  | cons a arr ih =>
    intro total s h
    obtain ⟨s1, e1, e2, _⟩ := serve_ok mem h a
    obtain ⟨s2, f1, f2⟩ := ih e2
    refine ⟨s2, by rw [serveAll, e1]; exact f1, ?_⟩
    rw [List.flatten_cons, ← List.append_assoc]; exact f2

/-! ### Properties -/

/-- However the bytes arrive, nothing is read or written outside the buffers, and each complete line of
the bytes read so far has become exactly one command or one out-of-memory reply, in order. -/
theorem C21_framing (mem : Nat → Bool) (arr : List (List UInt8)) :
    ∃ s, serveAll mem sessNew arr = .ok s ∧
      ∃ read rest, arr.flatten = read ++ s.sock ∧ Lines read (s.evs.map Ev.line) rest := by
  obtain ⟨s, e1, e2⟩ := serveAll_ok mem arr sinv_new
  rw [List.nil_append] at e2
  refine ⟨s, e1, joined s.evs ++ pend s.conn, pend s.conn, e2.all, ⟨?_, ?_, e2.rest⟩⟩
  · simp [joined, List.flatMap_map]
  · intro l hl
    obtain ⟨e, he, rfl⟩ := List.mem_map.mp hl
    exact e2.plain e he

/-- Two ways to cut the same stream: the same lines, once everything has been read. -/
theorem C21_segmentation (mem : Nat → Bool) (arr arr' : List (List UInt8)) (h : arr.flatten = arr'.flatten)
    (s s' : Sess) (hs : serveAll mem sessNew arr = .ok s) (hs' : serveAll mem sessNew arr' = .ok s')
    (h0 : s.sock = []) (h0' : s'.sock = []) : s.evs.map Ev.line = s'.evs.map Ev.line := by
  obtain ⟨t, e1, rd, rest, e2, e3⟩ := C21_framing mem arr
  obtain ⟨t', f1, rd', rest', f2, f3⟩ := C21_framing mem arr'
  rw [hs] at e1; rw [hs'] at f1
  cases e1; cases f1
  rw [h0, List.append_nil] at e2
  rw [h0', List.append_nil] at f2
  have : rd = rd' := by rw [← e2, ← f2, h]
  subst this
  exact (e3.unique f3).1

/-- If no line is longer than the buffer the connection stays open and reading goes on until nothing is
left; the buffer holds 8192 bytes, the newline included.

Full statement: an over-long line is answered with an error.  Missing: it is not, see
`C21_long_line_counterexample`. -/
theorem C21_short_lines_partial (mem : Nat → Bool) (arr : List (List UInt8)) (s : Sess)
    (hs : serveAll mem sessNew arr = .ok s)
    (hshort : ∀ pre l post, arr.flatten = pre ++ l ++ post → (10 : UInt8) ∉ l → l.length < 8192) :
    s.closed = false ∧ (s.sock ≠ [] → ∃ s', serve mem s [] = .ok s' ∧ s'.sock.length < s.sock.length) := by
  obtain ⟨t, e1, e2⟩ := serveAll_ok mem arr sinv_new
  rw [hs] at e1
  cases e1
  rw [List.nil_append] at e2
  have open_ : ∀ {t : Sess}, SInv arr.flatten t → t.closed = false := by
    intro t ht
    cases hc : t.closed with
    | false => rfl
    | true =>
      obtain ⟨k, _⟩ := ht.closed hc
      have := hshort (joined t.evs) (pend t.conn) t.sock ht.all ht.rest
      rw [k] at this
      exact absurd this (by decide)
  refine ⟨open_ e2, fun hne => ?_⟩
  obtain ⟨s', f1, f2, f3⟩ := serve_ok mem e2 []
  rw [List.append_nil] at f2
  refine ⟨s', f1, ?_⟩
  rcases f3 with f3 | f3 | f3
  · rw [open_ f2] at f3; cases f3
  · rw [f3]; exact List.length_pos_iff.mpr hne
  · simpa using f3

/-- A line of 8192 bytes: the connection is closed and nothing is answered. -/
theorem C21_long_line_counterexample : ∃ s, serveAll (fun _ => true) sessNew
    [List.replicate 8192 65, [10]] = .ok s ∧ s.closed = true ∧ s.evs = [] := by
  have h : (match serveAll (fun _ => true) sessNew [List.replicate 8192 65, [10]] with
      | .ok s => s.closed && s.evs.isEmpty
      | .error _ => false) = true := by decide +kernel
  revert h
  cases serveAll (fun _ => true) sessNew [List.replicate 8192 65, [10]] with
  | error _ => intro h; cases h
  | ok s =>
    intro h
    rw [Bool.and_eq_true, List.isEmpty_iff] at h
    exact ⟨s, rfl, h⟩

/-- Not vacuous: three lines, cut in the middle. -/
example : (match serveAll (fun n => n != 1) sessNew [[86, 10, 73], [10, 88, 10, 81]] with
    | .ok s => decide (s.evs = [.cmd [86], .nomem [73], .cmd [88]] ∧ s.closed = false ∧ s.sock = [])
    | .error _ => false) = true := by
  decide +kernel

end Verif.Cmd
