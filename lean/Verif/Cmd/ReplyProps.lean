import Verif.Cmd.Reply

/-!
# C19: the reply buffer

Full claim: for every sequence of operations the buffer is not overrun, refused operations leave the reply unchanged, replies
are well formed, and no reply aborts the server.  This is false in three ways, with counterexamples below:
an operation that honours the reservation after one that consumed it overruns the buffer
(no handler does this), a long cookie makes the error reply abort the server, and `handle_query` reserves one byte too few.
-/

namespace Verif.Cmd

/-! ### Specification -/

/-- Operations on the buffer. -/
inductive Op where
  | append (s : List UInt8) (fin : Bool)
  | appendf (s : List UInt8)
  | commit
  | reserve (n : Nat)

/-- Runs operations, collecting for each whether it was accepted. -/
def runOps (b : Rep) : List Op → Except Fault (Rep × List Bool)
  | [] => .ok (b, [])
  | op :: ops =>
    let r : Except Fault (Rep × Bool) := match op with
      | .append s fin => append b s fin
      | .appendf s => appendf b s
      | .commit => .ok (commit b, true)
      | .reserve n => .ok (reserve b n)
    match r with
    | .error e => .error e
    | .ok (b', ok) => match runOps b' ops with
      | .error e => .error e
      | .ok (b'', oks) => .ok (b'', ok :: oks)

/-- The text an operation adds if accepted: a trailing NUL is not part of it. -/
def Op.text : Op → List UInt8
  | .append s _ => if s.getLast? = some 0 then s.dropLast else s
  | .appendf s => s
  | _ => []

/-- Accepted text. -/
def accepted : List Op → List Bool → List UInt8
  | op :: ops, true :: oks => op.text ++ accepted ops oks
  | _ :: ops, false :: oks => accepted ops oks
  | _, _ => []

/-- How the handlers use the buffer: texts are not empty, and once the reservation was used, only such texts follow. -/
inductive Protocol : List Op → Prop
  | nil : Protocol []
  | append {s ops} (h : s ≠ []) (hp : Protocol ops) : Protocol (.append s false :: ops)
  | appendf {s ops} (hp : Protocol ops) : Protocol (.appendf s :: ops)
  | commit {ops} (hp : Protocol ops) : Protocol (.commit :: ops)
  | reserve {n ops} (hp : Protocol ops) : Protocol (.reserve n :: ops)
  | final {s ops} (h : s ≠ []) (hp : ∀ op ∈ ops, op = .commit ∨ ∃ s', s' ≠ [] ∧ op = .append s' true) : Protocol (.append s true :: ops)

/-- Has no visible result. -/
def SubRes.Trivial (x : SubRes) : Prop := x.result = 0 ∧ x.buf = []
instance (x : SubRes) : Decidable x.Trivial := inferInstanceAs (Decidable (_ ∧ _))

/-- Text of one result. -/
def item (x : SubRes) : List UInt8 :=
  [32, 38, 38, 32] ++ (if x.result ≠ 0 then fmtD x.result else if x.buf = [] then [48] else x.buf)

/-- Results at the end that have nothing to report are left out. -/
def visible (l : List SubRes) : List SubRes := (l.reverse.dropWhile (fun x => decide x.Trivial)).reverse

/-- QUERY stops at the first failure. -/
def untilFailure : List SubRes → List SubRes
  | [] => []
  | x :: xs => if x.result ≠ 0 then [x] else x :: untilFailure xs

/-! ### Lemmas -/

structure RI (b : Rep) : Prop where
  len : b.r.length = 1024
  cu : b.clen ≤ b.ulen
  ur : b.ulen + b.rlen ≤ 1024

/-- The text collected so far. -/
def used (b : Rep) : List UInt8 := b.r.take b.ulen

theorem ri_new : RI repNew := ⟨List.length_replicate, Nat.le_refl _, by decide⟩

theorem cbrl_ri {b : Rep} (h : b.r.length = 1024) (fin : Bool) (hu : b.ulen + (if fin then 0 else b.rlen) ≤ 1024) :
    cbrl b fin = 1024 - b.ulen - (if fin then 0 else b.rlen) := by
  unfold cbrl
  rw [h]
  cases fin <;> simp at hu ⊢ <;> omega

theorem wrs_ok {a : List UInt8} {i : Nat} {s : List UInt8} (h : i + s.length ≤ a.length) :
    wrs a i s = .ok (a.take i ++ s ++ a.drop (i + s.length)) := by unfold wrs; rw [if_pos h]

theorem wrs_length {a : List UInt8} {i : Nat} {s : List UInt8} (h : i + s.length ≤ a.length) :
    (a.take i ++ s ++ a.drop (i + s.length)).length = a.length := by simp; omega

/-- `append` when it fits. -/
theorem append_fit {b : Rep} {s : List UInt8} {fin : Bool} (hl : b.r.length = 1024) (hne : s ≠ [])
    (hf : b.ulen + (if fin then 0 else b.rlen) + s.length ≤ 1024) :
    ∃ b', append b s fin = .ok (b', true) ∧ b'.r.length = 1024 ∧ b'.rlen = b.rlen ∧ b'.clen = b.clen ∧
      b'.ulen = b.ulen + (Op.append s fin).text.length ∧ b'.r.take b'.ulen = used b ++ (Op.append s fin).text := by
  have hc := cbrl_ri hl fin (by omega)
  have hw : b.ulen + s.length ≤ b.r.length := by omega
  unfold append
  rw [if_neg (by rw [hc]; omega), wrs_ok hw]
  obtain ⟨si, c, rfl⟩ : ∃ si c, s = si ++ [c] := ⟨s.dropLast, s.getLast hne, (List.dropLast_concat_getLast hne).symm⟩
  simp only [List.getLast?_append, List.getLast?_singleton, Option.some_or, Op.text]
  have ht : (b.r.take b.ulen).length = b.ulen := by simp; omega
  by_cases h0 : c = 0
  · refine ⟨_, rfl, (wrs_length hw).trans hl, rfl, rfl, ?_, ?_⟩
    · simp [h0]
    · subst h0
      simp only [if_true, List.dropLast_concat, used]
      rw [List.take_append_of_le_length (by simp; omega), List.length_append, List.length_singleton, Nat.add_sub_cancel, ← List.append_assoc,
        List.take_append_of_le_length (by simp; omega), List.take_of_length_le (by simp; omega)]
  · refine ⟨_, rfl, (wrs_length hw).trans hl, rfl, rfl, ?_, ?_⟩
    · simp [h0]
    · simp only [if_neg h0, Option.some.injEq, used]
      rw [List.take_append_of_le_length (by simp; omega), List.take_of_length_le (by simp; omega)]

theorem append_nofit {b : Rep} {s : List UInt8} {fin : Bool} (hl : b.r.length = 1024)
    (hu : b.ulen + (if fin then 0 else b.rlen) ≤ 1024)
    (hf : 1024 < b.ulen + (if fin then 0 else b.rlen) + s.length) : append b s fin = .ok (b, false) := by
  unfold append
  rw [if_pos (by rw [cbrl_ri hl fin hu]; omega)]

theorem appendf_fit {b : Rep} {s : List UInt8} (hl : b.r.length = 1024) (hf : b.ulen + b.rlen + s.length < 1024) :
    ∃ b', appendf b s = .ok (b', true) ∧ b'.r.length = 1024 ∧ b'.rlen = b.rlen ∧ b'.clen = b.clen ∧
      b'.ulen = b.ulen + s.length ∧ b'.r.take b'.ulen = used b ++ s := by
  have hc := cbrl_ri hl false (by simp; omega)
  simp only [Bool.false_eq_true, if_false] at hc
  have hw : b.ulen + (s ++ [0]).length ≤ b.r.length := by simp; omega
  have e : s.take (cbrl b false - 1) = s := List.take_of_length_le (by rw [hc]; omega)
  unfold appendf
  simp only
  rw [e, if_neg (by rw [hc]; omega), wrs_ok hw]
  simp only
  rw [if_neg (by rw [hc]; omega)]
  refine ⟨_, rfl, (wrs_length hw).trans hl, rfl, rfl, rfl, ?_⟩
  simp only [used]
  rw [List.take_append_of_le_length (by simp; omega), ← List.append_assoc, List.take_append_of_le_length (by simp; omega),
    List.take_of_length_le (by simp; omega)]

theorem appendf_nofit {b : Rep} {s : List UInt8} (hl : b.r.length = 1024) (hu : b.ulen + b.rlen ≤ 1024)
    (hf : 1024 ≤ b.ulen + b.rlen + s.length) :
    ∃ b', appendf b s = .ok (b', false) ∧ b'.r.length = 1024 ∧ b'.rlen = b.rlen ∧ b'.clen = b.clen ∧
      b'.ulen = b.ulen ∧ b'.r.take b'.ulen = used b := by
  have hc := cbrl_ri hl false (by simpa using hu)
  simp only [Bool.false_eq_true, if_false] at hc
  unfold appendf
  simp only
  by_cases h0 : cbrl b false = 0
  · rw [if_pos h0]
    simp only
    rw [if_pos (by rw [h0]; omega)]
    exact ⟨_, rfl, hl, rfl, rfl, rfl, rfl⟩
  · have hw : b.ulen + (s.take (cbrl b false - 1) ++ [0]).length ≤ b.r.length := by simp; omega
    rw [if_neg h0, wrs_ok hw]
    simp only
    rw [if_pos (by rw [hc]; omega)]
    refine ⟨_, rfl, (wrs_length hw).trans hl, rfl, rfl, rfl, ?_⟩
    simp only [used]
    rw [List.append_assoc, List.take_append_of_le_length (by simp; omega), List.take_of_length_le (by simp; omega)]

theorem used_length {b : Rep} (hl : b.r.length = 1024) (hu : b.ulen ≤ 1024) : (used b).length = b.ulen := by
  unfold used; simp; omega

theorem finishLine_ok {b : Rep} (hl : b.r.length = 1024) (hu : b.ulen + 2 ≤ 1024) : finishLine b = .ok (used b ++ [10]) := by
  obtain ⟨b', h1, h2, -, -, h5, h6⟩ := append_fit (b := b) (s := [10, 0]) (fin := true) hl (by simp) (by simp; omega)
  unfold finishLine
  rw [h1]
  simp only [must, sent, commit]
  rw [h6]
  rfl

/-- Running under the protocol. -/
theorem runFinal : ∀ (ops : List Op) (b : Rep), b.r.length = 1024 → b.ulen ≤ 1024 → b.clen ≤ b.ulen →
    (∀ op ∈ ops, op = .commit ∨ ∃ s', s' ≠ [] ∧ op = .append s' true) →
    ∃ b' oks, runOps b ops = .ok (b', oks) ∧ b'.r.length = 1024 ∧ b'.ulen ≤ 1024 ∧ b'.clen ≤ b'.ulen ∧
      oks.length = ops.length ∧ used b' = used b ++ accepted ops oks
  | [], b, hl, hu, hc, _ => ⟨b, [], rfl, hl, hu, hc, rfl, by simp [accepted]⟩
  | op :: ops, b, hl, hu, hc, h => by
    have hrest : ∀ op ∈ ops, op = .commit ∨ ∃ s', s' ≠ [] ∧ op = .append s' true := fun o ho => h o (by simp [ho])
    rcases h op (by simp) with rfl | ⟨s, hs, rfl⟩
    · obtain ⟨b', oks, h1, h2, h3, h4, h5, h6⟩ := runFinal ops (commit b) hl hu (Nat.le_refl _) hrest
      exact ⟨b', true :: oks, by simp [runOps, h1], h2, h3, h4, by simp [h5], by rw [h6]; simp [accepted, Op.text]; rfl⟩
    · by_cases hf : b.ulen + s.length ≤ 1024
      · obtain ⟨b1, a1, a2, a3, a4, a5, a6⟩ := append_fit (b := b) (s := s) (fin := true) hl hs (by simpa using hf)
        have htl : (Op.append s true).text.length ≤ s.length := by simp only [Op.text]; split <;> simp
        obtain ⟨b', oks, h1, h2, h3, h4, h5, h6⟩ := runFinal ops b1 a2 (by omega) (by omega) hrest
        refine ⟨b', true :: oks, by simp [runOps, a1, h1], h2, h3, h4, by simp [h5], ?_⟩
        rw [h6]
        simp only [accepted]
        rw [← List.append_assoc]
        congr 1
      · have a1 := append_nofit (b := b) (s := s) (fin := true) hl (by simpa using hu) (by simp; omega)
        obtain ⟨b', oks, h1, h2, h3, h4, h5, h6⟩ := runFinal ops b hl hu hc hrest
        exact ⟨b', false :: oks, by simp [runOps, a1, h1], h2, h3, h4, by simp [h5], by rw [h6]; simp [accepted]⟩

theorem runProtocol {ops : List Op} (h : Protocol ops) : ∀ (b : Rep), RI b →
    ∃ b' oks, runOps b ops = .ok (b', oks) ∧ b'.r.length = 1024 ∧ b'.ulen ≤ 1024 ∧ b'.clen ≤ b'.ulen ∧
      oks.length = ops.length ∧ used b' = used b ++ accepted ops oks := by
  induction h with
  | nil => intro b hb; exact ⟨b, [], rfl, hb.len, by have := hb.ur; omega, hb.cu, rfl, by simp [accepted]⟩
  | @append s ops hs hp ih =>
    intro b hb
    have hl := hb.len
    have hu := hb.ur
    have hc := hb.cu
    by_cases hf : b.ulen + b.rlen + s.length ≤ 1024
    · obtain ⟨b1, a1, a2, a3, a4, a5, a6⟩ := append_fit (b := b) (s := s) (fin := false) hl hs (by simpa using hf)
      have htl : (Op.append s false).text.length ≤ s.length := by simp only [Op.text]; split <;> simp
      obtain ⟨b', oks, h1, h2, h3, h4, h5, h6⟩ := ih b1 ⟨a2, by omega, by omega⟩
      refine ⟨b', true :: oks, by simp [runOps, a1, h1], h2, h3, h4, by simp [h5], ?_⟩
      rw [h6]
      simp only [accepted]
      rw [← List.append_assoc]
      congr 1
    · have a1 := append_nofit (b := b) (s := s) (fin := false) hl (by simpa using hu) (by simp; omega)
      obtain ⟨b', oks, h1, h2, h3, h4, h5, h6⟩ := ih b hb
      exact ⟨b', false :: oks, by simp [runOps, a1, h1], h2, h3, h4, by simp [h5], by rw [h6]; simp [accepted]⟩
  | @appendf s ops hp ih =>
    intro b hb
    have hl := hb.len
    have hu := hb.ur
    have hc := hb.cu
    by_cases hf : b.ulen + b.rlen + s.length < 1024
    · obtain ⟨b1, a1, a2, a3, a4, a5, a6⟩ := appendf_fit (b := b) (s := s) hl hf
      obtain ⟨b', oks, h1, h2, h3, h4, h5, h6⟩ := ih b1 ⟨a2, by omega, by omega⟩
      refine ⟨b', true :: oks, by simp [runOps, a1, h1], h2, h3, h4, by simp [h5], ?_⟩
      rw [h6]
      simp only [accepted]
      rw [← List.append_assoc]
      congr 1
    · obtain ⟨b1, a1, a2, a3, a4, a5, a6⟩ := appendf_nofit (b := b) (s := s) hl hu (by omega)
      obtain ⟨b', oks, h1, h2, h3, h4, h5, h6⟩ := ih b1 ⟨a2, by omega, by omega⟩
      refine ⟨b', false :: oks, by simp [runOps, a1, h1], h2, h3, h4, by simp [h5], ?_⟩
      rw [h6]
      simp only [accepted]
      congr 1
  | @commit ops hp ih =>
    intro b hb
    obtain ⟨b', oks, h1, h2, h3, h4, h5, h6⟩ := ih (commit b) ⟨hb.len, Nat.le_refl _, hb.ur⟩
    exact ⟨b', true :: oks, by simp [runOps, h1], h2, h3, h4, by simp [h5], by rw [h6]; simp [accepted, Op.text]; rfl⟩
  | @reserve n ops hp ih =>
    intro b hb
    have hu := hb.ur
    have hcb := cbrl_ri hb.len true (by simp; omega)
    simp only [if_true] at hcb
    by_cases hn : cbrl b true < n
    · obtain ⟨b', oks, h1, h2, h3, h4, h5, h6⟩ := ih b hb
      exact ⟨b', false :: oks, by simp [runOps, reserve, hn, h1], h2, h3, h4, by simp [h5], by rw [h6]; simp [accepted]⟩
    · obtain ⟨b', oks, h1, h2, h3, h4, h5, h6⟩ := ih { b with rlen := n } ⟨hb.len, hb.cu, by simp only; omega⟩
      exact ⟨b', true :: oks, by simp [runOps, reserve, hn, h1], h2, h3, h4, by simp [h5],
        by rw [h6]; simp [accepted, Op.text]; rfl⟩
  | @final s ops hs hp =>
    intro b hb
    have hl := hb.len
    have hu := hb.ur
    have hc := hb.cu
    exact runFinal (.append s true :: ops) b hl (by omega) hc (by
      intro op hop
      rcases List.mem_cons.mp hop with rfl | hop
      · exact .inr ⟨s, hs, rfl⟩
      · exact hp op hop)

theorem visible_replicate (n : Nat) : visible (List.replicate n ⟨0, []⟩) = [] := by
  unfold visible
  rw [List.reverse_replicate]
  induction n with
  | zero => rfl
  | succ n ih => rw [List.replicate_succ, List.dropWhile_cons_of_pos (by simp [SubRes.Trivial])]; exact ih

theorem visible_cons_of_ne {l l' : List SubRes} {x : SubRes} (hx : ¬ x.Trivial) :
    visible (l ++ x :: l') = l ++ x :: visible l' := by
  unfold visible
  rw [List.reverse_append, List.reverse_cons, List.append_assoc]
  generalize l'.reverse = m
  induction m with
  | nil => simp [hx]
  | cons y m ih =>
    by_cases hy : y.Trivial
    · rw [List.cons_append, List.dropWhile_cons_of_pos (by simpa using hy), ih, List.dropWhile_cons_of_pos (by simpa using hy)]
    · rw [List.cons_append, List.dropWhile_cons_of_neg (by simpa using hy), List.dropWhile_cons_of_neg (by simpa using hy)]
      simp

/-- What a loop over the results yields. -/
structure Filled (b : Rep) (items : List (List UInt8)) (b' : Rep) (ok : Bool) (k : Nat) : Prop where
  ri : RI b'
  rlen : b'.rlen = b.rlen
  used : used b' = used b ++ (items.take k).flatten
  all : ok = true → k = items.length
  lt : ok = false → k < items.length ∧ 1024 ≤ b.rlen + (Verif.Cmd.used b ++ (items.take (k + 1)).flatten).length

theorem Filled.cons {b b1 b' : Rep} {i : List UInt8} {items ok k} (h1 : Verif.Cmd.used b1 = Verif.Cmd.used b ++ i) (h2 : b1.rlen = b.rlen)
    (h : Filled b1 items b' ok k) : Filled b (i :: items) b' ok (k + 1) := by
  refine ⟨h.ri, h.rlen.trans h2, ?_, ?_, ?_⟩
  · rw [h.used, h1]; simp
  · intro ho; simp [h.all ho]
  · intro ho
    obtain ⟨a1, a2⟩ := h.lt ho
    refine ⟨by simp; omega, ?_⟩
    rw [h1, h2] at a2
    simp only [List.take_succ_cons, List.flatten_cons, List.length_append] at a2 ⊢
    omega

theorem ulSkipped_spec : ∀ (n : Nat) (b : Rep), RI b →
    ∃ b' ok k, ulSkipped b n = .ok (b', ok) ∧ Filled b (List.replicate n subcOk) b' ok k
  | 0, b, hb => ⟨b, true, 0, rfl, ⟨hb, rfl, by simp, by simp, by simp⟩⟩
  | n + 1, b, hb => by
    have hl := hb.len
    have hu := hb.ur
    have hc := hb.cu
    unfold ulSkipped
    by_cases hf : b.ulen + b.rlen + subcOk.length ≤ 1024
    · obtain ⟨b1, a1, a2, a3, a4, a5, a6⟩ := append_fit (b := b) (s := subcOk) (fin := false) hl (by simp [subcOk, sep]) (by simpa using hf)
      have htl : (Op.append subcOk false).text = subcOk := rfl
      rw [htl] at a5 a6
      obtain ⟨b', ok, k, h1, h2⟩ := ulSkipped_spec n b1 ⟨a2, by omega, by omega⟩
      exact ⟨b', ok, k + 1, by rw [a1]; exact h1, h2.cons a6 a3⟩
    · have a1 := append_nofit (b := b) (s := subcOk) (fin := false) hl (by simpa using hu) (by simp; omega)
      refine ⟨b, false, 0, by rw [a1], ⟨hb, rfl, by simp, by simp, ?_⟩⟩
      intro _
      refine ⟨by simp, ?_⟩
      simp only [List.replicate_succ, List.take_succ_cons, List.flatten_cons, List.length_append, used_length hl (by omega : b.ulen ≤ 1024)]
      omega

theorem appendf_item {b : Rep} {s : List UInt8} (hb : RI b) :
    ∃ b' ok, appendf b s = .ok (b', ok) ∧ RI b' ∧ b'.rlen = b.rlen ∧ used b' = used b ++ (if ok then s else []) ∧
      (ok = false → 1024 ≤ b.rlen + (used b).length + s.length) := by
  have hl := hb.len
  have hu := hb.ur
  have hc := hb.cu
  by_cases hf : b.ulen + b.rlen + s.length < 1024
  · obtain ⟨b1, a1, a2, a3, a4, a5, a6⟩ := appendf_fit (b := b) (s := s) hl hf
    exact ⟨b1, true, a1, ⟨a2, by omega, by omega⟩, a3, a6, by simp⟩
  · obtain ⟨b1, a1, a2, a3, a4, a5, a6⟩ := appendf_nofit (b := b) (s := s) hl hu (by omega)
    refine ⟨b1, false, a1, ⟨a2, by omega, by omega⟩, a3, ?_, ?_⟩
    · rw [if_neg (by simp), List.append_nil]; exact a6
    · intro _; rw [used_length hl (by omega)]; omega

theorem Filled.trans {b b1 b' : Rep} {i j : List (List UInt8)} {ok : Bool} {k k' : Nat} (h1 : Filled b i b1 true k) (h2 : Filled b1 j b' ok k') :
    Filled b (i ++ j) b' ok (i.length + k') := by
  have hk := h1.all rfl
  subst hk
  have hu := h1.used
  rw [List.take_length] at hu
  refine ⟨h2.ri, h2.rlen.trans h1.rlen, ?_, ?_, ?_⟩
  · rw [h2.used, hu, List.take_length_add_append]; simp
  · intro ho; simp [h2.all ho]
  · intro ho
    obtain ⟨a1, a2⟩ := h2.lt ho
    refine ⟨by simp; omega, ?_⟩
    rw [h1.rlen, hu] at a2
    rw [Nat.add_assoc, List.take_length_add_append]
    simpa using a2

theorem Filled.left {b b' : Rep} {i j : List (List UInt8)} {k : Nat} (h : Filled b i b' false k) : Filled b (i ++ j) b' false k := by
  obtain ⟨a1, a2⟩ := h.lt rfl
  refine ⟨h.ri, h.rlen, ?_, by simp, ?_⟩
  · rw [h.used, List.take_append_of_le_length (by omega)]
  · intro _
    refine ⟨by simp; omega, ?_⟩
    rw [List.take_append_of_le_length (by omega)]
    exact a2

theorem Filled.one {b b' : Rep} {i : List UInt8} {ok : Bool} (h1 : RI b') (h2 : b'.rlen = b.rlen)
    (h3 : Verif.Cmd.used b' = Verif.Cmd.used b ++ (if ok then i else []))
    (h4 : ok = false → 1024 ≤ b.rlen + (Verif.Cmd.used b).length + i.length) : Filled b [i] b' ok (if ok then 1 else 0) := by
  cases ok with
  | true => exact ⟨h1, h2, by rw [h3]; simp, by simp, by simp⟩
  | false =>
    refine ⟨h1, h2, by rw [h3]; simp, by simp, fun _ => ⟨by simp, ?_⟩⟩
    have := h4 rfl
    simp; omega

theorem ulLoop_spec : ∀ (xs : List SubRes) (sk : Nat) (b : Rep), RI b →
    ∃ b' ok k, ulLoop b sk xs = .ok (b', ok) ∧
      Filled b ((visible (List.replicate sk ⟨0, []⟩ ++ xs)).map item) b' ok k
  | [], sk, b, hb => by
    refine ⟨b, true, 0, rfl, ?_⟩
    rw [List.append_nil, visible_replicate]
    exact ⟨hb, rfl, by simp, by simp, by simp⟩
  | x :: xs, sk, b, hb => by
    unfold ulLoop
    by_cases hx : x.result ≠ 0 ∨ x.buf ≠ []
    · rw [if_pos hx]
      have hnt : ¬ x.Trivial := by
        unfold SubRes.Trivial
        intro hc; rcases hx with hx | hx
        · exact hx hc.1
        · exact hx hc.2
      rw [visible_cons_of_ne hnt, List.map_append, List.map_cons, List.map_replicate, show item ⟨0, []⟩ = subcOk from rfl]
      obtain ⟨b1, ok1, k1, h1, f1⟩ := ulSkipped_spec sk b hb
      rw [h1]
      cases ok1 with
      | false => exact ⟨b1, false, k1, rfl, f1.left⟩
      | true =>
        simp only
        have hit : sep ++ (if x.result ≠ 0 then fmtD x.result else x.buf) = item x := by
          unfold item
          split
          · rfl
          · rw [if_neg (by rcases hx with hx | hx; contradiction; exact hx)]; rfl
        rw [hit]
        obtain ⟨b2, ok2, h2, r2, rl2, u2, n2⟩ := appendf_item (s := item x) f1.ri
        rw [h2]
        cases ok2 with
        | false =>
          have := f1.trans (Filled.one r2 rl2 u2 n2)
          rw [show (item x :: (visible xs).map item) = [item x] ++ (visible xs).map item from rfl, ← List.append_assoc]
          exact ⟨b2, false, _, rfl, this.left⟩
        | true =>
          simp only
          obtain ⟨b3, ok3, k3, h3, f3⟩ := ulLoop_spec xs 0 b2 r2
          rw [h3]
          refine ⟨b3, ok3, _, rfl, f1.trans (Filled.cons u2 rl2 f3)⟩
    · rw [if_neg hx]
      have hx' : x = ⟨0, []⟩ := by
        cases x with
        | mk r bu => simp at hx; simp [hx]
      obtain ⟨b', ok, k, h1, h2⟩ := ulLoop_spec xs (sk + 1) b hb
      refine ⟨b', ok, k, h1, ?_⟩
      rw [hx', show List.replicate sk (⟨0, []⟩ : SubRes) ++ ⟨0, []⟩ :: xs = List.replicate (sk + 1) ⟨0, []⟩ ++ xs by
        rw [List.replicate_succ']; simp]
      exact h2

theorem qFail_spec (res : Int) : ∀ (n : Nat) (b : Rep), RI b →
    ∃ b' ok k, qFail b res n = .ok (b', ok) ∧ Filled b (List.replicate n subcOk ++ [sep ++ fmtD res]) b' ok k
  | 0, b, hb => by
    obtain ⟨b2, ok2, h2, r2, rl2, u2, n2⟩ := appendf_item (s := sep ++ fmtD res) hb
    exact ⟨b2, ok2, _, h2, Filled.one r2 rl2 u2 n2⟩
  | n + 1, b, hb => by
    unfold qFail
    obtain ⟨b2, ok2, h2, r2, rl2, u2, n2⟩ := appendf_item (s := subcOk) hb
    rw [h2]
    cases ok2 with
    | false =>
      exact ⟨b2, false, _, rfl, (Filled.one r2 rl2 u2 n2).left (j := List.replicate n subcOk ++ [sep ++ fmtD res])⟩
    | true =>
      obtain ⟨b3, ok3, k3, h3, f3⟩ := qFail_spec res n b2 r2
      exact ⟨b3, ok3, _, h3, Filled.cons u2 rl2 f3⟩

theorem qSkipped_spec : ∀ (n : Nat) (b : Rep), RI b →
    ∃ b' sk k, qSkipped b n = .ok (b', sk) ∧ Filled b (List.replicate n subcOk) b' (decide (sk = 0)) k ∧
      (sk ≠ 0 → 1024 ≤ b'.rlen + (used b').length + subcOk.length)
  | 0, b, hb => ⟨b, 0, 0, rfl, ⟨hb, rfl, by simp, by simp, by simp⟩, by simp⟩
  | n + 1, b, hb => by
    unfold qSkipped
    obtain ⟨b2, ok2, h2, r2, rl2, u2, n2⟩ := appendf_item (s := subcOk) hb
    rw [h2]
    cases ok2 with
    | false =>
      refine ⟨b2, n + 1, _, rfl, (Filled.one r2 rl2 u2 n2).left (j := List.replicate n subcOk), ?_⟩
      intro _
      have := n2 rfl
      rw [u2, rl2]
      simpa using this
    | true =>
      obtain ⟨b3, sk3, k3, h3, f3, g3⟩ := qSkipped_spec n b2 r2
      exact ⟨b3, sk3, _, h3, Filled.cons u2 rl2 f3, g3⟩

theorem Filled.commit {b b' : Rep} {i ok k} (h : Filled (commit b) i b' ok k) : Filled b i b' ok k :=
  ⟨h.ri, h.rlen, h.used, h.all, h.lt⟩

theorem RI.commit {b : Rep} (h : RI b) : RI (commit b) := ⟨h.len, Nat.le_refl _, h.ur⟩

theorem qLoop_spec : ∀ (xs : List SubRes) (sk : Nat) (b : Rep), RI b →
    ∃ b' ok k, qLoop b sk xs = .ok (b', ok) ∧
      Filled b ((visible (List.replicate sk ⟨0, []⟩ ++ untilFailure xs)).map item) b' ok k
  | [], sk, b, hb => by
    refine ⟨b, true, 0, rfl, ?_⟩
    rw [untilFailure, List.append_nil, visible_replicate]
    exact ⟨hb, rfl, by simp, by simp, by simp⟩
  | x :: xs, sk, b, hb => by
    unfold qLoop untilFailure
    by_cases hr : x.result ≠ 0
    · rw [if_pos hr, if_pos hr, visible_cons_of_ne (fun hc => hr hc.1), List.map_append, List.map_cons, List.map_replicate,
        show item ⟨0, []⟩ = subcOk from rfl, show item x = sep ++ fmtD x.result by unfold item; rw [if_pos hr]; rfl]
      obtain ⟨b', ok, k, h1, h2⟩ := qFail_spec x.result sk (commit b) hb.commit
      exact ⟨b', ok, k, h1, h2.commit⟩
    · rw [if_neg hr, if_neg hr]
      by_cases hbuf : x.buf ≠ []
      · rw [if_pos hbuf, visible_cons_of_ne (fun hc => hbuf hc.2), List.map_append, List.map_cons, List.map_replicate,
          show item ⟨0, []⟩ = subcOk from rfl, show item x = sep ++ x.buf by unfold item; rw [if_neg hr, if_neg hbuf]; rfl]
        obtain ⟨b1, sk1, k1, h1, f1, g1⟩ := qSkipped_spec sk (commit b) hb.commit
        rw [h1]
        simp only
        obtain ⟨b2, ok2, h2, r2, rl2, u2, n2⟩ := appendf_item (s := sep ++ x.buf) f1.ri
        rw [h2]
        by_cases hsk : sk1 = 0
        · subst hsk
          simp only [decide_true] at f1
          cases ok2 with
          | false =>
            have := f1.trans (Filled.one r2 rl2 u2 n2)
            rw [show (sep ++ x.buf) :: (visible (untilFailure xs)).map item = [sep ++ x.buf] ++ (visible (untilFailure xs)).map item from rfl,
              ← List.append_assoc]
            exact ⟨b2, false, _, rfl, this.commit.left⟩
          | true =>
            simp only
            obtain ⟨b3, ok3, k3, h3, f3⟩ := qLoop_spec xs 0 b2 r2
            rw [h3]
            exact ⟨b3, ok3, _, rfl, (f1.trans (Filled.cons u2 rl2 f3)).commit⟩
        · -- after a failure the next append fails as well
          have hlt := g1 hsk
          simp only [hsk, decide_false] at f1
          cases ok2 with
          | true =>
            exfalso
            have hri := r2.ur
            have hul := congrArg List.length u2
            rw [used_length r2.len (by omega)] at hul
            simp only [if_true, List.length_append] at hul
            have : 0 < x.buf.length := List.length_pos_iff.mpr hbuf
            rw [rl2] at hri
            simp [subcOk, sep] at hlt hul
            have h1024 : b2.ulen + b1.rlen = 1024 := by omega
            have hb1 := f1.ri.ur
            have hfit : ¬ (b1.ulen + b1.rlen + (sep ++ x.buf).length < 1024) := by
              rw [used_length f1.ri.len (by omega)] at hlt
              simp [sep]; omega
            obtain ⟨b9, a1, -⟩ := appendf_nofit (b := b1) (s := sep ++ x.buf) f1.ri.len hb1 (by omega)
            rw [a1] at h2
            cases h2
          | false =>
            refine ⟨b2, false, k1, rfl, ?_⟩
            have f1' := f1.commit.left (j := (sep ++ x.buf) :: (visible (untilFailure xs)).map item)
            refine ⟨r2, rl2.trans f1'.rlen, ?_, by simp, f1'.lt⟩
            rw [u2]
            simpa using f1'.used
      · rw [if_neg hbuf]
        have hx' : x = ⟨0, []⟩ := by
          cases x with
          | mk r bu => simp at hr hbuf; simp [hr, hbuf]
        obtain ⟨b', ok, k, h1, h2⟩ := qLoop_spec xs (sk + 1) (commit b) hb.commit
        refine ⟨b', ok, k, h1, ?_⟩
        rw [hx', show List.replicate sk (⟨0, []⟩ : SubRes) ++ ⟨0, []⟩ :: untilFailure xs = List.replicate (sk + 1) ⟨0, []⟩ ++ untilFailure xs by
          rw [List.replicate_succ']; simp]
        exact h2.commit

theorem appendf_strict {b b' : Rep} {s : List UInt8} {ok : Bool} (hl : b.r.length = 1024) (hu : b.ulen + b.rlen < 1024)
    (h : appendf b s = .ok (b', ok)) : b'.r.length = 1024 ∧ b'.ulen + b'.rlen < 1024 := by
  by_cases hf : b.ulen + b.rlen + s.length < 1024
  · obtain ⟨b1, a1, a2, a3, a4, a5, a6⟩ := appendf_fit (b := b) (s := s) hl hf
    rw [a1] at h; cases h
    exact ⟨a2, by omega⟩
  · obtain ⟨b1, a1, a2, a3, a4, a5, a6⟩ := appendf_nofit (b := b) (s := s) hl (by omega) (by omega)
    rw [a1] at h; cases h
    exact ⟨a2, by omega⟩

theorem qFail_strict (res : Int) : ∀ (n : Nat) (b b' : Rep) (ok : Bool), b.r.length = 1024 → b.ulen + b.rlen < 1024 →
    qFail b res n = .ok (b', ok) → b'.ulen + b'.rlen < 1024
  | 0, b, b', ok, hl, hu, h => (appendf_strict hl hu h).2
  | n + 1, b, b', ok, hl, hu, h => by
    unfold qFail at h
    split at h
    · cases h
    · rename_i b1 h1
      cases h
      exact (appendf_strict hl hu h1).2
    · rename_i b1 h1
      have := appendf_strict hl hu h1
      exact qFail_strict res n b1 b' ok this.1 this.2 h

theorem qSkipped_strict : ∀ (n : Nat) (b b' : Rep) (sk : Nat), b.r.length = 1024 → b.ulen + b.rlen < 1024 →
    qSkipped b n = .ok (b', sk) → b'.r.length = 1024 ∧ b'.ulen + b'.rlen < 1024
  | 0, b, b', sk, hl, hu, h => by cases h; exact ⟨hl, hu⟩
  | n + 1, b, b', sk, hl, hu, h => by
    unfold qSkipped at h
    split at h
    · cases h
    · rename_i b1 h1
      cases h
      exact appendf_strict hl hu h1
    · rename_i b1 h1
      have := appendf_strict hl hu h1
      exact qSkipped_strict n b1 b' sk this.1 this.2 h

theorem qLoop_strict : ∀ (xs : List SubRes) (sk : Nat) (b b' : Rep) (ok : Bool), b.r.length = 1024 → b.ulen + b.rlen < 1024 →
    qLoop b sk xs = .ok (b', ok) → b'.ulen + b'.rlen < 1024
  | [], sk, b, b', ok, hl, hu, h => by cases h; exact hu
  | x :: xs, sk, b, b', ok, hl, hu, h => by
    unfold qLoop at h
    split at h
    · exact qFail_strict x.result sk (commit b) b' ok hl hu h
    · split at h
      · split at h
        · cases h
        · rename_i b1 sk1 h1
          have e1 := qSkipped_strict sk (commit b) b1 sk1 hl hu h1
          split at h
          · cases h
          · rename_i b2 h2
            cases h
            exact (appendf_strict e1.1 e1.2 h2).2
          · rename_i b2 h2
            have e2 := appendf_strict e1.1 e1.2 h2
            exact qLoop_strict xs sk1 b2 b' ok e2.1 e2.2 h
      · exact qLoop_strict xs (sk + 1) (commit b) b' ok hl hu h

/-- The end of both handlers. -/
theorem end_spec {pre : List UInt8} {b b' : Rep} {items : List (List UInt8)} {ok : Bool} {k : Nat} (f : Filled b items b' ok k) (h : used b = pre)
    (hr : 2 ≤ b.rlen ∨ (ok = true ∧ pre.length + (items.flatten).length ≤ 1022)) (hr8 : ok = false → b'.ulen + 8 ≤ 1024) :
    (match (.ok (b', ok) : Except Fault (Rep × Bool)) with
     | .error e => (.error e : Except Fault (List UInt8))
     | .ok (b, true) => finishLine b
     | .ok (b, false) => match must (append b subcErr true) with
       | .error e => .error e
       | .ok b => finishLine b : Except Fault (List UInt8)) =
      .ok (pre ++ (items.take k).flatten ++ (if ok then [] else subcErr) ++ [10]) := by
  have hl := f.ri.len
  have hu := f.ri.ur
  cases ok with
  | true =>
    simp only
    have hle : b'.ulen + 2 ≤ 1024 := by
      rcases hr with hr | ⟨-, hr⟩
      · have := f.rlen; omega
      · have := congrArg List.length f.used
        rw [used_length hl (by omega), h, f.all rfl, List.take_length, List.length_append] at this
        omega
    rw [finishLine_ok hl hle, f.used, h]
    simp
  | false =>
    simp only
    have h8 := hr8 rfl
    obtain ⟨b2, a1, a2, a3, a4, a5, a6⟩ := append_fit (b := b') (s := subcErr) (fin := true) hl (by simp [subcErr, sep]) (by simp [subcErr, sep]; omega)
    have htl : (Op.append subcErr true).text = subcErr := rfl
    rw [htl] at a5 a6
    rw [a1]
    simp only [must]
    have : subcErr.length = 6 := rfl
    rw [finishLine_ok a2 (by omega)]
    have e : used b2 = used b' ++ subcErr := a6
    rw [e, f.used, h]
    simp

/-! ### Properties -/

/-- **C19**, for every use by the protocol of the handlers: no access outside of the buffer, the text collected is the
concatenation of the accepted texts, and the bytes sent are a prefix of it. -/
theorem C19_buffer_partial (ops : List Op) (h : Protocol ops) :
    ∃ b oks, runOps repNew ops = .ok (b, oks) ∧ oks.length = ops.length ∧ b.ulen ≤ 1024 ∧
      b.r.take b.ulen = accepted ops oks ∧ sent b <+: accepted ops oks := by
  obtain ⟨b, oks, h1, h2, h3, h4, h5, h6⟩ := runProtocol h repNew ri_new
  have e : used repNew = [] := rfl
  rw [e, List.nil_append] at h6
  refine ⟨b, oks, h1, h5, h3, h6, ?_⟩
  rw [← h6]
  unfold sent used
  exact List.take_prefix_take_left h4

/-- An operation that is refused leaves the reply unchanged, and an operation is accepted exactly if it fits. -/
theorem C19_refused_unchanged (ops : List Op) (s : List UInt8) (hs : s ≠ []) (hp : Protocol ops)
    (hnf : ∀ op ∈ ops, ∀ s, op ≠ .append s true) :
    ∃ b oks, runOps repNew ops = .ok (b, oks) ∧ b.ulen + b.rlen ≤ 1024 ∧
      (∃ b' ok, append b s false = .ok (b', ok) ∧ (ok = true ↔ b.ulen + b.rlen + s.length ≤ 1024) ∧
        (ok = false → b' = b)) ∧
      (∃ b' ok, appendf b s = .ok (b', ok) ∧ (ok = true ↔ b.ulen + b.rlen + s.length < 1024) ∧
        (ok = false → sent b' = sent b ∧ b'.ulen = b.ulen ∧ b'.r.take b'.ulen = b.r.take b.ulen ∧ b'.clen = b.clen ∧ b'.rlen = b.rlen)) := by
  have key : ∀ (ops : List Op) (b : Rep), RI b → Protocol ops → (∀ op ∈ ops, ∀ s, op ≠ .append s true) →
      ∃ b' oks, runOps b ops = .ok (b', oks) ∧ RI b' := by
    intro ops
    induction ops with
    | nil => intro b hb _ _; exact ⟨b, [], rfl, hb⟩
    | cons op ops ih =>
      intro b hb hp hnf
      have hrest : ∀ op ∈ ops, ∀ s, op ≠ .append s true := fun o ho => hnf o (by simp [ho])
      have hl := hb.len
      have hu := hb.ur
      have hc := hb.cu
      cases hp with
      | @append s _ hs hp =>
        by_cases hf : b.ulen + b.rlen + s.length ≤ 1024
        · obtain ⟨b1, a1, a2, a3, a4, a5, a6⟩ := append_fit (b := b) (s := s) (fin := false) hl hs (by simpa using hf)
          have htl : (Op.append s false).text.length ≤ s.length := by simp only [Op.text]; split <;> simp
          obtain ⟨b', oks, h1, h2⟩ := ih b1 ⟨a2, by omega, by omega⟩ hp hrest
          exact ⟨b', true :: oks, by simp [runOps, a1, h1], h2⟩
        · have a1 := append_nofit (b := b) (s := s) (fin := false) hl (by simpa using hu) (by simp; omega)
          obtain ⟨b', oks, h1, h2⟩ := ih b hb hp hrest
          exact ⟨b', false :: oks, by simp [runOps, a1, h1], h2⟩
      | @appendf s _ hp =>
        obtain ⟨b1, ok, h1, r1, -⟩ := appendf_item (s := s) hb
        obtain ⟨b', oks, h2, h3⟩ := ih b1 r1 hp hrest
        exact ⟨b', ok :: oks, by simp [runOps, h1, h2], h3⟩
      | commit hp =>
        obtain ⟨b', oks, h2, h3⟩ := ih (commit b) hb.commit hp hrest
        exact ⟨b', true :: oks, by simp [runOps, h2], h3⟩
      | @reserve n _ hp =>
        have hcb := cbrl_ri hb.len true (by simp; omega)
        simp only [if_true] at hcb
        by_cases hn : cbrl b true < n
        · obtain ⟨b', oks, h1, h2⟩ := ih b hb hp hrest
          exact ⟨b', false :: oks, by simp [runOps, reserve, hn, h1], h2⟩
        · obtain ⟨b', oks, h1, h2⟩ := ih { b with rlen := n } ⟨hb.len, hb.cu, by simp only; omega⟩ hp hrest
          exact ⟨b', true :: oks, by simp [runOps, reserve, hn, h1], h2⟩
      | @final s _ hs hp => exact absurd rfl (hnf _ (by simp) s)
  obtain ⟨b, oks, h1, hb⟩ := key ops repNew ri_new hp hnf
  have hl := hb.len
  have hu := hb.ur
  have hc := hb.cu
  refine ⟨b, oks, h1, hu, ?_, ?_⟩
  · by_cases hf : b.ulen + b.rlen + s.length ≤ 1024
    · obtain ⟨b1, a1, -⟩ := append_fit (b := b) (s := s) (fin := false) hl hs (by simpa using hf)
      exact ⟨b1, true, a1, by simp [hf], by simp⟩
    · exact ⟨b, false, append_nofit hl (by simpa using hu) (by simp; omega), by simp; omega, fun _ => rfl⟩
  · by_cases hf : b.ulen + b.rlen + s.length < 1024
    · obtain ⟨b1, a1, -⟩ := appendf_fit (b := b) (s := s) hl hf
      exact ⟨b1, true, a1, by simp [hf], by simp⟩
    · obtain ⟨b1, a1, a2, a3, a4, a5, a6⟩ := appendf_nofit (b := b) (s := s) hl hu (by omega)
      refine ⟨b1, false, a1, by simp; omega, fun _ => ⟨?_, a5, a6, a4, a3⟩⟩
      unfold sent
      rw [a4]
      have e := congrArg (List.take b.clen) a6
      unfold used at e
      rw [a5, List.take_take, List.take_take, Nat.min_eq_left hc] at e
      exact e

/-- Storing the cookie (rtpp_command.c:419-420) succeeds exactly for cookies of at most 1022 bytes. -/
theorem C19_cookie (c : List UInt8) :
    (c.length ≤ 1022 → ∃ b, appendf repNew (c ++ [32]) = .ok (b, true) ∧ b.r.take b.ulen = c ++ [32] ∧
      sent (commit b) = c ++ [32] ∧ b.r.length = 1024 ∧ b.rlen = 0) ∧
    (1022 < c.length → must (appendf repNew (c ++ [32])) = .error .abort) := by
  constructor
  · intro h
    obtain ⟨b1, a1, a2, a3, a4, a5, a6⟩ := appendf_fit (b := repNew) (s := c ++ [32]) ri_new.len (by rw [List.length_append]; simp only [repNew, List.length_singleton]; omega)
    have e : used repNew = [] := rfl
    rw [e, List.nil_append] at a6
    exact ⟨b1, a1, a6, a6, a2, a3⟩
  · intro h
    obtain ⟨b1, a1, -⟩ := appendf_nofit (b := repNew) (s := c ++ [32]) ri_new.len ri_new.ur (by rw [List.length_append]; simp only [repNew, List.length_singleton]; omega)
    rw [a1]; rfl

/-- Delivering a number or an error: whatever was not committed is dropped; the reply is the committed text, the number and a newline
if this fits, otherwise the server aborts. -/
theorem C19_deliver (b : Rep) (n : Int) (hl : b.r.length = 1024) (hc : b.clen ≤ b.ulen) (hu : b.ulen + b.rlen ≤ 1024) :
    deliverNumber b n = (if b.clen + b.rlen + (fmtD n).length + 1 < 1024 then .ok (sent b ++ (fmtD n ++ [10])) else .error .abort) ∧
    deliverError b n = (if b.clen + b.rlen + (fmtD n).length + 2 < 1024 then .ok (sent b ++ (69 :: fmtD n ++ [10])) else .error .abort) := by
  have key : ∀ s : List UInt8,
      (match must (appendf { b with ulen := b.clen } s) with
        | .error e => .error e
        | .ok b' => .ok (sent (commit b'))) =
      (if b.clen + b.rlen + s.length < 1024 then .ok (sent b ++ s) else .error .abort : Except Fault (List UInt8)) := by
    intro s
    by_cases hf : b.clen + b.rlen + s.length < 1024
    · obtain ⟨b1, a1, a2, a3, a4, a5, a6⟩ := appendf_fit (b := { b with ulen := b.clen }) (s := s) hl hf
      rw [if_pos hf, a1]
      simp only [must, sent, commit]
      rw [a6]; rfl
    · obtain ⟨b1, a1, -⟩ := appendf_nofit (b := { b with ulen := b.clen }) (s := s) hl (by simp only; omega) (by simp only; omega)
      rw [if_neg hf, a1]; rfl
  refine ⟨(key (fmtD n ++ [10])).trans ?_, (key (69 :: fmtD n ++ [10])).trans ?_⟩
  · simp only [List.length_append, List.length_singleton, Nat.add_assoc]
  · simp only [List.length_append, List.length_cons, List.length_nil, List.cons_append]
    rw [show b.clen + b.rlen + ((fmtD n).length + (0 + 1) + 1) = b.clen + b.rlen + (fmtD n).length + 2 by omega]

/-- The statement that no reply aborts the server is false: an error reply to a command with a cookie of 1020 bytes. -/
theorem C19_error_abort_counterexample :
    ∃ c : List UInt8, c.length ≤ 1022 ∧
      ∃ b, appendf repNew (c ++ [32]) = .ok (b, true) ∧ deliverError (commit b) 1 = .error .abort := by
  refine ⟨List.replicate 1020 97, by rw [List.length_replicate]; omega, ?_⟩
  obtain ⟨b1, a1, a2, a3, a4, a5, a6⟩ := appendf_fit (b := repNew) (s := List.replicate 1020 97 ++ [32]) ri_new.len
    (by rw [List.length_append, List.length_replicate]; simp only [repNew, List.length_singleton]; omega)
  refine ⟨b1, a1, ?_⟩
  rw [List.length_append, List.length_replicate] at a5
  have hu : b1.ulen = 1021 := by rw [a5]; rfl
  have hr : b1.rlen = 0 := a3
  rw [(C19_deliver (commit b1) 1 a2 (Nat.le_refl _) (by simp only [commit]; omega)).2, if_neg]
  have : (fmtD 1).length = 1 := by decide +kernel
  simp only [commit]
  omega

/-- The statement without the protocol is false: text added with regard to the reservation, after the reservation was used,
is written past the buffer. -/
theorem C19_overrun_counterexample :
    ∃ ops : List Op, (∀ s fin, Op.append s fin ∈ ops → s ≠ []) ∧ (match runOps repNew ops with | .error .ub => true | _ => false) = true := by
  refine ⟨[.reserve 8, .appendf (List.replicate 1015 97), .append (List.replicate 8 98) true, .appendf [99]], ?_, ?_⟩
  · intro s fin h
    rcases List.mem_cons.mp h with h | h
    · cases h
    rcases List.mem_cons.mp h with h | h
    · cases h
    rcases List.mem_cons.mp h with h | h
    · cases h; decide
    rcases List.mem_cons.mp h with h | h
    · cases h
    · cases h
  · decide +kernel

/-- **C19** for `ul_reply_port` (replies to U and L): if what precedes the results leaves eight bytes, the reply is the cookie, port and
address, the results that fit, `&& -1` if some did not, and a newline; it is cut only if it would not fit. -/
theorem C19_ul_reply_partial (b : Rep) (pre pa : List UInt8) (subc : List SubRes)
    (hl : b.r.length = 1024) (hc : b.clen ≤ b.ulen) (hpre : b.r.take b.ulen = pre) (hu : b.ulen ≤ 1024)
    (hlen : pre.length + pa.length ≤ if subc = [] then 1021 else 1016) :
    ∃ k, k ≤ (visible subc).length ∧
      ulReplyPort b pa subc = .ok (pre ++ pa ++ (((visible subc).map item).take k).flatten ++
        (if k = (visible subc).length then [] else [32, 38, 38, 32, 45, 49]) ++ [10]) ∧
      (k < (visible subc).length → 1016 ≤ (pre ++ pa ++ (((visible subc).map item).take (k + 1)).flatten).length) := by
  have hpl : pre.length = b.ulen := by rw [← hpre]; simp; omega
  have hlen' : pre.length + pa.length ≤ 1021 := by split at hlen <;> omega
  unfold ulReplyPort
  have hcb := cbrl_ri hl true (by simp; omega)
  simp only [if_true] at hcb
  have hres : reserve b 2 = ({ b with rlen := 2 }, true) := by
    unfold reserve; rw [if_neg (by omega)]
  rw [hres]
  simp only [must]
  obtain ⟨b1, a1, a2, a3, a4, a5, a6⟩ := appendf_fit (b := { b with rlen := 2 }) (s := pa) hl (by simp only; omega)
  rw [a1]
  simp only at a3 a4 a5
  have hu1 : used b1 = pre ++ pa := by
    have : used { b with rlen := 2 } = pre := hpre
    rw [this] at a6; exact a6
  simp only
  by_cases hs : subc = []
  · subst hs
    simp only [ne_eq, not_true_eq_false, if_false]
    refine ⟨0, by simp, ?_, by simp [visible]⟩
    simp only [ulLoop]
    rw [finishLine_ok a2 (by omega), hu1]
    simp [visible]
  · rw [if_neg hs] at hlen
    simp only [ne_eq, hs, not_false_eq_true, if_true]
    have hcb1 := cbrl_ri a2 true (by simp; omega)
    simp only [if_true] at hcb1
    have hres1 : reserve b1 (subcErr.length + 2) = ({ b1 with rlen := 8 }, true) := by
      unfold reserve
      rw [if_neg (by rw [hcb1]; simp [subcErr, sep]; omega)]; rfl
    rw [hres1]
    simp only
    have hri : RI { b1 with rlen := 8 } := ⟨a2, by simp only; omega, by simp only; omega⟩
    obtain ⟨b2, ok, k, h1, f⟩ := ulLoop_spec subc 0 _ hri
    simp only [List.replicate_zero, List.nil_append] at f
    rw [h1]
    have hfr : b2.rlen = 8 := f.rlen
    have hue := f.ri.ur
    have hspec := end_spec (pre := pre ++ pa) f hu1 (.inl (by simp)) (fun _ => by omega)
    refine ⟨k, ?_, ?_, ?_⟩
    · cases ok with
      | true => rw [f.all rfl]; simp
      | false => have := (f.lt rfl).1; simp at this; omega
    · have hk : (if k = (visible subc).length then ([] : List UInt8) else [32, 38, 38, 32, 45, 49]) = if ok then [] else subcErr := by
        cases ok with
        | true => rw [if_pos (by have := f.all rfl; simpa using this)]; rfl
        | false =>
          have := (f.lt rfl).1
          simp only [List.length_map] at this
          rw [if_neg (by omega)]; rfl
      rw [hk]
      exact hspec
    · intro hk
      have hok : ok = false := by
        cases ok with
        | false => rfl
        | true => have := f.all rfl; simp at this; omega
      have := (f.lt hok).2
      have hu1' : used { b1 with rlen := 8 } = pre ++ pa := hu1
      rw [hu1'] at this
      simp only at this
      omega

/-- **C19** for the end of `handle_query`: the same, if what precedes the results leaves eight bytes. -/
theorem C19_query_reply_partial (b : Rep) (pre : List UInt8) (subc : List SubRes)
    (hl : b.r.length = 1024) (hc : b.clen ≤ b.ulen) (hpre : b.r.take b.ulen = pre) (hu : b.ulen ≤ 1024)
    (hlen : pre.length ≤ if subc = [] then 1022 else 1016) :
    ∃ k, k ≤ (visible (untilFailure subc)).length ∧
      queryTail b subc = .ok (pre ++ (((visible (untilFailure subc)).map item).take k).flatten ++
        (if k = (visible (untilFailure subc)).length then [] else [32, 38, 38, 32, 45, 49]) ++ [10]) ∧
      (k < (visible (untilFailure subc)).length →
        1017 ≤ (pre ++ (((visible (untilFailure subc)).map item).take (k + 1)).flatten).length) := by
  have hpl : pre.length = b.ulen := by rw [← hpre]; simp; omega
  unfold queryTail
  by_cases hs : subc = []
  · subst hs
    rw [if_pos rfl] at hlen
    simp only [ne_eq, not_true_eq_false, if_false]
    refine ⟨0, by simp, ?_, by simp [visible, untilFailure]⟩
    simp only [qLoop]
    rw [finishLine_ok hl (by omega)]
    unfold used
    rw [hpre]
    simp [visible, untilFailure]
  · rw [if_neg hs] at hlen
    simp only [ne_eq, hs, not_false_eq_true, if_true]
    have hcb1 := cbrl_ri hl true (by simp; omega)
    simp only [if_true] at hcb1
    have hres1 : reserve b (subcErr.length + 1) = ({ b with rlen := 7 }, true) := by
      unfold reserve
      rw [if_neg (by rw [hcb1]; simp [subcErr, sep]; omega)]; rfl
    rw [hres1]
    simp only [must]
    have hri : RI { b with rlen := 7 } := ⟨hl, hc, by simp only; omega⟩
    obtain ⟨b2, ok, k, h1, f⟩ := qLoop_spec subc 0 _ hri
    simp only [List.replicate_zero, List.nil_append] at f
    rw [h1]
    have hfr : b2.rlen = 7 := f.rlen
    have hue := f.ri.ur
    have hub : used { b with rlen := 7 } = pre := hpre
    -- a failed append leaves the byte for the terminating NUL unused
    have h8 : ok = false → b2.ulen + 8 ≤ 1024 := by
      intro hok
      have := qLoop_strict subc 0 { b with rlen := 7 } _ ok hl (by simp only; omega) h1
      omega
    have hspec := end_spec (pre := pre) f hub (.inl (by simp)) h8
    refine ⟨k, ?_, ?_, ?_⟩
    · cases ok with
      | true => rw [f.all rfl]; simp
      | false => have := (f.lt rfl).1; simp at this; omega
    · have hk : (if k = (visible (untilFailure subc)).length then ([] : List UInt8) else [32, 38, 38, 32, 45, 49]) = if ok then [] else subcErr := by
        cases ok with
        | true => rw [if_pos (by have := f.all rfl; simpa using this)]; rfl
        | false =>
          have := (f.lt rfl).1
          simp only [List.length_map] at this
          rw [if_neg (by omega)]; rfl
      rw [hk]
      exact hspec
    · intro hk
      have hok : ok = false := by
        cases ok with
        | false => rfl
        | true => have := f.all rfl; simp at this; omega
      have := (f.lt hok).2
      rw [hub] at this
      simp only at this
      omega

/-- One byte is missing from the reservation in `handle_query`: with 1017 bytes before the results, the reservation succeeds, a failed
sub-command makes the server abort. -/
theorem C19_query_abort_counterexample :
    ∃ (b : Rep) (subc : List SubRes), b.r.length = 1024 ∧ b.clen ≤ b.ulen ∧ b.rlen = 0 ∧ b.ulen = 1017 ∧
      (reserve b 7).2 = true ∧ (match queryTail b subc with | .error .abort => true | _ => false) = true := by
  refine ⟨⟨List.replicate 1024 97, 1017, 0, 0⟩, [⟨-1, []⟩], by rw [List.length_replicate], by decide, rfl, rfl, by decide +kernel, by decide +kernel⟩

/-- A protocol run that fills the buffer: text is refused, the reservation remains usable. -/
example : Protocol [.reserve 8, .appendf (List.replicate 1000 97), .appendf (List.replicate 30 97), .append [32, 38] true, .commit] :=
  .reserve (.appendf (.appendf (.final (by decide) (by simp))))

example : (match runOps repNew [.reserve 8, .appendf (List.replicate 1000 97), .appendf (List.replicate 30 97), .append [32, 38] true, .commit] with
    | .ok (b, oks) => decide (oks = [true, true, false, true, true] ∧ b.clen = 1002)
    | .error _ => false) = true := by decide +kernel

/-- U with four results, the last of which is not reported: `c 5 && 0 && 7 && -2`. -/
example : (match ulReplyPort ⟨[99, 32] ++ List.replicate 1022 0, 2, 2, 0⟩ [53] [⟨0, []⟩, ⟨0, [55]⟩, ⟨-2, []⟩, ⟨0, []⟩] with
    | .ok o => decide (o = [99, 32, 53, 32, 38, 38, 32, 48, 32, 38, 38, 32, 55, 32, 38, 38, 32, 45, 50, 10])
    | .error _ => false) = true := by decide +kernel

end Verif.Cmd
