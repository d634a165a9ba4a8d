import Verif.Cmd.Split
import Verif.Cmd.SwarProps

/-!
# C15: splitting a control message

Full claim: every message is either rejected with a parse error or split faithfully.  It is false
for a datagram with a cookie of 1023 bytes or more: the server aborts
(`C15_long_cookie_counterexample`).  It is proved for all other messages
(`C15_split_partial`).
-/

namespace Verif.Cmd

/-! ### Specification -/

/-- `fs` are the fields of a message: the maximal non-empty sequences of non-blank bytes. -/
inductive Fields : List UInt8 → List Tok → Prop
  | nil {bs : List UInt8} (h : ∀ c ∈ bs, Blank c) : Fields bs []
  | cons {bs f rest : List UInt8} {fs : List Tok} (hb : ∀ c ∈ bs, Blank c) (hne : f ≠ []) (hf : ∀ c ∈ f, ¬ Blank c)
      (hr : ∀ c ∈ rest.head?, Blank c) (h : Fields rest fs) : Fields (bs ++ (f ++ rest)) (f :: fs)

/-- The separator of sub-commands. -/
def amp : Tok := [38, 38]

/-- The fields are a command followed by sub-commands: `gs` are its argument vectors. -/
structure Accepts (toks : List Tok) (gs : List (List Tok)) : Prop where
  join : toks = List.intercalate [amp] gs
  nonempty : ∀ g ∈ gs, g ≠ []
  some : gs ≠ []
  plain : ∀ g ∈ gs, amp ∉ g
  argc : ∀ g ∈ gs, g.length ≤ 23
  subc : gs.length ≤ 16
  noNul : ∀ t ∈ toks, (0 : UInt8) ∉ t

/-- What a message without cookie must yield. -/
def Faithful (cookie : Option Tok) (toks : List Tok) (out : SplitOut) : Prop :=
  (∃ args subc, out = .cmd cookie args subc ∧ Accepts toks (args :: subc)) ∨
  (out = .synerr ∧ ¬ ∃ gs, Accepts toks gs)

/-! ### The fields of a message are unique -/

/-- Computes the fields. -/
def ff : List UInt8 → List UInt8 → List Tok
  | [], cur => if cur = [] then [] else [cur]
  | c :: l, cur => if Blank c then (if cur = [] then ff l [] else cur :: ff l []) else ff l (cur ++ [c])

theorem ff_blank {bs s : List UInt8} (h : ∀ c ∈ bs, Blank c) : ff (bs ++ s) [] = ff s [] := by
  induction bs with
  | nil => rfl
  | cons b bs ih =>
    rw [List.cons_append, ff, if_pos (h b (by simp)), if_pos rfl]
    exact ih fun c hc => h c (by simp [hc])

theorem ff_field {f s : List UInt8} (h : ∀ c ∈ f, ¬ Blank c) (cur : List UInt8) : ff (f ++ s) cur = ff s (cur ++ f) := by
  induction f generalizing cur with
  | nil => simp
  | cons b f ih =>
    rw [List.cons_append, ff, if_neg (h b (by simp)), ih (fun c hc => h c (by simp [hc]))]
    simp

theorem Fields.unique {s : List UInt8} {fs : List Tok} (h : Fields s fs) : fs = ff s [] := by
  induction h with
  | @nil bs h => have := ff_blank (s := []) h; rw [List.append_nil] at this; rw [this]; rfl
  | @cons bs f rest fs hb hne hf hr _ ih =>
    rw [ff_blank hb, ff_field hf, List.nil_append, ih]
    cases rest with
    | nil => simp [ff, hne]
    | cons b rest =>
      have := hr b (by simp)
      rw [ff, ff, if_pos this, if_pos rfl, if_pos this, if_neg hne]

/-! ### Lemmas: the loop visits the fields -/

/-- The processing of a list of fields. -/
def runToks (umode : Bool) (guard : Tok → Guard) (a : Acc) : List Tok → Except Fault SplitOut
  | [] => .ok (finish umode a)
  | t :: ts =>
    match stepTok umode guard a t (if 0 ∈ t then 0 else t.length) with
    | .error e => .error e
    | .ok (.inl o) => .ok o
    | .ok (.inr a') => runToks umode guard a' ts

theorem stepTok_slen {umode guard a t} {n : Nat} (h1 : n ≤ t.length) (h2 : n < t.length ↔ (0 : UInt8) ∈ t) (hne : t ≠ []) :
    stepTok umode guard a t n = stepTok umode guard a t (if 0 ∈ t then 0 else t.length) := by
  by_cases h0 : (0 : UInt8) ∈ t
  · have := h2.mpr h0
    have hl : 0 < t.length := by omega
    unfold stepTok
    rw [if_pos h0, if_neg (by omega), if_pos this, if_neg (by omega), if_pos hl]
  · have : n = t.length := by
      have := mt h2.mp h0
      omega
    rw [if_neg h0, this]

theorem findIdx_none {l : List UInt8} {p : UInt8 → Bool} (h : ∀ c ∈ l, p c = false) : l.findIdx? p = none := by
  rw [List.findIdx?_eq_none_iff]; exact h

theorem findIdx_append {f l : List UInt8} {c : UInt8} {p : UInt8 → Bool} (h : ∀ c ∈ f, p c = false) (hc : p c = true) :
    (f ++ c :: l).findIdx? p = some f.length := by
  induction f with
  | nil => simp [List.findIdx?_cons, hc]
  | cons x f ih =>
    rw [List.cons_append, List.findIdx?_cons, h x (by simp), ih (fun c hc => h c (by simp [hc]))]
    simp

/-- Splitting off the first field. -/
theorem first_field (s : List UInt8) : ∃ f rest, s = f ++ rest ∧ (∀ c ∈ f, ¬ Blank c) ∧ ∀ c ∈ rest.head?, Blank c := by
  induction s with
  | nil => exact ⟨[], [], rfl, by simp, by simp⟩
  | cons x s ih =>
    by_cases hx : Blank x
    · exact ⟨[], x :: s, rfl, by simp, by simpa using hx⟩
    · obtain ⟨f, rest, h1, h2, h3⟩ := ih
      refine ⟨x :: f, rest, by rw [h1]; rfl, ?_, h3⟩
      intro c hc
      rcases List.mem_cons.mp hc with rfl | hc
      · exact hx
      · exact h2 c hc

theorem Fields.blank {b : UInt8} {s : List UInt8} {fs} (hb : Blank b) (h : Fields s fs) : Fields (b :: s) fs := by
  cases h with
  | nil h =>
    refine .nil ?_
    intro c hc
    rcases List.mem_cons.mp hc with rfl | hc
    · exact hb
    · exact h c hc
  | @cons bs f rest fs hbs hne hf hr h =>
    refine Fields.cons (bs := b :: bs) ?_ hne hf hr h
    intro c hc
    rcases List.mem_cons.mp hc with rfl | hc
    · exact hb
    · exact hbs c hc

theorem mapByte_zero (c : UInt8) : (mapByte c == 0) = decide (Blank c) := by
  unfold mapByte
  by_cases h : Blank c
  · simp [h]
  · simp [h]

theorem textByte_id {c : UInt8} (h : ¬ Blank c) : textByte c = c := by unfold textByte; rw [if_neg h]

theorem map_text_id {f : List UInt8} (h : ∀ c ∈ f, ¬ Blank c) : f.map textByte = f := by
  conv => rhs; rw [← List.map_id f]
  exact List.map_congr_left fun c hc => textByte_id (h c hc)

/-- Length of the string that starts at a field and ends at a NUL after it. -/
theorem strlen_field {f l : List UInt8} : ∃ n, (f ++ 0 :: l).findIdx? (· == 0) = some n ∧ n ≤ f.length ∧
    (n < f.length ↔ (0 : UInt8) ∈ f) := by
  induction f with
  | nil => exact ⟨0, by simp [List.findIdx?_cons], by simp, by simp⟩
  | cons x f ih =>
    obtain ⟨n, h1, h2, h3⟩ := ih
    by_cases hx : x = 0
    · exact ⟨0, by simp [List.findIdx?_cons, hx], by simp, by simp [hx]⟩
    · refine ⟨n + 1, ?_, by simp; omega, ?_⟩
      · rw [List.cons_append, List.findIdx?_cons, h1]
        simp [hx]
      · simp only [List.length_cons, List.mem_cons]
        have : ¬ (0 = x) := fun h => hx h.symm
        rw [show n + 1 < f.length + 1 ↔ n < f.length by omega, h3]
        simp [this]

theorem tokLoop_spec (umode : Bool) (guard : Tok → Guard) (msg buf mbuf tail mtail : List UInt8)
    (hbuf : buf = msg.map textByte ++ 0 :: tail) (hm : mbuf = msg.map mapByte ++ mtail) :
    ∀ (f : Nat) (mp : Nat) (a : Acc), msg.length - mp ≤ f → mp ≤ msg.length + 1 →
      ∃ fs, Fields (msg.drop mp) fs ∧ tokLoop umode guard buf mbuf msg.length mp a = runToks umode guard a fs
  | f, mp, a, hf, hmp => by
    by_cases hlt : mp < msg.length
    · obtain ⟨fl, rest, h1, h2, h3⟩ := first_field (msg.drop mp)
      have hlen : fl.length + rest.length = msg.length - mp := by
        have := congrArg List.length h1
        simp at this; omega
      have hbd : buf.drop mp = (msg.drop mp).map textByte ++ 0 :: tail := by
        rw [hbuf, List.drop_append_of_le_length (by simp; omega), List.map_drop]
      have hmd : (mbuf.drop mp).take (msg.length - mp) = (msg.drop mp).map mapByte := by
        rw [hm, List.drop_append_of_le_length (by simp; omega), List.take_append_of_le_length (by simp),
          ← List.map_drop, List.take_of_length_le (by simp)]
      have hmem : memchr0 mbuf mp msg.length = .ok ((fl.map mapByte ++ rest.map mapByte).findIdx? (· == 0)) := by
        unfold memchr0
        rw [if_pos (by rw [hm]; simp), hmd, h1, List.map_append]
      have hnf : ∀ c ∈ fl.map mapByte, (c == 0) = false := by
        intro c hc
        obtain ⟨x, hx, rfl⟩ := List.mem_map.mp hc
        rw [mapByte_zero]
        exact decide_eq_false (h2 x hx)
      unfold tokLoop
      rw [dif_pos hlt, hmem]
      cases rest with
      | nil =>
        have hfne : fl ≠ [] := by rintro rfl; simp at hlen; omega
        rw [List.map_nil, List.append_nil, findIdx_none hnf]
        simp only
        rw [h1, List.append_nil, map_text_id h2] at hbd
        unfold strlen
        rw [hbd]
        obtain ⟨n, n1, n2, n3⟩ := strlen_field (f := fl) (l := tail)
        rw [n1]
        simp only
        have htk : (fl ++ 0 :: tail).take (msg.length - mp) = fl := by
          rw [← hlen]; simp
        rw [htk, stepTok_slen n2 n3 hfne]
        refine ⟨[fl], ?_, ?_⟩
        · rw [h1]
          exact Fields.cons (bs := []) (by simp) hfne h2 h3 (.nil (by simp))
        · rfl
      | cons b rest =>
        have hb : Blank b := h3 b (by simp)
        have hfi : (fl.map mapByte ++ (b :: rest).map mapByte).findIdx? (· == 0) = some fl.length := by
          rw [List.map_cons, findIdx_append hnf (by rw [mapByte_zero]; exact decide_eq_true hb)]
          simp
        rw [hfi]
        have hdr : msg.drop (mp + fl.length + 1) = rest := by
          rw [Nat.add_assoc, ← List.drop_drop, h1, ← List.drop_drop, List.drop_left]; rfl
        simp only [List.length_cons] at hlen
        cases f with
        | zero => omega
        | succ f =>
        cases fl with
        | nil =>
          simp only [List.length_nil]
          obtain ⟨fs, g1, g2⟩ := tokLoop_spec umode guard msg buf mbuf tail mtail hbuf hm f (mp + 1) a (by omega) (by omega)
          refine ⟨fs, ?_, g2⟩
          rw [h1]
          simp only [List.nil_append]
          simp only [List.length_nil, Nat.add_zero] at hdr
          rw [hdr] at g1
          exact g1.blank hb
        | cons x fl =>
          simp only [List.length_cons]
          rw [h1, List.map_append, map_text_id h2, List.map_cons, List.append_assoc, List.cons_append,
            show textByte b = 0 by unfold textByte; rw [if_pos hb]] at hbd
          replace hbd : buf.drop mp = (x :: fl) ++ 0 :: (rest.map textByte ++ 0 :: tail) := by rw [hbd]; rfl
          unfold strlen
          rw [hbd]
          obtain ⟨n, n1, n2, n3⟩ := strlen_field (f := x :: fl) (l := rest.map textByte ++ 0 :: tail)
          rw [n1]
          simp only
          have htk : ((x :: fl) ++ 0 :: (rest.map textByte ++ 0 :: tail)).take (fl.length + 1) = x :: fl := by
            rw [show fl.length + 1 = (x :: fl).length by rfl, List.take_left]
          rw [htk, stepTok_slen n2 n3 (by simp)]
          have hF : ∀ fs, Fields rest fs → Fields (x :: fl ++ b :: rest) ((x :: fl) :: fs) := by
            intro fs hfs
            exact Fields.cons (bs := []) (by simp) (by simp) h2 (by simpa using hb) (hfs.blank hb)
          simp only [List.length_cons] at hdr
          have IH := fun a => tokLoop_spec umode guard msg buf mbuf tail mtail hbuf hm f (mp + (fl.length + 1) + 1) a (by omega)
            (by simp only [List.length_cons] at hlen; omega)
          rw [h1]
          cases hst : stepTok umode guard a (x :: fl) (if 0 ∈ x :: fl then 0 else (x :: fl).length) with
          | error e =>
            obtain ⟨fs, g1, -⟩ := IH a
            rw [hdr] at g1
            refine ⟨_, hF fs g1, ?_⟩
            simp only [runToks, hst]
          | ok r =>
            cases r with
            | inl o =>
              obtain ⟨fs, g1, -⟩ := IH a
              rw [hdr] at g1
              refine ⟨_, hF fs g1, ?_⟩
              simp only [runToks, hst]
            | inr a' =>
              obtain ⟨fs, g1, g2⟩ := IH a'
              rw [hdr] at g1
              refine ⟨_, hF fs g1, ?_⟩
              simp only [runToks, hst]
              exact g2
    · refine ⟨[], ?_, ?_⟩
      · rw [List.drop_eq_nil_of_le (by omega)]; exact .nil (by simp)
      · unfold tokLoop
        rw [dif_neg hlt]; rfl

/-! ### Lemmas: processing of the fields -/

theorem isAmpAmp_iff (t : Tok) : isAmpAmp t = true ↔ t = amp := by simp [isAmpAmp, amp]

/-- The fields processed so far. -/
def sofar (a : Acc) : List Tok := List.intercalate [amp] (a.done ++ [a.cur])

theorem intercalate_snoc (s : List Tok) (l : List (List Tok)) (x : List Tok) (hl : l ≠ []) :
    List.intercalate s (l ++ [x]) = List.intercalate s l ++ (s ++ x) := by
  induction l with
  | nil => exact absurd rfl hl
  | cons a l ih =>
    cases l with
    | nil => simp [List.intercalate]
    | cons b l =>
      have := ih (by simp)
      simp only [List.intercalate, List.cons_append, List.intersperse_cons_cons, List.flatten_cons] at this ⊢
      rw [this]
      simp

theorem sofar_snoc (d : List (List Tok)) (c : List Tok) (t : Tok) :
    List.intercalate [amp] (d ++ [c ++ [t]]) = List.intercalate [amp] (d ++ [c]) ++ [t] := by
  cases d with
  | nil => simp [List.intercalate]
  | cons x d =>
    rw [intercalate_snoc _ _ _ (by simp), intercalate_snoc _ _ _ (by simp)]
    simp

/-- The grouping is determined by the fields. -/
theorem intercalate_inj : ∀ (gs gs' : List (List Tok)), gs ≠ [] → gs' ≠ [] → (∀ g ∈ gs, amp ∉ g) → (∀ g ∈ gs', amp ∉ g) →
    List.intercalate [amp] gs = List.intercalate [amp] gs' → gs = gs' := by
  have key : ∀ (a b x y : List Tok), amp ∉ a → amp ∉ b → a ++ amp :: x = b ++ amp :: y → a = b ∧ x = y := by
    intro a
    induction a with
    | nil =>
      intro b x y _ hb h
      cases b with
      | nil => simp at h; exact ⟨rfl, h⟩
      | cons c b => simp at h; exact absurd (by rw [h.1]; simp) hb
    | cons c a ih =>
      intro b x y ha hb h
      cases b with
      | nil => simp at h; exact absurd (by rw [h.1]; simp) ha
      | cons d b =>
        simp only [List.cons_append, List.cons.injEq] at h
        obtain ⟨h1, h2⟩ := ih b x y (fun hc => ha (by simp [hc])) (fun hc => hb (by simp [hc])) h.2
        exact ⟨by rw [h.1, h1], h2⟩
  have single : ∀ (a b y : List Tok), amp ∉ a → a ≠ b ++ amp :: y := by
    intro a b y ha h
    exact ha (by rw [h]; simp)
  intro gs
  induction gs with
  | nil => intro _ h; exact absurd rfl h
  | cons g gs ih =>
    intro gs' _ h2 p1 p2 h
    cases gs' with
    | nil => exact absurd rfl h2
    | cons g' gs' =>
      have hg := p1 g (by simp)
      have hg' := p2 g' (by simp)
      cases gs with
      | nil =>
        cases gs' with
        | nil => simpa [List.intercalate] using h
        | cons b gs' =>
          simp only [List.intercalate, List.intersperse_cons_cons, List.flatten_cons, List.intersperse_singleton,
            List.flatten_nil, List.append_nil, List.singleton_append] at h
          exact absurd h (single _ _ _ hg)
      | cons c gs =>
        cases gs' with
        | nil =>
          simp only [List.intercalate, List.intersperse_cons_cons, List.flatten_cons, List.intersperse_singleton,
            List.flatten_nil, List.append_nil, List.singleton_append] at h
          exact absurd h.symm (single _ _ _ hg')
        | cons b gs' =>
          simp only [List.intercalate, List.intersperse_cons_cons, List.flatten_cons, List.singleton_append,
            List.append_assoc, List.cons_append, List.nil_append] at h
          obtain ⟨h1, h2⟩ := key _ _ _ _ hg hg' h
          have := ih (b :: gs') (by simp) (by simp) (fun x hx => p1 x (by simp at hx ⊢; exact .inr hx))
            (fun x hx => p2 x (by simp at hx ⊢; exact .inr hx)) h2
          rw [h1, this]

/-- Grouping of arbitrary fields. -/
theorem exists_groups (toks : List Tok) : ∃ gs : List (List Tok), gs ≠ [] ∧ (∀ g ∈ gs, amp ∉ g) ∧ toks = List.intercalate [amp] gs := by
  induction toks with
  | nil => exact ⟨[[]], by simp, by simp, by simp [List.intercalate]⟩
  | cons t ts ih =>
    obtain ⟨gs, h1, h2, h3⟩ := ih
    by_cases ht : t = amp
    · refine ⟨[] :: gs, by simp, ?_, ?_⟩
      · intro g hg
        rcases List.mem_cons.mp hg with rfl | hg
        · simp
        · exact h2 g hg
      · cases gs with
        | nil => exact absurd rfl h1
        | cons g gs => simp [List.intercalate, List.intersperse_cons_cons] at h3 ⊢; exact ⟨ht, h3⟩
    · cases gs with
      | nil => exact absurd rfl h1
      | cons g gs =>
        refine ⟨(t :: g) :: gs, by simp, ?_, ?_⟩
        · intro x hx
          rcases List.mem_cons.mp hx with rfl | hx
          · intro hc
            rcases List.mem_cons.mp hc with hc | hc
            · exact ht hc.symm
            · exact h2 g (by simp) hc
          · exact h2 x (by simp [hx])
        · cases gs with
          | nil => simp [List.intercalate] at h3 ⊢; exact h3
          | cons b gs => simp [List.intercalate, List.intersperse_cons_cons] at h3 ⊢; exact h3

/-- Invariant of the loop after the cookie. -/
structure AI (umode : Bool) (a : Acc) : Prop where
  ck : umode = true → a.cookie ≠ none
  ck0 : umode = false → a.cookie = none
  cur : a.cur.length ≤ 23
  curA : amp ∉ a.cur
  doneA : ∀ g ∈ a.done, amp ∉ g ∧ g.length ≤ 23
  n : a.done.length ≤ 15
  nul : ∀ t ∈ sofar a, (0 : UInt8) ∉ t

theorem runToks_spec (umode : Bool) (guard : Tok → Guard) : ∀ (ts : List Tok) (a : Acc), AI umode a →
    ∃ out, runToks umode guard a ts = .ok out ∧ Faithful a.cookie (sofar a ++ ts) out
  | [], a, h => by
    refine ⟨finish umode a, rfl, ?_⟩
    rw [List.append_nil]
    unfold finish
    have hgs : ∀ g ∈ a.done ++ [a.cur], amp ∉ g ∧ g.length ≤ 23 := by
      intro g hg
      rcases List.mem_append.mp hg with hg | hg
      · exact h.doneA g hg
      · rw [List.mem_singleton] at hg; subst hg; exact ⟨h.curA, h.cur⟩
    have hlen : (a.done ++ [a.cur]).length ≤ 16 := by have := h.n; simp; omega
    have hne : a.done ++ [a.cur] ≠ [] := by simp
    have hj : sofar a = List.intercalate [amp] (a.done ++ [a.cur]) := rfl
    have hnul := h.nul
    generalize a.done ++ [a.cur] = gs at *
    cases gs with
    | nil => exact absurd rfl hne
    | cons args subc =>
      simp only
      have hck : ¬ (umode = true ∧ a.cookie = none) := fun hc => h.ck hc.1 hc.2
      have bad : (∃ g ∈ args :: subc, g = []) → ¬ ∃ gs, Accepts (sofar a) gs := by
        rintro ⟨g, hg, hg0⟩ ⟨gs', hA⟩
        have := intercalate_inj _ _ hne hA.some (fun g hg => (hgs g hg).1) hA.plain (hj.symm.trans hA.join)
        exact hA.nonempty g (by rw [← this]; exact hg) hg0
      by_cases h1 : args.length < 1
      · rw [if_pos (.inl h1)]
        exact .inr ⟨rfl, bad ⟨args, by simp, by simpa using h1⟩⟩
      · rw [if_neg (by intro hc; rcases hc with hc | hc; exact h1 hc; exact hck hc)]
        by_cases h2 : subc.any (fun s => s.length < 1) = true
        · rw [if_pos h2]
          rw [List.any_eq_true] at h2
          obtain ⟨g, hg, hg0⟩ := h2
          exact .inr ⟨rfl, bad ⟨g, by simp [hg], by simpa using hg0⟩⟩
        · rw [if_neg h2]
          refine .inl ⟨args, subc, rfl, ⟨hj, ?_, by simp, fun g hg => (hgs g hg).1, fun g hg => (hgs g hg).2, hlen, hnul⟩⟩
          intro g hg
          rcases List.mem_cons.mp hg with rfl | hg
          · rintro rfl; simp at h1
          · rintro rfl
            rw [List.any_eq_true] at h2
            exact h2 ⟨[], hg, by simp⟩
  | t :: ts, a, h => by
    have synerr : (¬ ∃ gs, Accepts (sofar a ++ t :: ts) gs) →
        stepTok umode guard a t (if 0 ∈ t then 0 else t.length) = .ok (.inl .synerr) →
        ∃ out, runToks umode guard a (t :: ts) = .ok out ∧ Faithful a.cookie (sofar a ++ t :: ts) out := by
      intro h1 h2
      refine ⟨.synerr, ?_, .inr ⟨rfl, h1⟩⟩
      simp only [runToks, h2]
    have cont : ∀ a', stepTok umode guard a t (if 0 ∈ t then 0 else t.length) = .ok (.inr a') → AI umode a' →
        a'.cookie = a.cookie → sofar a' = sofar a ++ [t] →
        ∃ out, runToks umode guard a (t :: ts) = .ok out ∧ Faithful a.cookie (sofar a ++ t :: ts) out := by
      intro a' h1 h2 h3 h4
      obtain ⟨out, o1, o2⟩ := runToks_spec umode guard ts a' h2
      refine ⟨out, ?_, ?_⟩
      · simp only [runToks, h1]; exact o1
      · rw [h3, h4, List.append_assoc] at o2
        exact o2
    have hcur := h.cur
    -- too many groups or arguments cannot be repaired by what follows
    have grow : ∀ (gs : List (List Tok)) (gs' : List (List Tok)), gs ≠ [] → (∀ g ∈ gs, amp ∉ g) → gs' ≠ [] → (∀ g ∈ gs', amp ∉ g) →
        (∃ ts, List.intercalate [amp] gs' = List.intercalate [amp] gs ++ ts) →
        gs.length ≤ gs'.length ∧ ∃ g g', gs.getLast? = some g ∧ gs'[gs.length - 1]? = some g' ∧ g.length ≤ g'.length := by
      intro gs gs' h1 h2 h3 h4 ⟨ts, hts⟩
      obtain ⟨ps, p1, p2, p3⟩ := exists_groups ts
      obtain ⟨gi, gl, rfl⟩ : ∃ gi gl, gs = gi ++ [gl] := ⟨gs.dropLast, gs.getLast h1, (List.dropLast_concat_getLast h1).symm⟩
      cases ps with
      | nil => exact absurd rfl p1
      | cons p ps =>
        have hcomb : List.intercalate [amp] (gi ++ [gl]) ++ ts = List.intercalate [amp] (gi ++ (gl ++ p) :: ps) := by
          rw [p3]
          clear h2 hts p3 h1
          induction gi with
          | nil =>
            cases ps with
            | nil => simp [List.intercalate]
            | cons q ps => simp [List.intercalate, List.intersperse_cons_cons]
          | cons x gi ih =>
            have e : ∀ (l : List (List Tok)), l ≠ [] → List.intercalate [amp] (x :: l) = x ++ (amp :: List.intercalate [amp] l) := by
              intro l hl
              cases l with
              | nil => exact absurd rfl hl
              | cons y l => simp [List.intercalate, List.intersperse_cons_cons]
            rw [List.cons_append, List.cons_append, e _ (by simp), e _ (by simp), ← ih]
            simp
        rw [hcomb] at hts
        have := intercalate_inj _ _ h3 (by simp) h4 (by
          intro g hg
          simp only [List.mem_append, List.mem_cons] at hg
          rcases hg with hg | hg | hg
          · exact h2 g (by simp [hg])
          · rw [hg]
            intro hc
            rcases List.mem_append.mp hc with hc | hc
            · exact h2 gl (by simp) hc
            · exact p2 p (by simp) hc
          · exact p2 g (by simp [hg])) hts
        subst this
        refine ⟨by simp, gl, gl ++ p, by simp, ?_, by simp⟩
        simp
    by_cases hn : (0 : UInt8) ∈ t
    · refine synerr ?_ ?_
      · rintro ⟨gs, hA⟩
        exact hA.noNul t (by simp) hn
      · have : 0 < t.length := by cases t with
          | nil => simp at hn
          | cons _ _ => simp
        unfold stepTok
        rw [if_pos hn, if_neg (by omega), if_pos this]
    · rw [if_neg hn] at synerr cont
      have hgu : ¬ (a.done = [] ∧ umode = true ∧ a.cur.length = 0 ∧ a.cookie = none) := fun hc => h.ck hc.2.1 hc.2.2.2
      have hst : stepTok umode guard a t t.length =
          if isAmpAmp t then
            if a.done.length = maxSubc - 1 then .ok (.inl .synerr)
            else .ok (.inr { a with done := a.done ++ [a.cur], cur := [] })
          else if a.cur.length + 1 ≥ maxArgc then .ok (.inl .synerr)
          else .ok (.inr { a with cur := a.cur ++ [t] }) := by
        unfold stepTok
        rw [if_neg (by omega), if_neg (by omega), if_neg (by unfold maxArgc; omega), if_neg hgu]
      have hA0 : ∀ g ∈ a.done ++ [a.cur], amp ∉ g := by
        intro g hg
        rcases List.mem_append.mp hg with hg | hg
        · exact (h.doneA g hg).1
        · rw [List.mem_singleton] at hg; subst hg; exact h.curA
      by_cases hamp : isAmpAmp t = true
      · rw [if_pos hamp] at hst
        have ht := (isAmpAmp_iff t).mp hamp
        have hs : List.intercalate [amp] (a.done ++ [a.cur] ++ [[]]) = sofar a ++ [t] := by
          rw [intercalate_snoc _ _ _ (by simp), ht]; rfl
        by_cases h15 : a.done.length = maxSubc - 1
        · rw [if_pos h15] at hst
          refine synerr ?_ hst
          rintro ⟨gs, hA⟩
          have := grow (a.done ++ [a.cur] ++ [[]]) gs (by simp) (by
            intro g hg
            rcases List.mem_append.mp hg with hg | hg
            · exact hA0 g hg
            · rw [List.mem_singleton] at hg; subst hg; simp) hA.some hA.plain ⟨ts, by rw [hs, ← hA.join]; simp⟩
          have h2 := hA.subc
          unfold maxSubc at h15
          simp at this
          omega
        · rw [if_neg h15] at hst
          refine cont _ hst ⟨h.ck, h.ck0, by simp, by simp, ?_, ?_, ?_⟩ rfl hs
          · intro g hg
            rcases List.mem_append.mp hg with hg | hg
            · exact h.doneA g hg
            · rw [List.mem_singleton] at hg; subst hg; exact ⟨h.curA, h.cur⟩
          · have := h.n; unfold maxSubc at h15; simp; omega
          · intro x hx
            unfold sofar at hx
            simp only at hx
            rw [hs] at hx
            rcases List.mem_append.mp hx with hx | hx
            · exact h.nul x hx
            · rw [List.mem_singleton] at hx; subst hx; exact hn
      · rw [if_neg hamp] at hst
        have hta : t ≠ amp := fun hc => hamp ((isAmpAmp_iff t).mpr hc)
        have hs : List.intercalate [amp] (a.done ++ [a.cur ++ [t]]) = sofar a ++ [t] := sofar_snoc _ _ _
        have hcA : amp ∉ a.cur ++ [t] := by
          intro hc
          rcases List.mem_append.mp hc with hc | hc
          · exact h.curA hc
          · rw [List.mem_singleton] at hc; exact hta hc.symm
        by_cases h24 : a.cur.length + 1 ≥ maxArgc
        · rw [if_pos h24] at hst
          refine synerr ?_ hst
          rintro ⟨gs, hA⟩
          obtain ⟨-, g, g', e1, e2, e3⟩ := grow (a.done ++ [a.cur ++ [t]]) gs (by simp) (by
            intro g hg
            rcases List.mem_append.mp hg with hg | hg
            · exact (h.doneA g hg).1
            · rw [List.mem_singleton] at hg; subst hg; exact hcA) hA.some hA.plain ⟨ts, by rw [hs, ← hA.join]; simp⟩
          have h2 := hA.argc g' (List.mem_of_getElem? e2)
          simp at e1
          subst e1
          unfold maxArgc at h24
          simp at e3
          omega
        · rw [if_neg h24] at hst
          refine cont _ hst ⟨h.ck, h.ck0, ?_, hcA, h.doneA, h.n, ?_⟩ rfl hs
          · unfold maxArgc at h24; simp; omega
          · intro x hx
            unfold sofar at hx
            simp only at hx
            rw [hs] at hx
            rcases List.mem_append.mp hx with hx | hx
            · exact h.nul x hx
            · rw [List.mem_singleton] at hx; subst hx; exact hn

/-- The buffers after `rtpp_strsplit`. -/
theorem split_loop (umode : Bool) (guard : Tok → Guard) (msg rest mbuf : List UInt8)
    (hlen : msg.length + 1 + rest.length = bufLen) (hm : mbuf.length = bufLen) :
    ∃ fs, Fields msg fs ∧ split umode guard (msg ++ 0 :: rest) mbuf msg.length = runToks umode guard ⟨none, [], []⟩ fs := by
  have hl : (msg ++ 0 :: rest).length = bufLen := by simp; omega
  obtain ⟨t, m, h1, h2, h3, h4, h5, -, -, h6⟩ := C14_strsplit_exact (msg ++ 0 :: rest) mbuf msg.length (by simp) (by omega)
    (by rw [hl]; rfl)
  rw [hl] at h1
  unfold split
  rw [h1]
  simp only
  rw [List.take_left] at h2 h3
  have e : t[msg.length]? = some 0 := h6 msg.length (Nat.le_refl _) (by simp)
  have hb : t = msg.map textByte ++ 0 :: t.drop (msg.length + 1) := by
    rw [show msg.map textByte = t.take msg.length from h2.symm]
    conv => lhs; rw [← List.take_append_drop msg.length t]
    congr 1
    have hlt : msg.length < t.length := by omega
    rw [List.drop_eq_getElem_cons hlt]
    congr 1
    rw [List.getElem?_eq_getElem hlt] at e
    simpa using e
  have hmb : m = msg.map mapByte ++ m.drop msg.length := by
    rw [show msg.map mapByte = m.take msg.length from h3.symm, List.take_append_drop]
  obtain ⟨fs, f1, f2⟩ := tokLoop_spec umode guard msg t m _ _ hb hmb msg.length 0 ⟨none, [], []⟩ (by omega) (by omega)
  exact ⟨fs, f1, f2⟩

/-- **C15**, for stream connections (no cookie): every message that fits into the buffer is split into its fields and
either rejected with a parse error or delivered as the vectors of arguments it denotes; no array is exceeded. -/
theorem C15_split_stream (guard : Tok → Guard) (msg rest mbuf : List UInt8)
    (hlen : msg.length + 1 + rest.length = 8192) (hm : mbuf.length = 8192) :
    ∃ fs out, Fields msg fs ∧ split false guard (msg ++ 0 :: rest) mbuf msg.length = .ok out ∧
      Faithful none fs out := by
  obtain ⟨fs, h1, h2⟩ := split_loop false guard msg rest mbuf hlen hm
  obtain ⟨out, h3, h4⟩ := runToks_spec false guard fs ⟨none, [], []⟩
    ⟨(fun h => by cases h), fun _ => rfl, by simp, by simp, by simp, by simp, by simp [sofar, List.intercalate]⟩
  exact ⟨fs, out, h1, by rw [h2, h3], by simpa [sofar, List.intercalate] using h4⟩

/-- **C15**, for datagrams: as above, where the first field is the cookie: a known cookie makes the message
a retransmission; a message without cookie is rejected.  Restricted to cookies of at most 1022 bytes. -/
theorem C15_split_partial (guard : Tok → Guard) (msg rest mbuf : List UInt8)
    (hlen : msg.length + 1 + rest.length = 8192) (hm : mbuf.length = 8192)
    (hck : ∀ fs, Fields msg fs → (fs.headD []).length ≤ 1022) :
    ∃ fs out, Fields msg fs ∧ split true guard (msg ++ 0 :: rest) mbuf msg.length = .ok out ∧
        match fs with
        | [] => out = .synerr
        | cookie :: toks =>
          if 0 ∈ cookie then out = .synerr
          else match guard cookie with
            | .dup => out = .dup
            | .nomem => out = .nomem
            | .fresh => Faithful (some cookie) toks out := by
  obtain ⟨fs, h1, h2⟩ := split_loop true guard msg rest mbuf hlen hm
  have hc := hck fs h1
  rw [h2]
  cases fs with
  | nil => exact ⟨[], .synerr, h1, rfl, rfl⟩
  | cons c toks =>
    refine ⟨c :: toks, ?_⟩
    simp only [List.headD_cons] at hc
    simp only [runToks]
    by_cases h0 : (0 : UInt8) ∈ c
    · have hl : 0 < c.length := by cases c with
        | nil => simp at h0
        | cons _ _ => simp
      refine ⟨.synerr, h1, ?_, by rw [if_pos h0]⟩
      unfold stepTok
      rw [if_pos h0, if_neg (by omega), if_pos hl]
    · simp only [if_neg h0]
      have hst : stepTok true guard ⟨none, [], []⟩ c c.length =
          match guard c with
          | .nomem => .ok (.inl .nomem)
          | .dup => .ok (.inl .dup)
          | .fresh => .ok (.inr ⟨some c, [], []⟩) := by
        unfold stepTok
        rw [if_neg (by omega), if_neg (by omega), if_neg (by simp [maxArgc]), if_pos ⟨rfl, rfl, rfl, rfl⟩]
        cases guard c with
        | nomem => rfl
        | dup => rfl
        | fresh => simp only; rw [if_neg (by unfold replyCap; omega)]
      rw [hst]
      cases guard c with
      | nomem => exact ⟨.nomem, h1, rfl, rfl⟩
      | dup => exact ⟨.dup, h1, rfl, rfl⟩
      | fresh =>
        simp only
        obtain ⟨out, h3, h4⟩ := runToks_spec true guard toks ⟨some c, [], []⟩
          ⟨(fun _ => by simp), (fun h => by cases h), by simp, by simp, by simp, by simp, by simp [sofar, List.intercalate]⟩
        exact ⟨out, h1, h3, by simpa [sofar, List.intercalate] using h4⟩

/-- The statement without the restriction is false: a single field of 1023 bytes, sent as a datagram,
makes the server abort. -/
theorem C15_long_cookie_counterexample :
    ∃ msg rest mbuf : List UInt8, msg.length + 1 + rest.length = 8192 ∧ mbuf.length = 8192 ∧
      Fields msg [msg] ∧ split true (fun _ => .fresh) (msg ++ 0 :: rest) mbuf msg.length = .error .abort := by
  have key : ∀ n k : Nat, n + 1 + k = bufLen → 1023 ≤ n →
      Fields (List.replicate n 97) [List.replicate n 97] ∧
      split true (fun _ => .fresh) (List.replicate n 97 ++ 0 :: List.replicate k 0) (List.replicate bufLen 0)
        (List.replicate n (97 : UInt8)).length = .error .abort := by
    intro n k hnk hn
    obtain ⟨fs, h1, h2⟩ := split_loop true (fun _ => .fresh) (List.replicate n 97) (List.replicate k 0) (List.replicate bufLen 0)
      (by rw [List.length_replicate, List.length_replicate]; exact hnk) (by rw [List.length_replicate])
    have hF : Fields (List.replicate n 97) [List.replicate n 97] := by
      have := Fields.cons (bs := []) (f := List.replicate n 97) (rest := []) (fs := []) (by simp)
        (by intro hc; have := congrArg List.length hc; rw [List.length_replicate] at this; simp at this; omega) ?_ (by simp) (.nil (by simp))
      · simpa using this
      · intro c hc
        rw [List.mem_replicate] at hc
        rw [hc.2]; decide
    refine ⟨hF, ?_⟩
    rw [h2, h1.unique, ← hF.unique]
    have h0 : (0 : UInt8) ∉ List.replicate n (97 : UInt8) := by
      intro hc; rw [List.mem_replicate] at hc; exact absurd hc.2 (by decide)
    simp only [runToks, if_neg h0]
    unfold stepTok
    rw [if_neg (by omega), if_neg (by omega), if_neg (by simp [maxArgc]), if_pos ⟨rfl, rfl, rfl, rfl⟩]
    simp only
    rw [if_pos (by rw [List.length_replicate]; unfold replyCap; omega)]
  obtain ⟨h1, h2⟩ := key 1023 7168 rfl (Nat.le_refl _)
  exact ⟨_, _, _, by rw [List.length_replicate, List.length_replicate], by rw [List.length_replicate]; rfl, h1, h2⟩

/-- A message with a sub-command: `c1 D x&&y && Ma  q`, with cookie `c1`. -/
example : (match split true (fun _ => .fresh)
      ([99, 49, 32, 68, 32, 120, 38, 38, 121, 9, 38, 38, 32, 77, 97, 32, 32, 113, 10] ++ 0 :: List.replicate 8172 0)
      (List.replicate 8192 0) 19 with
    | .ok o => decide (o = .cmd (some [99, 49]) [[68], [120, 38, 38, 121]] [[[77, 97], [113]]])
    | .error _ => false) = true := by
  decide +kernel

example : Fields [99, 49, 32, 68, 10] [[99, 49], [68]] := by
  refine Fields.cons (bs := []) (f := [99, 49]) (rest := [32, 68, 10]) (by simp) (by simp) (by decide) (by decide) ?_
  exact Fields.cons (bs := [32]) (f := [68]) (rest := [10]) (by decide) (by simp) (by decide) (by decide) (.nil (by decide))

end Verif.Cmd
