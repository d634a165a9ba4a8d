import Verif.Icecand.Props

/-!
# C87: the whole answer or an error

The answer loses something without an error only if fragment and password do not fit.
-/

namespace Verif.Icecand

/-- The pieces of a candidate: the last needs no quoting, and together they are not shorter than the mark before them. -/
structure Good (c : List Bytes) : Prop where
  plain : ∃ l, c.getLast? = some l ∧ ∀ b ∈ l, Str.Unreserved b
  long : 3 ≤ (c.map Str.enc).flatten.length

theorem piece_room {x : Bytes} {r : Resp} (h : J r) :
    piece x r = .ok none ∨ ∃ r', piece x r = .ok (some r') ∧ J r' ∧ x.length < r.room ∧ (Str.enc x).length ≤ r.room ∧
      r'.room = r.room - (Str.enc x).length := by
  have hl := h.len
  have hf := h.fit
  rcases piece_j (x := x) h with e | ⟨r', e, j, _⟩
  · exact .inl e
  · refine .inr ⟨r', e, j, ?_⟩
    unfold piece at e
    split at e
    · cases e
    · rename_i hx
      obtain ⟨q, d, e1, -, -, e4⟩ := Str.C13_quote_within_bounds x (r.mem.drop r.pos) r.room (by simp; omega)
      rw [e1] at e
      rcases e4 with ⟨rfl, _⟩ | ⟨rfl, e5, _⟩
      · cases e
      · simp only [Except.ok.injEq, Option.some.injEq] at e
        subst e
        exact ⟨by omega, e5, rfl⟩

theorem pieces_none : ∀ (xs : List Bytes) (r : Resp) (l : Bytes), J r → xs.getLast? = some l →
    (∀ b ∈ l, Str.Unreserved b) → r.room ≤ (xs.map Str.enc).flatten.length → pieces xs r = .ok none := by
  intro xs
  induction xs with
  | nil => intro r l _ h; cases h
  | cons x xs ih =>
    intro r l h hg hp hr
    unfold pieces
    simp only [List.map_cons, List.flatten_cons, List.length_append] at hr
    rcases piece_room (x := x) h with e | ⟨r', e, j, h1, h2, h3⟩
    · rw [e]
    · rw [e]
      simp only
      cases xs with
      | nil =>
        rw [List.getLast?_singleton, Option.some.injEq] at hg
        subst hg
        rw [enc_same hp] at hr
        simp at hr
        omega
      | cons y ys =>
        rw [List.getLast?_cons_cons] at hg
        exact ih r' l j hg hp (by omega)

theorem At.k {out : Bytes} {r : Resp} (h : At out r) (hl : out.length < 512) : K r := by
  obtain ⟨-, rfl⟩ := h
  have hn : (out ++ List.replicate (512 - out.length) (0 : UInt8))[511]? = some 0 := by
    rw [List.getElem?_append_right (by omega), List.getElem?_replicate, if_pos (by omega)]
  exact ⟨⟨by simp; omega, by simp only; omega, fun _ => hn⟩, hn⟩

theorem cands_none : ∀ (cs : List (List Bytes)) (out : Bytes) (r : Resp), At out r → out.length < 512 →
    (∀ c ∈ cs, Good c) →
    512 ≤ out.length + (cs.map fun c => bs " c:" ++ (c.map Str.enc).flatten).flatten.length →
    cands cs r = .ok none := by
  intro cs
  induction cs with
  | nil => intro out r _ h _ h'; simp at h'; omega
  | cons c cs ih =>
    intro out r h hl hg ht
    have h3 : (bs " c:").length = 3 := by decide +kernel
    simp only [List.map_cons, List.flatten_cons, List.length_append, h3] at ht
    obtain ⟨⟨l, hlast, hp⟩, hlong⟩ := hg c List.mem_cons_self
    unfold cands
    by_cases hroom : out.length + 3 < 512
    · obtain ⟨r1, e1, a1⟩ := app_at h (x := bs " c:") (by omega)
      rw [e1]
      simp only
      have hlen : (out ++ bs " c:").length = out.length + 3 := by simp [h3]
      by_cases hfit : out.length + 3 + (c.map Str.enc).flatten.length < 512
      · obtain ⟨r2, e2, a2⟩ := pieces_at c a1 (by omega)
        rw [e2]
        simp only
        exact ih _ r2 a2 (by rw [List.length_append, hlen]; omega) (fun c hc => hg c (List.mem_cons_of_mem _ hc))
          (by rw [List.length_append, hlen]; omega)
      · have hr : r1.room = 512 - (out.length + 3) := by
          obtain ⟨-, rfl⟩ := a1
          simp only [hlen]
        rw [pieces_none c r1 l (a1.k (by omega)).toJ hlast hp (by omega)]
    · obtain ⟨r1, e1, k1⟩ := app_k (x := bs " c:") (h.k hl)
      have hr : r1.room < 3 := by
        have hroom2 : r.room = 512 - out.length := by obtain ⟨-, rfl⟩ := h; rfl
        unfold app at e1
        split at e1
        · cases e1
        · split at e1
          · rename_i hgt
            rw [← Except.ok.inj e1]
            simp only
            omega
          · rw [← Except.ok.inj e1]
            simp only
            omega
      rw [e1]
      simp only
      rw [pieces_none c r1 l k1.toJ hlast hp (by omega)]

/-- **C87** (the whole answer or an error): if fragment and password fit, the answer to `S` is either whole, which is when it
fits, or an error; whatever local candidates there are. -/
theorem C87_answer_whole (ufrag pwd : Bytes) (cs : List (List Bytes)) (hu : ∀ b ∈ ufrag, b ≠ 0) (hp : ∀ b ∈ pwd, b ≠ 0)
    (hl : ufrag.length + 1 + pwd.length < 512) (hc : ∀ c ∈ cs, Good c) :
    start ufrag pwd cs = .ok (if (answer ufrag pwd cs).length < 512 then some (answer ufrag pwd cs) else none) := by
  by_cases hf : (answer ufrag pwd cs).length < 512
  · rw [if_pos hf]
    exact C87_answer_partial ufrag pwd cs hu hp hf
  · rw [if_neg hf]
    have h1 : (bs " ").length = 1 := by decide +kernel
    unfold answer at hf
    simp only [List.length_append, h1] at hf
    have a0 : At [] fresh := ⟨by simp, rfl⟩
    obtain ⟨r1, e1, a1⟩ := app_at a0 (x := ufrag) (by simp only [List.length_nil]; omega)
    obtain ⟨r2, e2, a2⟩ := app_at a1 (x := bs " ") (by simp only [List.length_append, List.length_nil]; omega)
    obtain ⟨r3, e3, a3⟩ := app_at a2 (x := pwd) (by simp only [List.length_append, List.length_nil]; omega)
    have e4 := cands_none cs _ r3 a3 (by simp only [List.length_append, List.length_nil]; omega) hc
      (by simp only [List.length_append, List.length_nil]; omega)
    unfold start
    simp only [e1, e2, e3, e4]

/-- A candidate as libre writes it. -/
example : Good [bs "f1", bs " ", bs "1", bs " ", bs "UDP", bs " typ ", bs "host"] :=
  ⟨⟨bs "host", rfl, by decide +kernel⟩, by decide +kernel⟩

end Verif.Icecand
