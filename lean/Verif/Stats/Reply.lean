import Verif.Stats.Steps

/-! # Lemmas about the answer to `G` -/

namespace Verif.Stats

open Verif.Cmd (Rep appendf appendf_fit appendf_nofit used used_length)

theorem spaced_snoc : ∀ (l : List (List UInt8)) (x : List UInt8),
    spaced (l ++ [x]) = if l = [] then x else spaced l ++ 32 :: x
  | [], x => rfl
  | [y], x => rfl
  | y :: z :: l, x => by
    have := spaced_snoc (z :: l) x
    simp only [List.cons_append] at this ⊢
    simp only [spaced, this]
    simp

/-- The buffer holds the committed text `pre` and after it `body`. -/
structure Good (pre body : List UInt8) (b : Rep) : Prop where
  len : b.r.length = 1024
  rl : b.rlen = 0
  cl : b.clen = pre.length
  ul : b.ulen ≤ 1023
  txt : used b = pre ++ body

theorem Good.size {pre body b} (hg : Good pre body b) : b.ulen = pre.length + body.length := by
  have := used_length hg.len (show b.ulen ≤ 1024 by have := hg.ul; omega)
  rw [hg.txt, List.length_append] at this
  exact this.symm

theorem Good.fits {pre body b} (hg : Good pre body b) {s : List UInt8} (hs : pre.length + body.length + s.length < 1024) :
    ∃ b', appendf b s = .ok (b', true) ∧ Good pre (body ++ s) b' := by
  have hz := hg.size
  obtain ⟨b', h1, h2, h3, h4, h5, h6⟩ := appendf_fit (b := b) (s := s) hg.len (by rw [hg.rl]; omega)
  refine ⟨b', h1, h2, h3.trans hg.rl, h4.trans hg.cl, by omega, ?_⟩
  show b'.r.take b'.ulen = _
  rw [h6, hg.txt, List.append_assoc]

theorem Good.spills {pre body b} (hg : Good pre body b) {s : List UInt8} (hs : 1024 ≤ pre.length + body.length + s.length) :
    ∃ b', appendf b s = .ok (b', false) ∧ Good pre body b' := by
  have hz := hg.size
  obtain ⟨b', h1, h2, h3, h4, h5, h6⟩ := appendf_nofit (b := b) (s := s) hg.len (by rw [hg.rl]; have := hg.ul; omega)
    (by rw [hg.rl]; omega)
  refine ⟨b', h1, h2, h3.trans hg.rl, h4.trans hg.cl, by rw [h5]; exact hg.ul, ?_⟩
  show b'.r.take b'.ulen = _
  rw [h6, hg.txt]

theorem Good.sent {pre body b} (hg : Good pre body b) : Cmd.sent b = pre := by
  have hz := hg.size
  have : (used b).take pre.length = pre := by rw [hg.txt]; simp
  unfold Cmd.sent
  rw [hg.cl]
  unfold used at this
  rw [List.take_take, Nat.min_eq_left (by omega)] at this
  exact this

theorem fmtD25 : Cmd.fmtD 25 = [50, 53] := by decide
theorem fmtD68 : Cmd.fmtD 68 = [54, 56] := by decide

theorem Good.error {pre body b} (hg : Good pre body b) (hp : pre.length ≤ 1000) (c : Int) (hc : (Cmd.fmtD c).length = 2) :
    Cmd.deliverError b c = .ok (pre ++ (69 :: Cmd.fmtD c ++ [10])) := by
  have hz := hg.size
  have := (Cmd.C19_deliver b c hg.len (by rw [hg.cl]; omega) (by rw [hg.rl]; have := hg.ul; omega)).2
  rw [this, hg.rl, hg.cl, hc, if_pos (by omega), hg.sent]

/-- The text `w` is what a `G` prints for the statistic `n` in state `s`. -/
def Prints (fmtF : Rat → List UInt8) (s : St) (n w : List UInt8) : Prop :=
  ∃ i, names[i]? = some n ∧ w = show_ fmtF s i

/-- How one round of the loop ends. -/
theorem round_spec {h : Look} (hb : Exact h) (fmtF : Rat → List UInt8) (s : St)
    (v : Bool) {pre b} (items : List (List UInt8)) (hg : Good pre (spaced items) b) (n : List UInt8) :
    (∃ b' w, round h fmtF s v (!items.isEmpty) b n = .ok (.go b') ∧ Prints fmtF s n w ∧
      Good pre (spaced (items ++ [label v n ++ w])) b') ∨
    (∃ b' body, round h fmtF s v (!items.isEmpty) b n = .ok (.err b' 25) ∧ Good pre body b' ∧
      1024 ≤ pre.length + (spaced (items ++ [label v n])).length) ∨
    (∃ b' body, round h fmtF s v (!items.isEmpty) b n = .ok (.err b' 68) ∧ Good pre body b' ∧
      (n ∉ names ∨ ∃ w, Prints fmtF s n w ∧ 1024 ≤ pre.length + (spaced (items ++ [label v n ++ w])).length)) := by
  -- the separator
  have h1 : (∃ b1, (if (!items.isEmpty) = true then appendf b [32] else .ok (b, true)) = .ok (b1, true) ∧
      ∀ x, ∃ body, Good pre body b1 ∧ body ++ x = spaced (items ++ [x])) ∨
      (∃ b1, (if (!items.isEmpty) = true then appendf b [32] else .ok (b, true)) = .ok (b1, false) ∧
        Good pre (spaced items) b1 ∧ ∀ x, 1024 ≤ pre.length + (spaced (items ++ [x])).length) := by
    cases items with
    | nil => exact .inl ⟨b, rfl, fun x => ⟨_, hg, rfl⟩⟩
    | cons y l =>
      simp only [List.isEmpty_cons, Bool.not_false, if_true]
      by_cases hf : pre.length + (spaced (y :: l)).length + 1 < 1024
      · obtain ⟨b1, h1, h2⟩ := hg.fits (s := [32]) hf
        refine .inl ⟨b1, h1, fun x => ⟨_, h2, ?_⟩⟩
        rw [spaced_snoc, if_neg (by simp)]; simp
      · obtain ⟨b1, h1, h2⟩ := hg.spills (s := [32]) (by simp only [List.length_singleton]; omega)
        refine .inr ⟨b1, h1, h2, fun x => ?_⟩
        rw [spaced_snoc, if_neg (by simp)]
        simp only [List.length_append, List.length_cons]; omega
  unfold round
  rcases h1 with ⟨b1, h1, h2⟩ | ⟨b1, h1, h2, h3⟩
  rotate_left
  · rw [h1]; exact .inr (.inl ⟨b1, _, rfl, h2, h3 _⟩)
  rw [h1]
  simp only
  -- the label
  have h3 : (∃ b2, (if v = true then appendf b1 (n ++ [61]) else .ok (b1, true)) = .ok (b2, true) ∧
      ∀ x, ∃ body, Good pre body b2 ∧ body ++ x = spaced (items ++ [label v n ++ x])) ∨
      (∃ b2 body, (if v = true then appendf b1 (n ++ [61]) else .ok (b1, true)) = .ok (b2, false) ∧
        Good pre body b2 ∧ 1024 ≤ pre.length + (spaced (items ++ [label v n])).length) := by
    cases v with
    | false => exact .inl ⟨b1, rfl, fun x => by simpa [label] using h2 x⟩
    | true =>
      obtain ⟨body, h4, h5⟩ := h2 (n ++ [61])
      simp only [if_true, label]
      by_cases hf : pre.length + body.length + (n ++ [61]).length < 1024
      · obtain ⟨b2, h6, h7⟩ := h4.fits hf
        refine .inl ⟨b2, h6, fun x => ⟨_, h7, ?_⟩⟩
        obtain ⟨body', h8, h9⟩ := h2 ((n ++ [61]) ++ x)
        have e : body' = body := List.append_cancel_left (h8.txt.symm.trans h4.txt)
        rw [← h9, e, List.append_assoc]
      · obtain ⟨b2, h6, h7⟩ := h4.spills (s := n ++ [61]) (by omega)
        refine .inr ⟨b2, _, h6, h7, ?_⟩
        rw [← h5, List.length_append]; omega
  rcases h3 with ⟨b2, h3, h4⟩ | ⟨b2, body, h3, h4, h5⟩
  rotate_left
  · rw [h3]; exact .inr (.inl ⟨b2, _, rfl, h4, h5⟩)
  rw [h3]
  simp only
  unfold nstr
  rcases hb.cases n with ⟨h5, h6⟩ | ⟨i, h5, h6⟩
  · rw [h6]
    obtain ⟨body, h7, -⟩ := h4 []
    exact .inr (.inr ⟨b2, body, rfl, h7, .inl h5⟩)
  · rw [h6]
    simp only
    rw [if_neg (by omega), Int.toNat_natCast]
    obtain ⟨body, h7, h8⟩ := h4 (show_ fmtF s i)
    by_cases hf : pre.length + body.length + (show_ fmtF s i).length < 1024
    · obtain ⟨b3, h9, h10⟩ := h7.fits hf
      rw [h9]
      exact .inl ⟨b3, _, rfl, ⟨i, h5, rfl⟩, h8 ▸ h10⟩
    · obtain ⟨b3, h9, h10⟩ := h7.spills (s := show_ fmtF s i) (by omega)
      rw [h9]
      refine .inr (.inr ⟨b3, _, rfl, h10, .inr ⟨_, ⟨i, h5, rfl⟩, ?_⟩⟩)
      rw [← h8, List.length_append]; omega

/-- The end of the loop: the newline fits unless the text takes up all but one byte. -/
theorem Good.finish {pre body b} (hg : Good pre body b) :
    (pre.length + body.length < 1023 ∧ Cmd.finishLine b = .ok (pre ++ body ++ [10])) ∨
    (pre.length + body.length = 1023 ∧ Cmd.finishLine b = .error .abort) := by
  have hz := hg.size
  have hu := hg.ul
  by_cases hf : pre.length + body.length < 1023
  · refine .inl ⟨hf, ?_⟩
    rw [Cmd.finishLine_ok hg.len (by omega), hg.txt]
  · refine .inr ⟨by omega, ?_⟩
    unfold Cmd.finishLine
    rw [Cmd.append_nofit hg.len (by simp; omega) (by simp; omega)]
    rfl

end Verif.Stats
