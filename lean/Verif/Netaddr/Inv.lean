import Verif.Netaddr.Spec
import Mathlib.Data.List.Basic

/-! # The invariant -/

namespace Verif.Netaddr

/-- What holds of a thread, given the memory and the address set last. -/
def Ok (sas v : Bytes) : PC → Prop
  | .idle | .stored | .wantCmp _ | .cmp0 _ => True
  | .wantSet src => src.length ≤ 128
  | .set src i => src.length ≤ 128 ∧ i ≤ src.length ∧ sas.take i = src.take i
  | .wantGet cap | .get0 cap => 128 ≤ cap
  | .get cap n acc => 128 ≤ cap ∧ n = v.length ∧ acc.length ≤ n ∧ acc = v.take acc.length
  | .cmp sap i => sap.length = v.length ∧ i ≤ sap.length ∧ sap.take i = v.take i

structure Inv (s : St) : Prop where
  size : s.sas.length = 128
  rlen : s.rlen = (value s.log).length
  fits : (value s.log).length ≤ 128
  held : ∀ t, Inside (s.pc t) ↔ s.lock = some t
  whole : (∀ t src i, s.pc t ≠ .set src i) → s.sas.take (value s.log).length = value s.log
  ok : ∀ t, Ok s.sas (value s.log) (s.pc t)
  reg : Register s.log

theorem inv_init : Inv init where
  size := List.length_replicate ..
  rlen := rfl
  fits := Nat.zero_le _
  held := fun t => by simp [init, Inside]
  whole := fun _ => rfl
  ok := fun t => trivial
  reg := trivial

/-- Threads other than the holder do not care about the memory or the address. -/
theorem ok_outside {sas v sas' v' : Bytes} {p : PC} (h : ¬Inside p) (ho : Ok sas v p) : Ok sas' v' p := by
  cases p <;> first | exact ho | exact absurd trivial h

theorem take_snoc {l : Bytes} {i : Nat} {b : UInt8} (h : l[i]? = some b) : l.take (i + 1) = l.take i ++ [b] := by
  rw [List.take_add_one, h]; rfl

theorem lt_of_get {l : Bytes} {i : Nat} {b : UInt8} (h : l[i]? = some b) : i < l.length :=
  (List.getElem?_eq_some_iff.1 h).1

/-- A step that keeps the memory, the log and the mutex, and moves one thread. -/
theorem Inv.move {s : St} (h : Inv s) {t : Nat} {p : PC} (hp : Inside p ↔ Inside (s.pc t))
    (hn : ∀ src i, s.pc t ≠ .set src i) (ho : Ok s.sas (value s.log) p) : Inv (s.at t p) where
  size := h.size
  rlen := h.rlen
  fits := h.fits
  held := fun u => by
    simp only [St.at]
    by_cases hu : u = t
    · subst hu; rw [if_pos rfl, hp]; exact h.held u
    · rw [if_neg hu]; exact h.held u
  whole := fun hw => h.whole fun u src i => by
    have := hw u src i
    simp only [St.at] at this
    by_cases hu : u = t
    · subst hu; exact hn src i
    · rwa [if_neg hu] at this
  ok := fun u => by
    simp only [St.at]
    by_cases hu : u = t
    · rw [if_pos hu]; exact ho
    · rw [if_neg hu]; exact h.ok u
  reg := h.reg

/-- Taking the mutex. -/
theorem Inv.enter {s : St} (h : Inv s) {t : Nat} {p : PC} (hp : Inside p) (hw : ¬Inside (s.pc t))
    (ho : Ok s.sas (value s.log) p) : Inv (s.enter t p) := by
  unfold St.enter
  by_cases hl : s.lock = none
  case neg => rw [if_neg hl]; exact h
  rw [if_pos hl]
  have hout : ∀ u, ¬Inside (s.pc u) := fun u hu => by
    have := (h.held u).1 hu
    rw [hl] at this; cases this
  exact {
    size := h.size
    rlen := h.rlen
    fits := h.fits
    held := fun u => by
      simp only [St.at]
      by_cases hu : u = t
      · subst hu; rw [if_pos rfl]; exact ⟨fun _ => rfl, fun _ => hp⟩
      · rw [if_neg hu]
        exact ⟨fun hi => absurd hi (hout u), fun he => absurd (Option.some.inj he).symm hu⟩
    whole := fun _ => h.whole fun u src i hc => hout u (by rw [hc]; trivial)
    ok := fun u => by
      simp only [St.at]
      by_cases hu : u = t
      · rw [if_pos hu]; exact ho
      · rw [if_neg hu]; exact h.ok u
    reg := h.reg }

/-- Releasing the mutex. -/
theorem Inv.leave {s : St} (h : Inv s) {t : Nat} (hi : Inside (s.pc t)) (hn : ∀ src i, s.pc t ≠ .set src i) {os : List Obs}
    (hv : value (os ++ s.log) = value s.log) (hr : Register (os ++ s.log)) : Inv (s.leave t os) := by
  have hl := (h.held t).1 hi
  have hout : ∀ u, u ≠ t → ¬Inside (s.pc u) := fun u hu hi' => by
    have := (h.held u).1 hi'
    rw [hl] at this
    exact hu (Option.some.inj this).symm
  exact {
    size := h.size
    rlen := by show s.rlen = (value (os ++ s.log)).length; rw [hv]; exact h.rlen
    fits := by show (value (os ++ s.log)).length ≤ 128; rw [hv]; exact h.fits
    held := fun u => by
      simp only [St.leave, St.at]
      by_cases hu : u = t
      · rw [if_pos hu]; exact ⟨fun h => h.elim, fun h => by cases h⟩
      · rw [if_neg hu]; exact ⟨fun h => absurd h (hout u hu), fun h => by cases h⟩
    whole := fun hw => by
      show s.sas.take (value (os ++ s.log)).length = value (os ++ s.log)
      rw [hv]
      refine h.whole fun u src i => ?_
      by_cases hu : u = t
      · subst hu; exact hn src i
      · intro hc; exact hout u hu (by rw [hc]; trivial)
    ok := fun u => by
      show Ok s.sas (value (os ++ s.log)) ((s.at t .idle).pc u)
      rw [hv]
      simp only [St.at]
      by_cases hu : u = t
      · rw [if_pos hu]; trivial
      · rw [if_neg hu]; exact h.ok u
    reg := hr }

/-- While another holds the mutex, nobody is writing. -/
theorem Inv.nobody {s : St} (h : Inv s) {t : Nat} (hi : Inside (s.pc t)) (hn : ∀ src i, s.pc t ≠ .set src i) :
    s.sas.take (value s.log).length = value s.log := by
  have hl := (h.held t).1 hi
  refine h.whole fun u src i hc => ?_
  by_cases hu : u = t
  · subst hu; exact hn src i hc
  · have := (h.held u).1 (by rw [hc]; trivial)
    rw [hl] at this
    exact hu (Option.some.inj this).symm

theorem get_whole {sas v : Bytes} (hw : sas.take v.length = v) {i : Nat} (hi : i < v.length) : sas[i]? = v[i]? := by
  conv_rhs => rw [← hw]
  rw [List.getElem?_take, if_pos hi]

theorem inv_go {s : St} (h : Inv s) (t : Nat) : ∃ s', go s t = .ok s' ∧ Inv s' := by
  have hok := h.ok t
  unfold go
  cases hp : s.pc t with
  | idle => exact ⟨s, rfl, h⟩
  | wantSet src =>
    rw [hp] at hok
    exact ⟨_, rfl, h.enter trivial (by rw [hp]; exact id) ⟨hok, Nat.zero_le _, rfl⟩⟩
  | wantGet cap =>
    rw [hp] at hok
    exact ⟨_, rfl, h.enter trivial (by rw [hp]; exact id) hok⟩
  | wantCmp sap => exact ⟨_, rfl, h.enter trivial (by rw [hp]; exact id) trivial⟩
  | stored => exact ⟨_, rfl, h.leave (by rw [hp]; trivial) (by rw [hp]; intro _ _ hc; cases hc) rfl h.reg⟩
  | set src i =>
    rw [hp] at hok
    obtain ⟨h1, h2, h3⟩ := hok
    have hin : Inside (s.pc t) := by rw [hp]; trivial
    have hl := (h.held t).1 hin
    have hout : ∀ u, u ≠ t → ¬Inside (s.pc u) := fun u hu hi' => by
      have := (h.held u).1 hi'
      rw [hl] at this
      exact hu (Option.some.inj this).symm
    cases hb : src[i]? with
    | some b =>
      have hlt := lt_of_get hb
      have hsz := h.size
      simp only [hb]
      rw [if_pos (by omega)]
      refine ⟨_, rfl, ?_⟩
      exact {
        size := by show (s.sas.set i b).length = 128; rw [List.length_set]; exact h.size
        rlen := h.rlen
        fits := h.fits
        held := fun u => by
          simp only [St.at]
          by_cases hu : u = t
          · subst hu; rw [if_pos rfl]; exact ⟨fun _ => hl, fun _ => trivial⟩
          · rw [if_neg hu]; exact h.held u
        whole := fun hw => by
          exact absurd (by simp only [St.at, if_true]) (hw t src (i + 1))
        ok := fun u => by
          simp only [St.at]
          by_cases hu : u = t
          · rw [if_pos hu]
            refine ⟨h1, hlt, ?_⟩
            show (s.sas.set i b).take (i + 1) = src.take (i + 1)
            rw [take_snoc hb, take_snoc (l := s.sas.set i b) (b := b) (by rw [List.getElem?_set_self (by omega)]),
              List.take_set_of_le (Nat.le_refl _), h3]
          · rw [if_neg hu]; exact ok_outside (hout u hu) (h.ok u)
        reg := h.reg }
    | none =>
      have hge : src.length ≤ i := List.getElem?_eq_none_iff.1 hb
      have hi : i = src.length := by omega
      simp only [hb]
      refine ⟨_, rfl, ?_⟩
      exact {
        size := h.size
        rlen := rfl
        fits := h1
        held := fun u => by
          simp only [St.at]
          by_cases hu : u = t
          · subst hu; rw [if_pos rfl]; exact ⟨fun _ => hl, fun _ => trivial⟩
          · rw [if_neg hu]; exact h.held u
        whole := fun _ => by
          show s.sas.take src.length = src
          rw [← hi, h3, hi, List.take_length]
        ok := fun u => by
          simp only [St.at]
          by_cases hu : u = t
          · rw [if_pos hu]; trivial
          · rw [if_neg hu]; exact ok_outside (hout u hu) (h.ok u)
        reg := h.reg }
  | get0 cap =>
    rw [hp] at hok
    refine ⟨_, rfl, h.move (by rw [hp]; exact Iff.rfl) (by rw [hp]; intro _ _ hc; cases hc) ?_⟩
    exact ⟨hok, h.rlen, Nat.zero_le _, rfl⟩
  | get cap n acc =>
    rw [hp] at hok
    obtain ⟨h1, h2, h3, h4⟩ := hok
    have hns : ∀ src i, s.pc t ≠ .set src i := by rw [hp]; intro _ _ hc; cases hc
    have hin : Inside (s.pc t) := by rw [hp]; trivial
    have hw := h.nobody hin hns
    have hf := h.fits
    simp only
    by_cases hlt : acc.length < n
    · rw [if_pos hlt]
      have hg := get_whole hw (i := acc.length) (by omega)
      cases hb : s.sas[acc.length]? with
      | none =>
        rw [hb] at hg
        have := List.getElem?_eq_none_iff.1 hg.symm
        omega
      | some b =>
        simp only
        rw [if_pos (by omega)]
        refine ⟨_, rfl, h.move (by rw [hp]; exact Iff.rfl) hns ⟨h1, h2, ?_, ?_⟩⟩
        · rw [List.length_append, List.length_singleton]; omega
        · rw [List.length_append, List.length_singleton, take_snoc (hg.symm.trans hb), ← h4]
    · rw [if_neg hlt]
      have he : acc = value s.log := by rw [h4, List.take_of_length_le (by omega)]
      exact ⟨_, rfl, h.leave hin hns rfl ⟨he, h.reg⟩⟩
  | cmp0 sap =>
    have hns : ∀ src i, s.pc t ≠ .set src i := by rw [hp]; intro _ _ hc; cases hc
    have hin : Inside (s.pc t) := by rw [hp]; trivial
    simp only
    by_cases hlen : sap.length ≠ s.rlen
    · rw [if_pos hlen]
      refine ⟨_, rfl, h.leave hin hns rfl ⟨⟨fun hc => by simp at hc, fun he => ?_⟩, h.reg⟩⟩
      exact absurd (by rw [h.rlen]; exact congrArg List.length he) hlen
    · rw [if_neg hlen]
      refine ⟨_, rfl, h.move (by rw [hp]; exact Iff.rfl) hns ⟨?_, Nat.zero_le _, rfl⟩⟩
      rw [← h.rlen]; exact Classical.not_not.1 hlen
  | cmp sap i =>
    rw [hp] at hok
    obtain ⟨h1, h2, h3⟩ := hok
    have hns : ∀ src i, s.pc t ≠ .set src i := by rw [hp]; intro _ _ hc; cases hc
    have hin : Inside (s.pc t) := by rw [hp]; trivial
    have hw := h.nobody hin hns
    cases hb : sap[i]? with
    | none =>
      have hge : sap.length ≤ i := List.getElem?_eq_none_iff.1 hb
      have he : sap = value s.log := by
        rw [← List.take_of_length_le hge, h3, List.take_of_length_le (by omega)]
      simp only [hb]
      exact ⟨_, rfl, h.leave hin hns rfl ⟨⟨fun _ => he, fun _ => rfl⟩, h.reg⟩⟩
    | some b =>
      have hlt := lt_of_get hb
      have hg := get_whole hw (i := i) (by omega)
      simp only [hb]
      cases hb' : s.sas[i]? with
      | none =>
        rw [hb'] at hg
        have := List.getElem?_eq_none_iff.1 hg.symm
        omega
      | some b' =>
        simp only
        by_cases hbb : b = b'
        · rw [if_pos hbb]
          subst hbb
          refine ⟨_, rfl, h.move (by rw [hp]; exact Iff.rfl) hns ⟨h1, hlt, ?_⟩⟩
          rw [take_snoc hb, take_snoc (hg.symm.trans hb'), h3]
        · rw [if_neg hbb]
          refine ⟨_, rfl, h.leave hin hns rfl ⟨⟨fun hc => by simp at hc, fun he => ?_⟩, h.reg⟩⟩
          rw [← hg.trans (congrArg (·[i]?) he).symm, hb'] at hb
          exact absurd (Option.some.inj hb).symm hbb

theorem run_inv (es : List Ev) (h : Proper es) : ∃ s, run es = .ok s ∧ Inv s := by
  induction es with
  | nil => exact ⟨_, rfl, inv_init⟩
  | cons e past ih =>
    obtain ⟨s, hs, hi⟩ := ih fun t p hm => h t p (List.mem_cons_of_mem _ hm)
    rw [run, hs]
    cases e with
    | go t => exact inv_go hi t
    | isempty t =>
      refine ⟨_, rfl, ?_⟩
      have hr := hi.rlen
      exact { hi with reg := ⟨by rw [decide_eq_true_iff, hr, List.length_eq_zero_iff], hi.reg⟩ }
    | call t p =>
      have hm := h t p (List.mem_cons_self ..)
      simp only [step]
      by_cases hp : s.pc t = .idle
      · rw [if_pos hp]
        refine ⟨_, rfl, hi.move ?_ (by rw [hp]; intro _ _ hc; cases hc) ?_⟩
        · rw [hp]; cases p <;> first | exact Iff.rfl | exact hm.elim
        · cases p <;> first | exact hm | trivial
      · rw [if_neg hp]; exact ⟨s, rfl, hi⟩

end Verif.Netaddr
