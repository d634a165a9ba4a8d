import Verif.Modman.Count

/-! The state of each module, and the references to the records. -/

namespace Verif.Modman

open Verif.Util

inductive Ph where
  | run
  | at (k : Kpc)
  | dead

def phase : Kap → Nat → Ph
  | .no, _ => .run
  | .done, _ => .dead
  | .run j' k, j => if j < j' then .dead else if j = j' then .at k else .run

def Thr.on : Thr → Prop
  | .idle => True
  | .busy _ => True
  | _ => False

def Thr.over : Thr → Prop
  | .off => True
  | .ended => True
  | _ => False

def Running (m : Mod) : Prop :=
  m.live = true ∧ m.built = true ∧ (m.cfg.aapi = true → m.thr.on) ∧ (m.cfg.aapi = false → m.thr = .off) ∧
    ∃ l, m.q = some l ∧ l.length ≤ qmax ∧ (∀ x ∈ l, x ≠ .term) ∧ (m.cfg.aapi = false → l = [])

def ModOk : Ph → Mod → Prop
  | .run, m => Running m
  | .at .put, m => Running m
  | .at .join, m => m.live = true ∧ m.built = true ∧
      ((m.thr.on ∧ ∃ l, m.q = some (l ++ [.term]) ∧ ∀ x ∈ l, x ≠ .term) ∨ (m.thr = .ended ∧ m.q = some []))
  | .at .destroy, m => m.live = true ∧ m.built = true ∧ m.thr.over ∧ m.q = some []
  | .at .dtor, m => m.live = true ∧ m.built = true ∧ m.thr.over ∧ m.q = none
  | .at .rel, m => m.live = true ∧ m.built = false ∧ m.thr.over ∧ m.q = none
  | .dead, m => m.live = false ∧ m.built = false ∧ m.thr.over ∧ m.q = none

def AllOk (s : St) : Prop := ∀ (j : Nat) (m : Mod), s.mods[j]? = some m → ModOk (phase s.kap j) m

def holdAcct : Spc → Nat
  | .relStrm => 0
  | .gone => 0
  | _ => 1

def own (ss : List Spc) : Rec → Nat
  | .sess i => optS holdAcct ss[i]?
  | .pkt _ _ => 0

def Mod.holds (r : Rec) (m : Mod) : Nat := (m.q.getD []).count (.job r) + (if m.thr = .busy r then 1 else 0)

/-- The references to the records are those counted, and `x` more. -/
def Refs (s : St) (x : Rec → Nat) : Prop := ∀ r, s.refs r = own s.sess r + tot (Mod.holds r) s.mods + x r

def none' : Rec → Nat := fun _ => 0

def one (r : Rec) : Rec → Nat := fun x => if x = r then 1 else 0

theorem decr_ok {s : St} {r : Rec} (h : Refs s (one r)) : ∃ s', s.decr r = .ok s' ∧ Refs s' none' ∧ s'.mods = s.mods := by
  have hr := h r
  simp only [one, if_true] at hr
  have hx : ∀ s' : St, s'.sess = s.sess → s'.mods = s.mods → (∀ x, s'.refs x = if x = r then s.refs r - 1 else s.refs x) →
      Refs s' none' := by
    intro s' h1 h2 h3 x
    rw [h1, h2, h3 x]
    have := h x
    unfold one at this
    unfold none'
    by_cases hx : x = r
    · subst hx; simp at *; omega
    · simp [hx] at *; omega
  unfold St.decr
  split
  case h_1 h0 => omega
  case h_2 h0 =>
    refine ⟨_, rfl, hx _ rfl rfl (fun x => ?_), rfl⟩
    simp only [St.emit, St.setR]
    split <;> omega
  case h_3 n hn h0 =>
    refine ⟨_, rfl, hx _ rfl rfl (fun x => ?_), rfl⟩
    simp only [St.setR]
    split <;> omega

theorem incr_ok {s : St} {r : Rec} (h : Refs s none') (hp : 0 < own s.sess r) :
    s.incr r = .ok (s.setR r (s.refs r + 1)) ∧ Refs (s.setR r (s.refs r + 1)) (one r) := by
  have hr := h r
  simp only [none'] at hr
  refine ⟨?_, fun x => ?_⟩
  · unfold St.incr
    rw [if_neg (by omega)]
  · have := h x
    simp only [St.setR, one, none'] at *
    by_cases hx : x = r
    · subst hx; simp; omega
    · simp [hx]; omega

theorem phase_run {s : St} (hk : s.kap = .no) (j : Nat) : phase s.kap j = .run := by rw [hk]; rfl

/-- A module changes. -/
theorem AllOk.setM {s : St} (h : AllOk s) {j : Nat} {m' : Mod} (hm : ModOk (phase s.kap j) m') :
    AllOk (s.setM j m') := by
  intro x m hx
  rcases get_set hx with ⟨e1, e2⟩ | ⟨_, hx⟩
  · subst e1; subst e2; exact hm
  · exact h x m hx

theorem Refs.setM {s : St} {x y : Rec → Nat} (h : Refs s x) {j : Nat} {m m' : Mod} (hj : s.mods[j]? = some m)
    (he : ∀ r, Mod.holds r m' + y r = Mod.holds r m + x r) : Refs (s.setM j m') y := by
  intro r
  have h1 := h r
  have h2 := tot_set (Mod.holds r) s.mods j m m' hj
  have h3 := he r
  simp only [St.setM] at *
  omega

theorem put_ok {s : St} {j : Nat} {m : Mod} {r : Rec} (ha : AllOk s) (hk : s.kap = .no) (hj : s.mods[j]? = some m)
    (hm : m.cfg.aapi = true) (h : Refs s (one r)) :
    ∃ s', s.put j r = .ok s' ∧ Refs s' none' ∧ AllOk s' := by
  have hr := ha j m hj
  rw [phase_run hk] at hr
  obtain ⟨hl, hb, ht, ho, l, hq, hlen, hnt, hn⟩ := hr
  unfold St.put
  simp only [hj, hl, hq]
  split
  case isTrue hlt =>
    refine ⟨_, rfl, h.setM hj (fun x => ?_), ha.setM ?_⟩
    · simp only [Mod.holds, hq, Option.getD_some, List.count_append, one, none']
      by_cases hx : x = r
      · subst hx; simp; omega
      · have : ¬ Item.job r = .job x := fun e => hx (by cases e; rfl)
        simp [hx, this]
    · rw [phase_run hk]
      refine ⟨rfl, hb, ht, ho, l ++ [.job r], rfl, ?_, ?_, ?_⟩
      · simp; omega
      · intro y hy
        rcases List.mem_append.mp hy with hy | hy
        · exact hnt y hy
        · have := List.mem_singleton.mp hy
          rw [this]; nofun
      · intro hf
        rw [hm] at hf; cases hf
  case isFalse hge =>
    obtain ⟨s', h1, h2, h3⟩ := decr_ok (s := s.emit (.full j r)) (r := r) h
    have hkap := decr_same h1
    refine ⟨s', h1, h2, ?_⟩
    intro x mx hx
    rw [h3] at hx
    rw [hkap.kap]
    exact ha x mx hx

theorem Refs.setS {s : St} {x : Rec → Nat} (h : Refs s x) {i : Nat} {pc pc' : Spc} (hi : s.sess[i]? = some pc)
    (he : holdAcct pc' = holdAcct pc) : Refs (s.setS i pc') x := by
  intro r
  have h1 := h r
  have : own (s.sess.set i pc') r = own s.sess r := by
    cases r with
    | pkt => rfl
    | sess k =>
      simp only [own]
      rw [List.getElem?_set]
      by_cases hk : i = k
      · subst hk
        have hl := (List.getElem?_eq_some_iff.mp hi).1
        rw [if_pos rfl, if_pos hl, hi]
        exact he
      · rw [if_neg hk]
  simp only [St.setS]
  rw [this]; exact h1

/-- The record has not been made. -/
def Unborn (s : St) : Rec → Prop
  | .sess i => s.sess[i]? = none
  | .pkt p j => ∀ k, s.pkts[p]? = some k → ∃ j', k.pc = some j' ∧ j' ≤ j

structure Inv (cs : List MCfg) (s : St) : Prop where
  cnt : Cnt cs s
  ok : AllOk s
  refs : Refs s none'
  fresh : ∀ r, Unborn s r → s.refs r = 0

theorem own_get {ss : List Spc} {i : Nat} {pc : Spc} (hi : ss[i]? = some pc) : own ss (.sess i) = holdAcct pc := by
  simp only [own, hi, optS]

theorem Inv.kap_no {cs : List MCfg} {s : St} (h : Inv cs s) {i : Nat} (hi : s.strm i ≠ 0) : s.kap = .no := by
  rcases h.cnt.early hi with he | he
  · exact h.cnt.kapn (by rw [he]; nofun) (by rw [he]; nofun)
  · exact h.cnt.kapn (by rw [he]; nofun) (by rw [he]; nofun)

theorem decr_refs_other {s s' : St} {r x : Rec} (h : s.decr r = .ok s') (hx : x ≠ r) : s'.refs x = s.refs x := by
  unfold St.decr at h
  split at h
  · cases h
  · cases h; simp [St.setR, St.emit, hx]
  · cases h; simp [St.setR, hx]

theorem put_refs_other {s s' : St} {j : Nat} {r x : Rec} (h : s.put j r = .ok s') (hx : x ≠ r) :
    s'.refs x = s.refs x := by
  unfold St.put at h
  split at h
  · cases h
  · split at h
    · split at h
      · cases h; rfl
      · exact decr_refs_other (s := s.emit _) h hx
    · cases h

theorem unborn_setS {s : St} {i : Nat} {pc : Spc} {r : Rec} (h : Unborn (s.setS i pc) r) : Unborn s r := by
  cases r with
  | pkt => exact h
  | sess k =>
    have : (s.sess.set i pc)[k]? = none := h
    show s.sess[k]? = none
    rw [List.getElem?_eq_none_iff] at this ⊢
    simpa using this

theorem Inv.refs_pos {cs : List MCfg} {s : St} (h : Inv cs s) {r : Rec} (hr : s.refs r ≠ 0) : ¬ Unborn s r :=
  fun hu => hr (h.fresh r hu)

theorem unborn_same {s s' : St} (g : Same s s') {r : Rec} : Unborn s' r ↔ Unborn s r := by
  cases r with
  | pkt => simp only [Unborn, g.pkts]
  | sess => simp only [Unborn, g.sess]

def Good (cs : List MCfg) (s : St) (e : Ev) : Prop :=
  ∀ x, step s e = some x → ∃ s', x = .ok s' ∧ AllOk s' ∧ Refs s' none' ∧ ∀ r, Unborn s' r → s'.refs r = 0

theorem good_newSess {cs : List MCfg} {s : St} (h : Inv cs s) : Good cs s .newSess := by
  intro x hx
  simp only [step] at hx
  split at hx
  case isFalse => cases hx
  case isTrue hr =>
    have hmm : s.mm ≠ 0 := by
      have := h.cnt.mmc
      rw [hr] at this
      simp only [mainHolds] at this
      omega
    have hn : own s.sess (.sess s.sess.length) = 0 := by simp [own, optS]
    have h0 : s.refs (.sess s.sess.length) = 0 := h.fresh _ (List.getElem?_eq_none (Nat.le_refl _))
    have hgen : ∀ (n : Nat), ∃ s', (Except.ok { (({ s with sess := s.sess ++ [.live] } : St).setT s.sess.length 1).setR
          (.sess s.sess.length) 1 with mm := n } : Except Fault St) = .ok s' ∧ AllOk s' ∧ Refs s' none' ∧
          ∀ r, Unborn s' r → s'.refs r = 0 := by
      intro n
      refine ⟨_, rfl, h.ok, fun r => ?_, fun r hu => ?_⟩
      · have h1 := h.refs r
        have h2 := h.refs (.sess s.sess.length)
        simp only [none', Nat.add_zero] at *
        simp only [St.setR, St.setT]
        cases r with
        | pkt p j => simpa [own] using h1
        | sess k =>
          by_cases hk : k = s.sess.length
          · subst hk
            simp [own, optS, holdAcct]
            rw [h0, hn] at h2
            omega
          · have hk2 : ¬ Rec.sess k = .sess s.sess.length := fun e => hk (by cases e; rfl)
            rw [if_neg hk2, h1]
            congr 1
            simp only [own]
            by_cases hl : k < s.sess.length
            · rw [List.getElem?_append_left hl]
            · have h1 : s.sess[k]? = none := List.getElem?_eq_none (by omega)
              have h2 : (s.sess ++ [Spc.live])[k]? = none := List.getElem?_eq_none (by simp; omega)
              rw [h1, h2]
      · cases r with
        | pkt p j =>
          have : s.refs (.pkt p j) = 0 := h.fresh _ hu
          simpa [St.setR, St.setT] using this
        | sess k =>
          have hu2 : (s.sess ++ [Spc.live])[k]? = none := hu
          rw [List.getElem?_eq_none_iff] at hu2
          simp at hu2
          have h3 : s.refs (.sess k) = 0 := h.fresh _ (List.getElem?_eq_none (by omega))
          have h4 : ¬ k = s.sess.length := by omega
          simp only [St.setR, St.setT]
          rw [if_neg (fun e => h4 (by cases e; rfl))]
          exact h3
    split at hx
    · cases hx
      exact hgen _
    · cases hx
      exact hgen s.mm

theorem good_endSess {cs : List MCfg} {s : St} (h : Inv cs s) (i : Nat) : Good cs s (.endSess i) := by
  intro x hx
  simp only [step] at hx
  split at hx
  case h_2 => cases hx
  case h_1 hi =>
    cases hx
    refine ⟨_, rfl, h.ok, h.refs.setS hi ?_, fun r hu => h.fresh r (unborn_setS hu)⟩
    split <;> rfl

theorem getM_ok {s : St} (ha : AllOk s) (hk : s.kap = .no) {j : Nat} {m : Mod} (hj : s.mods[j]? = some m) :
    Running m := by
  have := ha j m hj
  rw [phase_run hk] at this
  exact this

theorem good_acct {cs : List MCfg} {s : St} (h : Inv cs s) (i j : Nat) (b : Bool) : Good cs s (.acct i j b) := by
  intro x hx
  simp only [step] at hx
  split at hx
  case isFalse => cases hx
  case isTrue hi =>
    have hk := h.kap_no (h.cnt.sess_strm hi (by nofun))
    simp only [Option.some.injEq] at hx
    unfold St.stepAcct at hx
    split at hx
    · subst hx
      exact ⟨_, rfl, h.ok, h.refs.setS hi rfl, fun r hu => h.fresh r (unborn_setS hu)⟩
    case h_2 m hm =>
      split at hx
      case isFalse =>
        subst hx
        exact ⟨_, rfl, h.ok, h.refs.setS hi rfl, fun r hu => h.fresh r (unborn_setS hu)⟩
      case isTrue hd =>
        have haapi : m.cfg.aapi = true := by
          unfold MCfg.doAcct at hd
          simp at hd; exact hd.1
        have hmm : s.mm ≠ 0 := by
          have := h.cnt.mmc
          have h2 := tot_ge (holdMm (anyAcct s.mods)) s.sess i _ hi
          simp only [holdMm] at h2
          omega
        unfold St.doAcct at hx
        rw [if_neg hmm] at hx
        cases b with
        | false =>
          simp at hx
          subst hx
          exact ⟨_, rfl, h.ok, Refs.setS (s := s.emit _) h.refs hi rfl, fun r hu => h.fresh r (unborn_setS (s := s.emit _) hu)⟩
        | true =>
          have hp : 0 < own s.sess (.sess i) := by rw [own_get hi]; simp [holdAcct]
          obtain ⟨h1, h2⟩ := incr_ok h.refs hp
          simp only [if_true] at hx
          rw [h1] at hx
          obtain ⟨s', h3, h4, h5⟩ := put_ok (s := s.setR (.sess i) (s.refs (.sess i) + 1)) (j := j) (m := m) h.ok hk hm haapi h2
          simp only [h3] at hx
          subst hx
          have g := (setR_same s (.sess i) (s.refs (.sess i) + 1)).trans (put_same h3)
          refine ⟨_, rfl, h5, h4.setS (pc := .acct j) (by rw [g.sess]; exact hi) rfl, fun r hu => ?_⟩
          have hu2 := (unborn_same g).mp (unborn_setS hu)
          have hne : r ≠ .sess i := by
            intro e; subst e
            have : s.sess[i]? = none := hu2
            rw [hi] at this; cases this
          show s'.refs r = 0
          rw [put_refs_other h3 hne]
          simp only [St.setR, if_neg hne]
          exact h.fresh r hu2

theorem good_relMm {cs : List MCfg} {s : St} (h : Inv cs s) (i : Nat) : Good cs s (.relMm i) := by
  intro x hx
  cases x with
  | error f =>
    exfalso
    simp only [step] at hx
    split at hx
    case isFalse => cases hx
    case isTrue hi =>
      have hmm := h.cnt.mmc
      have h2 := tot_ge (holdMm (anyAcct s.mods)) s.sess i _ hi
      simp only [holdMm] at h2
      split at hx
      case h_1 e he =>
        unfold St.decMm at he
        split at he
        case h_1 h0 => omega
        case h_2 => cases he
        case h_3 => cases he
      case h_2 => cases hx
  | ok s' =>
    obtain ⟨hc, he⟩ := h.cnt.relMm hx
    have hi : s.sess[i]? = some .relMm := by
      simp only [step] at hx
      split at hx
      · assumption
      · cases hx
    subst he
    exact ⟨_, rfl, h.ok, Refs.setS (s := { s with mm := s.mm - 1 }) h.refs hi rfl,
      fun r hu => h.fresh r (unborn_setS (s := { s with mm := s.mm - 1 }) hu)⟩

theorem good_relAcct {cs : List MCfg} {s : St} (h : Inv cs s) (i : Nat) : Good cs s (.relAcct i) := by
  intro x hx
  simp only [step] at hx
  split at hx
  case isFalse => cases hx
  case isTrue hi =>
    have hr2 : Refs (s.setS i .relStrm) (one (.sess i)) := by
      intro r
      have h1 := h.refs r
      simp only [none', Nat.add_zero] at h1
      simp only [St.setS, one]
      rw [h1]
      cases r with
      | pkt => simp [own]
      | sess k =>
        simp only [own]
        rw [List.getElem?_set]
        by_cases hk : k = i
        · subst hk
          have hl := (List.getElem?_eq_some_iff.mp hi.1).1
          rw [if_pos rfl, if_pos hl, if_pos rfl, hi.1]
          simp only [optS, holdAcct]; omega
        · have hk2 : ¬ Rec.sess k = .sess i := fun e => hk (by cases e; rfl)
          rw [if_neg hk2, if_neg (fun e => hk e.symm)]; rfl
    obtain ⟨s2, h2, h3, h4⟩ := decr_ok hr2
    -- the same without the change of the session
    have hcomm : s.decr (.sess i) = .ok { s2 with sess := s.sess } := by
      unfold St.decr at h2 ⊢
      simp only [St.setS] at h2
      cases hc : s.refs (.sess i) with
      | zero => simp [hc] at h2
      | succ n => cases n with
        | zero => simp only [hc] at h2 ⊢; cases h2; rfl
        | succ n => simp only [hc] at h2 ⊢; cases h2; rfl
    have hse : s2.sess = s.sess.set i .relStrm := (decr_same h2).sess
    have hs2 : ({ s2 with sess := s.sess } : St).setS i .relStrm = s2 := by
      unfold St.setS
      simp only [← hse]
    rw [hcomm] at hx
    simp only [Option.some.injEq] at hx
    subst hx
    rw [hs2]
    have g := decr_same h2
    refine ⟨s2, rfl, ?_, h3, fun r hu => ?_⟩
    · intro j m hj
      rw [h4] at hj
      rw [g.kap]; exact h.ok j m hj
    · have hu2 := unborn_setS ((unborn_same g).mp hu)
      have hne : r ≠ .sess i := by
        intro e; subst e
        have : s.sess[i]? = none := hu2
        rw [hi.1] at this; cases this
      rw [decr_refs_other h2 hne]
      exact h.fresh r hu2

theorem good_relStrm {cs : List MCfg} {s : St} (h : Inv cs s) (i : Nat) : Good cs s (.relStrm i) := by
  intro x hx
  simp only [step] at hx
  split at hx
  case isFalse => cases hx
  case isTrue hi =>
    rw [if_neg (h.cnt.sess_strm hi (by nofun))] at hx
    cases hx
    exact ⟨_, rfl, h.ok, Refs.setS (s := s.setT i (s.strm i - 1)) h.refs hi rfl,
      fun r hu => h.fresh r (unborn_setS (s := s.setT i (s.strm i - 1)) hu)⟩

theorem good_newPkt {cs : List MCfg} {s : St} (h : Inv cs s) (i : Nat) : Good cs s (.newPkt i) := by
  intro x hx
  simp only [step] at hx
  split at hx
  case isFalse => cases hx
  case isTrue hi =>
    cases hx
    refine ⟨_, rfl, h.ok, h.refs, fun r hu => h.fresh r ?_⟩
    cases r with
    | sess => exact hu
    | pkt p j =>
      intro k hk
      refine hu k ?_
      show (s.pkts ++ _)[p]? = some k
      rw [List.getElem?_append_left (List.getElem?_eq_some_iff.mp hk).1]; exact hk

theorem unborn_setK {s : St} {p i j j' : Nat} (hp : s.pkts[p]? = some ⟨i, some j⟩) (hj : j ≤ j') {r : Rec}
    (h : Unborn (s.setK p ⟨i, some j'⟩) r) : Unborn s r := by
  cases r with
  | sess => exact h
  | pkt q l =>
    intro k hk
    by_cases hq : q = p
    · subst hq
      rw [hp] at hk; cases hk
      have hl := (List.getElem?_eq_some_iff.mp hp).1
      obtain ⟨j2, e, hle⟩ := h ⟨i, some j'⟩ (by simp [St.setK, hl])
      cases e
      exact ⟨j, rfl, by omega⟩
    · exact h k (get_set_other hq hk)

theorem good_pkt {cs : List MCfg} {s : St} (h : Inv cs s) (p j : Nat) (md : Made) : Good cs s (.pkt p j md) := by
  intro x hx
  simp only [step] at hx
  split at hx
  case h_2 => cases hx
  case h_1 i j' hp =>
    split at hx
    case isFalse => cases hx
    case isTrue hj =>
      subst hj
      have hk := h.kap_no (h.cnt.pkt_strm hp)
      split at hx
      case h_2 => cases hx
      case h_1 m hm =>
        have hlt := (List.getElem?_eq_some_iff.mp hm).1
        simp only [Option.some.injEq] at hx
        unfold St.stepPkt at hx
        split at hx
        case isFalse =>
          subst hx
          exact ⟨_, rfl, h.ok, h.refs, fun r hu => h.fresh r (unborn_setK hp (Nat.le_succ _) hu)⟩
        case isTrue hd =>
          have haapi : m.cfg.aapi = true := by
            unfold MCfg.doRtcp at hd
            simp at hd; exact hd.1
          have hrun := getM_ok h.ok hk hm
          rw [if_pos hrun.1] at hx
          have h0 : s.refs (.pkt p j') = 0 := h.fresh _ (fun k hk => by
            rw [hp] at hk; cases hk; exact ⟨j', rfl, Nat.le_refl _⟩)
          have hx1 : Refs (s.setR (.pkt p j') 1) (one (.pkt p j')) := by
            intro r
            have h1 := h.refs r
            simp only [none', Nat.add_zero] at h1
            simp only [St.setR, one]
            by_cases hr : r = .pkt p j'
            · subst hr; simp; omega
            · simp [hr]; exact h1
          have hne : ∀ r, Unborn (s.setK p ⟨i, some (j' + 1)⟩) r → r ≠ .pkt p j' := by
            intro r hu e
            subst e
            have hl := (List.getElem?_eq_some_iff.mp hp).1
            obtain ⟨j2, e, hle⟩ := hu ⟨i, some (j' + 1)⟩ (by simp [St.setK, hl])
            cases e
            omega
          have hun : ∀ (s1 : St), Same s s1 → ∀ r, Unborn (s1.setK p ⟨i, some (j' + 1)⟩) r →
              Unborn (s.setK p ⟨i, some (j' + 1)⟩) r := by
            intro s1 g r hu
            cases r with
            | sess => simpa [Unborn, St.setK, g.sess] using hu
            | pkt => simpa [Unborn, St.setK, g.pkts] using hu
          unfold St.doRtcp at hx
          split at hx
          · subst hx
            exact ⟨_, rfl, h.ok, h.refs, fun r hu => h.fresh r (unborn_setK hp (by omega) hu)⟩
          · obtain ⟨s1, h1, h2, h3⟩ := decr_ok (s := (s.setR (.pkt p j') 1).emit (.nomem j' (.pkt p j'))) hx1
            simp only [h1] at hx
            subst hx
            have g := ((setR_same s (.pkt p j') 1).trans (emit_same _ _)).trans (decr_same h1)
            refine ⟨_, rfl, ?_, h2, fun r hu => ?_⟩
            · intro y my hy
              have hy2 : s1.mods[y]? = some my := hy
              rw [h3] at hy2
              show ModOk (phase s1.kap y) my
              rw [g.kap]; exact h.ok y my hy2
            · have hu2 := hun s1 g r hu
              have hr := hne r hu2
              show s1.refs r = 0
              rw [decr_refs_other h1 hr]
              simp only [St.emit, St.setR, if_neg hr]
              exact h.fresh r (unborn_setK hp (Nat.le_succ _) hu2)
          · obtain ⟨s1, h1, h2, h3⟩ := put_ok (s := s.setR (.pkt p j') 1) (j := j') (m := m) h.ok hk hm haapi hx1
            simp only [h1] at hx
            subst hx
            have g := (setR_same s (.pkt p j') 1).trans (put_same h1)
            refine ⟨_, rfl, h3, h2, fun r hu => ?_⟩
            have hu2 := hun s1 g r hu
            have hr := hne r hu2
            show s1.refs r = 0
            rw [put_refs_other h1 hr]
            simp only [St.setR, if_neg hr]
            exact h.fresh r (unborn_setK hp (Nat.le_succ _) hu2)

theorem good_endPkt {cs : List MCfg} {s : St} (h : Inv cs s) (p : Nat) : Good cs s (.endPkt p) := by
  intro x hx
  simp only [step] at hx
  split at hx
  case h_2 => cases hx
  case h_1 i j hp =>
    split at hx
    case isFalse => cases hx
    case isTrue hj =>
      rw [if_neg (h.cnt.pkt_strm hp)] at hx
      cases hx
      refine ⟨_, rfl, h.ok, h.refs, fun r hu => h.fresh r ?_⟩
      cases r with
      | sess => exact hu
      | pkt q l =>
        intro k hk
        by_cases hq : q = p
        · subst hq
          have hl := (List.getElem?_eq_some_iff.mp hp).1
          obtain ⟨j2, e, hle⟩ := hu ⟨i, none⟩ (by simp [St.setK, St.setT, hl])
          cases e
        · exact hu k (get_set_other hq hk)

/-- The thread of a module is running, so that it has a queue. -/
theorem on_queue {ph : Ph} {m : Mod} (h : ModOk ph m) (ht : m.thr.on) :
    m.live = true ∧ m.built = true ∧ ∃ l, m.q = some l := by
  unfold ModOk at h
  split at h
  · obtain ⟨h1, h2, _, _, l, h3, _⟩ := h; exact ⟨h1, h2, l, h3⟩
  · obtain ⟨h1, h2, _, _, l, h3, _⟩ := h; exact ⟨h1, h2, l, h3⟩
  · obtain ⟨h1, h2, h3⟩ := h
    rcases h3 with ⟨_, l, h3, _⟩ | ⟨h3, h4⟩
    · exact ⟨h1, h2, _, h3⟩
    · exact ⟨h1, h2, _, h4⟩
  all_goals
    exfalso
    obtain ⟨_, _, h3, _⟩ := h
    cases hc : m.thr <;> rw [hc] at ht h3 <;> first | exact ht | exact h3

/-- The thread goes on. -/
theorem ok_thr {ph : Ph} {m : Mod} (h : ModOk ph m) (ht : m.thr.on) (t : Thr) (hon : t.on) :
    ModOk ph { m with thr := t } := by
  unfold ModOk at h ⊢
  have hna : ¬ m.thr = .off := by intro e; rw [e] at ht; exact ht
  split at h
  · obtain ⟨h1, h2, h3, h4, h5⟩ := h
    exact ⟨h1, h2, fun _ => hon, fun hf => absurd (h4 hf) hna, h5⟩
  · obtain ⟨h1, h2, h3, h4, h5⟩ := h
    exact ⟨h1, h2, fun _ => hon, fun hf => absurd (h4 hf) hna, h5⟩
  · obtain ⟨h1, h2, h3⟩ := h
    rcases h3 with ⟨_, l, h3, h4⟩ | ⟨h3, h4⟩
    · exact ⟨h1, h2, .inl ⟨hon, l, h3, h4⟩⟩
    · rw [h3] at ht; exact absurd ht id
  all_goals
    exfalso
    obtain ⟨_, _, h3, _⟩ := h
    cases hc : m.thr <;> rw [hc] at ht h3 <;> first | exact ht | exact h3

theorem ok_take {ph : Ph} {m : Mod} {r : Rec} {l : List Item} (h : ModOk ph m) (ht : m.thr.on)
    (hq : m.q = some (.job r :: l)) : ModOk ph { m with q := some l } := by
  unfold ModOk at h ⊢
  have hrun : ∀ m : Mod, m.thr.on → m.q = some (.job r :: l) → Running m → Running { m with q := some l } := by
    intro m ht hq ⟨h1, h2, h3, h4, l', h5, h6, h7, h8⟩
    rw [hq] at h5; cases h5
    refine ⟨h1, h2, h3, h4, l, rfl, ?_, fun x hx => h7 x (List.mem_cons_of_mem _ hx), ?_⟩
    · simp at h6; omega
    · intro hf
      rw [h4 hf] at ht; exact absurd ht id
  split at h
  · exact hrun m ht hq h
  · exact hrun m ht hq h
  · obtain ⟨h1, h2, h3⟩ := h
    rcases h3 with ⟨_, l2, h3, h4⟩ | ⟨h3, h4⟩
    · rw [hq] at h3
      cases l2 with
      | nil => simp at h3
      | cons a l2 =>
        simp at h3
        refine ⟨h1, h2, .inl ⟨ht, l2, ?_, fun x hx => h4 x (List.mem_cons_of_mem _ hx)⟩⟩
        show some l = _
        rw [h3.2]
    · rw [h3] at ht; exact absurd ht id
  all_goals
    exfalso
    obtain ⟨_, _, h3, _⟩ := h
    cases hc : m.thr <;> rw [hc] at ht h3 <;> first | exact ht | exact h3

theorem ok_term {ph : Ph} {m : Mod} {l : List Item} (h : ModOk ph m) (ht : m.thr.on)
    (hq : m.q = some (.term :: l)) : l = [] ∧ ModOk ph { m with q := some l, thr := .ended } := by
  unfold ModOk at h ⊢
  split at h
  · obtain ⟨h1, h2, h3, h4, l', h5, h6, h7, h8⟩ := h
    rw [hq] at h5; cases h5
    exact absurd rfl (h7 .term List.mem_cons_self)
  · obtain ⟨h1, h2, h3, h4, l', h5, h6, h7, h8⟩ := h
    rw [hq] at h5; cases h5
    exact absurd rfl (h7 .term List.mem_cons_self)
  · obtain ⟨h1, h2, h3⟩ := h
    rcases h3 with ⟨_, l2, h3, h4⟩ | ⟨h3, h4⟩
    · rw [hq] at h3
      cases l2 with
      | nil =>
        simp at h3
        subst h3
        exact ⟨rfl, h1, h2, .inr ⟨rfl, rfl⟩⟩
      | cons a l2 =>
        simp at h3
        exact absurd h3.1.symm (h4 a List.mem_cons_self)
    · rw [h3] at ht; exact absurd ht id
  all_goals
    exfalso
    obtain ⟨_, _, h3, _⟩ := h
    cases hc : m.thr <;> rw [hc] at ht h3 <;> first | exact ht | exact h3

theorem good_take {cs : List MCfg} {s : St} (h : Inv cs s) (j : Nat) : Good cs s (.take j) := by
  intro x hx
  simp only [step] at hx
  split at hx
  case h_2 => cases hx
  case h_1 m hm =>
    have hok := h.ok j m hm
    unfold St.stepTake at hx
    split at hx
    case h_1 ht hq =>
      obtain ⟨_, _, l, hl⟩ := on_queue hok (by rw [ht]; trivial)
      rw [hq] at hl; cases hl
    case h_2 => cases hx
    case h_3 l ht hq =>
      cases hx
      obtain ⟨_, hk⟩ := ok_term hok (by rw [ht]; trivial) hq
      refine ⟨_, rfl, h.ok.setM hk, h.refs.setM hm (fun r => ?_), h.fresh⟩
      simp [Mod.holds, hq, ht]
    case h_4 r l ht hq =>
      obtain ⟨h1, h2, _⟩ := on_queue hok (by rw [ht]; trivial)
      have hpos : 0 < s.refs r := by
        have h3 := h.refs r
        have h4 := tot_ge (Mod.holds r) s.mods j m hm
        have h5 : 1 ≤ Mod.holds r m := by simp [Mod.holds, hq]; omega
        omega
      rw [if_pos ⟨h2, h1, hpos⟩] at hx
      cases hx
      have hk := ok_take hok (by rw [ht]; trivial) hq
      have hk2 := ok_thr hk (by show m.thr.on; rw [ht]; trivial) (.busy r) trivial
      refine ⟨_, rfl, AllOk.setM h.ok hk2, ?_, h.fresh⟩
      refine Refs.setM (m' := { m with q := some l, thr := .busy r }) h.refs hm (fun y => ?_)
      simp only [Mod.holds, hq, ht, Option.getD_some, none', List.count_cons]
      by_cases hy : r = y
      · subst hy; simp
      · simp [hy]
    case h_5 => cases hx

theorem good_ret {cs : List MCfg} {s : St} (h : Inv cs s) (j : Nat) : Good cs s (.ret j) := by
  intro x hx
  simp only [step] at hx
  split at hx
  case h_2 => cases hx
  case h_1 m hm =>
    have hok := h.ok j m hm
    unfold St.stepRet at hx
    split at hx
    case h_2 => cases hx
    case h_1 r ht =>
      simp only [Option.some.injEq] at hx
      have hr : Refs (s.setM j { m with thr := .idle }) (one r) := by
        refine h.refs.setM hm (fun y => ?_)
        simp only [Mod.holds, ht, one, none']
        by_cases hy : r = y
        · subst hy; simp
        · have hy2 : ¬ y = r := fun e => hy e.symm
          simp [hy, hy2]
      obtain ⟨s', h1, h2, h3⟩ := decr_ok hr
      rw [h1] at hx
      have g := decr_same h1
      have hk2 := ok_thr hok (by rw [ht]; trivial) .idle trivial
      refine ⟨s', hx.symm, ?_, h2, fun y hu => ?_⟩
      · intro y my hy
        rw [h3] at hy
        rw [g.kap]
        exact (AllOk.setM h.ok hk2) y my hy
      · have hu2 : Unborn s y := by
          have := (unborn_same g).mp hu
          cases y <;> exact this
        have hne : y ≠ r := by
          intro e; subst e
          have h3 := h.refs y
          have h4 := tot_ge (Mod.holds y) s.mods j m hm
          have h5 : 1 ≤ Mod.holds y m := by simp [Mod.holds, ht]
          have h6 := h.fresh y hu2
          omega
        rw [decr_refs_other h1 hne]
        exact h.fresh y hu2

theorem phase_start {ms : List Mod} {j : Nat} (hj : j < ms.length) : ∀ m, ModOk .run m → ModOk (phase (kstart ms) j) m := by
  intro m h
  have hne : ms ≠ [] := by intro e; rw [e] at hj; simp at hj
  unfold kstart
  rw [if_neg hne]
  simp only [phase]
  rw [if_neg (by omega)]
  split
  · exact h
  · exact h

theorem good_rel {cs : List MCfg} {s : St} (h : Inv cs s) : Good cs s .rel := by
  intro x hx
  cases x with
  | error f =>
    exfalso
    simp only [step] at hx
    split at hx
    case isFalse => cases hx
    case isTrue hr =>
      have hmm := h.cnt.mmc
      rw [hr] at hmm
      simp only [mainHolds] at hmm
      split at hx
      case h_1 e he =>
        unfold St.decMm at he
        split at he
        case h_1 h0 => omega
        case h_2 => cases he
        case h_3 => cases he
      case h_2 => cases hx
  | ok s' =>
    obtain ⟨_, _, hk, he⟩ := h.cnt.rel hx
    subst he
    refine ⟨_, rfl, fun j m hj => ?_, h.refs, h.fresh⟩
    exact phase_start (List.getElem?_eq_some_iff.mp hj).1 m (getM_ok h.ok hk hj)

/-- The destructor goes on to another step of the same module. -/
theorem AllOk.kap {s : St} (h : AllOk s) {j : Nat} {k k' : Kpc} (hk : s.kap = .run j k) {m' : Mod} {ms : List Mod}
    (hms : ms = s.mods.set j m') (hm : ModOk (.at k') m') : ∀ (x : Nat) (m : Mod), ms[x]? = some m →
    ModOk (phase (.run j k') x) m := by
  subst hms
  intro x m hx
  rcases get_set hx with ⟨e1, e2⟩ | ⟨hne, hx⟩
  · subst e1; subst e2
    simp only [phase]
    rw [if_neg (by omega)]; simp; exact hm
  · have := h x m hx
    rw [hk] at this
    simp only [phase, if_neg hne] at this ⊢
    exact this

theorem set_self {l : List α} {j : Nat} {m : α} (h : l[j]? = some m) : l = l.set j m := by
  apply List.ext_getElem?
  intro i
  rw [List.getElem?_set]
  by_cases hij : j = i
  · subst hij
    have := (List.getElem?_eq_some_iff.mp h).1
    rw [if_pos rfl, if_pos this, h]
  · rw [if_neg hij]

theorem good_kap {cs : List MCfg} {s : St} (h : Inv cs s) : Good cs s .kap := by
  intro x hx
  simp only [step] at hx
  split at hx
  case h_2 => cases hx
  case h_1 j k hk =>
    split at hx
    case h_2 hn =>
      have := h.cnt.kapl j k hk
      rw [List.getElem?_eq_none_iff] at hn
      omega
    case h_1 m hm =>
      have hok := h.ok j m hm
      rw [hk] at hok
      simp only [phase, Nat.lt_irrefl, if_true, if_false] at hok
      unfold St.stepKap at hx
      split at hx
      · -- put
        obtain ⟨h1, h2, h3, h4, l, h5, h6, h7, h8⟩ := hok
        split at hx
        case isTrue ht =>
          cases hx
          refine ⟨_, rfl, h.ok.kap hk (set_self hm) ⟨h1, h2, by rw [ht]; trivial, ?_⟩, h.refs, h.fresh⟩
          rw [h5]
          cases ha : m.cfg.aapi with
          | false => rw [h8 ha]
          | true =>
            have := h3 ha
            rw [ht] at this; exact absurd this id
        case isFalse ht =>
          simp only [h5] at hx
          split at hx
          case isFalse => cases hx
          case isTrue hlt =>
            cases hx
            have hon : m.thr.on := by
              cases ha : m.cfg.aapi with
              | false => exact absurd (h4 ha) ht
              | true => exact h3 ha
            refine ⟨_, rfl, h.ok.kap hk rfl ⟨h1, h2, .inl ⟨hon, l, rfl, h7⟩⟩, ?_, h.fresh⟩
            refine Refs.setM (m' := { m with q := some (l ++ [.term]) }) h.refs hm (fun y => ?_)
            simp [Mod.holds, h5]
      · -- join
        split at hx
        case isFalse => cases hx
        case isTrue ht =>
          cases hx
          obtain ⟨h1, h2, h3⟩ := hok
          refine ⟨_, rfl, h.ok.kap hk (set_self hm) ⟨h1, h2, by rw [ht]; trivial, ?_⟩, h.refs, h.fresh⟩
          rcases h3 with ⟨h3, _⟩ | ⟨_, h3⟩
          · rw [ht] at h3; exact absurd h3 id
          · exact h3
      · -- destroy
        obtain ⟨h1, h2, h3, h4⟩ := hok
        simp only [h4] at hx
        cases hx
        refine ⟨_, rfl, h.ok.kap hk rfl ⟨h1, h2, h3, rfl⟩, ?_, h.fresh⟩
        refine Refs.setM (m' := { m with q := none }) h.refs hm (fun y => ?_)
        simp [Mod.holds, h4]
      · -- dtor
        obtain ⟨h1, h2, h3, h4⟩ := hok
        rw [if_pos h2] at hx
        cases hx
        refine ⟨_, rfl, h.ok.kap hk rfl ⟨h1, rfl, h3, h4⟩, ?_, h.fresh⟩
        refine Refs.setM (m' := { m with built := false }) h.refs hm (fun y => ?_)
        simp [Mod.holds]
      · -- rel
        obtain ⟨h1, h2, h3, h4⟩ := hok
        rw [if_pos h1] at hx
        cases hx
        refine ⟨_, rfl, ?_, ?_, h.fresh⟩
        · intro y my hy
          show ModOk (phase (knext s.mods j) y) my
          have hlen : y < s.mods.length := by
            have := (List.getElem?_eq_some_iff.mp hy).1
            simpa [St.setM] using this
          have hdead : ∀ n, n = y → phase (knext s.mods j) y = .dead ∨ j < y := by
            intro n _
            by_cases hy : j < y
            · exact .inr hy
            · left
              unfold knext
              split
              · simp only [phase]; rw [if_pos (by omega)]
              · rfl
          rcases get_set hy with ⟨e1, e2⟩ | ⟨hne, hy⟩
          · subst e1; subst e2
            rcases hdead y rfl with hd | hd
            · rw [hd]; exact ⟨rfl, h2, h3, h4⟩
            · omega
          · have hold := h.ok y my hy
            rw [hk] at hold
            simp only [phase, if_neg hne] at hold
            rcases hdead y rfl with hd | hd
            · rw [hd]
              by_cases hlt : y < j
              · rw [if_pos hlt] at hold; exact hold
              · unfold knext at hd
                split at hd
                · simp only [phase] at hd
                  split at hd
                  · omega
                  · split at hd <;> cases hd
                · omega
            · rw [if_neg (by omega)] at hold
              unfold knext
              rw [if_pos (by omega)]
              simp only [phase]
              rw [if_neg (by omega)]
              split
              · exact hold
              · exact hold
        · refine Refs.setM (m' := { m with live := false }) h.refs hm (fun y => ?_)
          simp [Mod.holds]

theorem inv_step {cs : List MCfg} {s : St} (h : Inv cs s) (e : Ev) : ∀ x, step s e = some x →
    ∃ s', x = .ok s' ∧ Inv cs s' := by
  have hg : Good cs s e → ∀ x, step s e = some x → ∃ s', x = .ok s' ∧ Inv cs s' := by
    intro hg x hx
    obtain ⟨s', rfl, h1, h2, h3⟩ := hg x hx
    exact ⟨s', rfl, h.cnt.step e hx, h1, h2, h3⟩
  cases e with
  | newSess => exact hg (good_newSess h)
  | endSess => exact hg (good_endSess h _)
  | acct => exact hg (good_acct h _ _ _)
  | relMm => exact hg (good_relMm h _)
  | relAcct => exact hg (good_relAcct h _)
  | relStrm => exact hg (good_relStrm h _)
  | newPkt => exact hg (good_newPkt h _)
  | pkt => exact hg (good_pkt h _ _ _)
  | endPkt => exact hg (good_endPkt h _)
  | take => exact hg (good_take h _)
  | ret => exact hg (good_ret h _)
  | stop =>
    refine hg (fun x hx => ?_)
    simp only [step] at hx
    split at hx
    · cases hx; exact ⟨_, rfl, h.ok, h.refs, h.fresh⟩
    · cases hx
  | wait =>
    refine hg (fun x hx => ?_)
    simp only [step] at hx
    split at hx
    · cases hx; exact ⟨_, rfl, h.ok, h.refs, h.fresh⟩
    · cases hx
  | rel => exact hg (good_rel h)
  | kap => exact hg (good_kap h)
  | fin =>
    refine hg (fun x hx => ?_)
    simp only [step] at hx
    split at hx
    · cases hx; exact ⟨_, rfl, h.ok, h.refs, h.fresh⟩
    · cases hx

theorem init_ok (c : MCfg) : Running (Mod.init c) := by
  refine ⟨rfl, rfl, fun h => ?_, fun h => ?_, [], rfl, Nat.zero_le _, nofun, fun _ => rfl⟩
  · simp only [Mod.init] at h ⊢
    rw [if_pos h]; trivial
  · simp only [Mod.init] at h ⊢
    rw [h]; rfl

theorem inv_init (cs : List MCfg) : Inv cs (St.init cs) where
  cnt := Cnt.init cs
  ok := fun j m hj => by
    have : m ∈ cs.map Mod.init := List.mem_of_getElem? hj
    obtain ⟨c, _, rfl⟩ := List.mem_map.mp this
    exact init_ok c
  refs := fun r => by
    have : tot (Mod.holds r) (cs.map Mod.init) = 0 := by
      apply tot_zero
      intro m hm
      obtain ⟨c, _, rfl⟩ := List.mem_map.mp hm
      have : ¬ (Mod.init c).thr = .busy r := by
        simp only [Mod.init]; split <;> nofun
      simp only [Mod.holds, if_neg this]
      rfl
    show 0 = own [] r + tot (Mod.holds r) (cs.map Mod.init) + 0
    rw [this]
    cases r <;> rfl
  fresh := fun _ _ => rfl

end Verif.Modman
