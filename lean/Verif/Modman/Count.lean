import Verif.Modman.Spec
import Verif.Util.Tot

/-! The counts of references to the manager and to the streams. -/

namespace Verif.Modman

open Verif.Util

def mainHolds : Mpc → Nat
  | .run => 1
  | .stop => 1
  | .rel => 1
  | _ => 0

def holdMm (a : Bool) : Spc → Nat
  | .live => if a then 1 else 0
  | .acct _ => 1
  | .relMm => 1
  | _ => 0

def holdStrm : Spc → Nat
  | .gone => 0
  | _ => 1

def pktOn (i : Nat) (k : Pkt) : Nat := if k.i = i ∧ k.pc ≠ none then 1 else 0

def optS (f : Spc → Nat) : Option Spc → Nat
  | none => 0
  | some pc => f pc

def SpcOk (a : Bool) (n : Nat) : Spc → Prop
  | .acct j => a = true ∧ j ≤ n
  | .relMm => a = true
  | _ => True

structure Cnt (cs : List MCfg) (s : St) : Prop where
  cfg : s.mods.map (·.cfg) = cs
  mmc : s.mm = mainHolds s.main + tot (holdMm (anyAcct s.mods)) s.sess
  strm : ∀ i, s.strm i = optS holdStrm s.sess[i]? + tot (pktOn i) s.pkts
  pktlt : ∀ (p : Nat) (k : Pkt), s.pkts[p]? = some k → k.i < s.sess.length ∧ ∀ j, k.pc = some j → j ≤ s.mods.length
  spc : ∀ (i : Nat) (pc : Spc), s.sess[i]? = some pc → SpcOk (anyAcct s.mods) s.mods.length pc
  kapn : s.main ≠ .after → s.main ≠ .ended → s.kap = .no
  kapy : s.main = .after ∨ s.main = .ended → s.kap ≠ .no ∧ s.owner = none
  kapd : s.main = .ended → s.kap = .done
  kapl : ∀ j k, s.kap = .run j k → j < s.mods.length
  post : s.main ≠ .run → s.main ≠ .stop → ∀ i, s.strm i = 0

/-- The parts that the records have nothing to do with are the same. -/
structure Same (s s' : St) : Prop where
  cfg : s'.mods.map (·.cfg) = s.mods.map (·.cfg)
  sess : s'.sess = s.sess
  pkts : s'.pkts = s.pkts
  mm : s'.mm = s.mm
  strm : s'.strm = s.strm
  main : s'.main = s.main
  kap : s'.kap = s.kap
  owner : s'.owner = s.owner

theorem Same.refl (s : St) : Same s s := ⟨rfl, rfl, rfl, rfl, rfl, rfl, rfl, rfl⟩

theorem Same.trans {a b c : St} (h : Same a b) (g : Same b c) : Same a c :=
  ⟨g.cfg.trans h.cfg, g.sess.trans h.sess, g.pkts.trans h.pkts, g.mm.trans h.mm, g.strm.trans h.strm,
   g.main.trans h.main, g.kap.trans h.kap, g.owner.trans h.owner⟩

theorem Same.len {s s' : St} (h : Same s s') : s'.mods.length = s.mods.length := by
  have := congrArg List.length h.cfg
  simpa using this

theorem anyAcct_map (ms : List Mod) : anyAcct ms = (ms.map (·.cfg)).any MCfg.doAcct := by
  unfold anyAcct; rw [List.any_map]; rfl

theorem Same.any {s s' : St} (h : Same s s') : anyAcct s'.mods = anyAcct s.mods := by
  rw [anyAcct_map, anyAcct_map, h.cfg]

theorem emit_same (s : St) (o : Out) : Same s (s.emit o) := ⟨rfl, rfl, rfl, rfl, rfl, rfl, rfl, rfl⟩

theorem setR_same (s : St) (r : Rec) (n : Nat) : Same s (s.setR r n) := ⟨rfl, rfl, rfl, rfl, rfl, rfl, rfl, rfl⟩

theorem set_cfg {ms : List Mod} {j : Nat} {m m' : Mod} (h : ms[j]? = some m) (hc : m'.cfg = m.cfg) :
    (ms.set j m').map (·.cfg) = ms.map (·.cfg) := by
  apply List.ext_getElem?
  intro i
  rw [List.getElem?_map, List.getElem?_map, List.getElem?_set]
  by_cases hij : j = i
  · subst hij
    rw [h]
    have := (List.getElem?_eq_some_iff.mp h).1
    simp [this, hc]
  · rw [if_neg hij]

theorem setM_same {s : St} {j : Nat} {m m' : Mod} (h : s.mods[j]? = some m) (hc : m'.cfg = m.cfg) :
    Same s (s.setM j m') := ⟨set_cfg h hc, rfl, rfl, rfl, rfl, rfl, rfl, rfl⟩

theorem decr_same {s s' : St} {r : Rec} (h : s.decr r = .ok s') : Same s s' := by
  unfold St.decr at h
  split at h
  · cases h
  · cases h; exact (setR_same s r 0).trans (emit_same _ _)
  · cases h; exact setR_same s r _

theorem incr_same {s s' : St} {r : Rec} (h : s.incr r = .ok s') : Same s s' := by
  unfold St.incr at h
  split at h
  · cases h
  · cases h; exact setR_same s r _

theorem put_same {s s' : St} {j : Nat} {r : Rec} (h : s.put j r = .ok s') : Same s s' := by
  unfold St.put at h
  split at h
  · cases h
  case h_2 m hm =>
    split at h
    · split at h
      · cases h; exact setM_same hm (by rfl)
      · exact (emit_same s _).trans (decr_same h)
    · cases h

theorem doAcct_same {s s' : St} {j i : Nat} {b : Bool} (h : s.doAcct j i b = .ok s') : Same s s' := by
  unfold St.doAcct at h
  split at h
  · cases h
  · split at h
    · split at h
      · cases h
      case h_2 s1 h1 => exact (incr_same h1).trans (put_same h)
    · cases h; exact emit_same s _

theorem Cnt.same {cs : List MCfg} {s s' : St} (h : Cnt cs s) (g : Same s s') : Cnt cs s' where
  cfg := g.cfg.trans h.cfg
  mmc := by rw [g.mm, g.main, g.any, g.sess]; exact h.mmc
  strm := by rw [g.strm, g.sess, g.pkts]; exact h.strm
  pktlt := by rw [g.sess, g.pkts, g.len]; exact h.pktlt
  spc := by rw [g.sess, g.any, g.len]; exact h.spc
  kapn := by rw [g.main, g.kap]; exact h.kapn
  kapy := by rw [g.main, g.kap, g.owner]; exact h.kapy
  kapd := by rw [g.main, g.kap]; exact h.kapd
  kapl := by rw [g.kap, g.len]; exact h.kapl
  post := by rw [g.main, g.strm]; exact h.post

/-- A session goes on and keeps its references. -/
theorem Cnt.setS {cs : List MCfg} {s : St} (h : Cnt cs s) {i : Nat} {pc pc' : Spc} (hi : s.sess[i]? = some pc)
    (hm : holdMm (anyAcct s.mods) pc' = holdMm (anyAcct s.mods) pc) (ht : holdStrm pc' = holdStrm pc)
    (ho : SpcOk (anyAcct s.mods) s.mods.length pc') : Cnt cs (s.setS i pc') where
  cfg := h.cfg
  mmc := by
    have := tot_set (holdMm (anyAcct s.mods)) s.sess i pc pc' hi
    have h2 := h.mmc
    simp only [St.setS] at *
    omega
  strm := fun x => by
    have h2 := h.strm x
    simp only [St.setS]
    rw [h2, List.getElem?_set]
    by_cases hx : i = x
    · subst hx
      have hl := (List.getElem?_eq_some_iff.mp hi).1
      rw [if_pos rfl, if_pos hl, hi]
      simp only [optS, ht]
    · rw [if_neg hx]
  pktlt := fun p k hk => by
    have := h.pktlt p k hk
    simpa [St.setS] using this
  spc := fun x pc'' hx => by
    rcases get_set hx with ⟨_, hx⟩ | ⟨_, hx⟩
    · subst hx; exact ho
    · exact h.spc x pc'' hx
  kapn := h.kapn
  kapy := h.kapy
  kapd := h.kapd
  kapl := h.kapl
  post := h.post

/-- A packet goes on. -/
theorem Cnt.setK {cs : List MCfg} {s : St} (h : Cnt cs s) {p : Nat} {i j j' : Nat} (hp : s.pkts[p]? = some ⟨i, some j⟩)
    (hj : j' ≤ s.mods.length) : Cnt cs (s.setK p ⟨i, some j'⟩) where
  cfg := h.cfg
  mmc := h.mmc
  strm := fun x => by
    have h2 := h.strm x
    have := tot_set (pktOn x) s.pkts p _ ⟨i, some j'⟩ hp
    simp only [St.setK, pktOn] at *
    simp at this
    omega
  pktlt := fun q k hk => by
    rcases get_set hk with ⟨_, hk⟩ | ⟨_, hk⟩
    · subst hk
      exact ⟨(h.pktlt p _ hp).1, fun j0 hj0 => by cases hj0; exact hj⟩
    · exact h.pktlt q k hk
  spc := h.spc
  kapn := h.kapn
  kapy := h.kapy
  kapd := h.kapd
  kapl := h.kapl
  post := h.post

theorem tot_append (f : α → Nat) (l k : List α) : tot f (l ++ k) = tot f l + tot f k := by
  simp [tot]

theorem pkt_none {cs : List MCfg} {s : St} (h : Cnt cs s) {i : Nat} (hi : s.sess.length ≤ i) :
    tot (pktOn i) s.pkts = 0 := by
  by_cases hz : tot (pktOn i) s.pkts = 0
  · exact hz
  · obtain ⟨p, k, hk, hn⟩ := exists_of_tot_pos _ _ hz
    have h1 := (h.pktlt p k hk).1
    unfold pktOn at hn
    split at hn
    case isTrue hc => omega
    case isFalse => exact absurd rfl hn

/-- The main thread still holds its reference while a session or a packet is there. -/
theorem Cnt.early {cs : List MCfg} {s : St} (h : Cnt cs s) {i : Nat} (hi : s.strm i ≠ 0) :
    s.main = .run ∨ s.main = .stop := by
  cases hm : s.main with
  | run => exact .inl rfl
  | stop => exact .inr rfl
  | _ => exact absurd (h.post (by rw [hm]; nofun) (by rw [hm]; nofun) i) hi

theorem Cnt.sess_strm {cs : List MCfg} {s : St} (h : Cnt cs s) {i : Nat} {pc : Spc} (hi : s.sess[i]? = some pc)
    (hp : pc ≠ .gone) : s.strm i ≠ 0 := by
  rw [h.strm i, hi]
  cases pc <;> simp [optS, holdStrm] at *

theorem Cnt.pkt_strm {cs : List MCfg} {s : St} (h : Cnt cs s) {p i j : Nat} (hp : s.pkts[p]? = some ⟨i, some j⟩) :
    s.strm i ≠ 0 := by
  rw [h.strm i]
  have := tot_ge (pktOn i) s.pkts p _ hp
  simp [pktOn] at this
  omega

theorem Cnt.newSess {cs : List MCfg} {s s' : St} (h : Cnt cs s) (hs : step s .newSess = some (.ok s')) : Cnt cs s' := by
  simp only [step] at hs
  split at hs
  case isFalse => cases hs
  case isTrue hr =>
    have hgen : ∀ n, n = mainHolds s.main + tot (holdMm (anyAcct s.mods)) (s.sess ++ [.live]) →
        Cnt cs { (({ s with sess := s.sess ++ [.live] } : St).setT s.sess.length 1).setR (.sess s.sess.length) 1 with
          mm := n } := by
      intro n hn
      refine ⟨h.cfg, hn, fun x => ?_, fun p k hk => ?_, fun x pc hx => ?_, h.kapn, h.kapy, h.kapd, h.kapl, ?_⟩
      · simp only [St.setR, St.setT]
        by_cases hx : x = s.sess.length
        · subst hx
          have := pkt_none h (Nat.le_refl _)
          simp [optS, holdStrm, this]
        · rw [if_neg hx, h.strm x]
          by_cases hl : x < s.sess.length
          · rw [List.getElem?_append_left hl]
          · have h1 : s.sess[x]? = none := List.getElem?_eq_none (by omega)
            have h2 : (s.sess ++ [Spc.live])[x]? = none := List.getElem?_eq_none (by simp; omega)
            rw [h1, h2]
      · have := h.pktlt p k hk
        refine ⟨?_, this.2⟩
        have h3 := this.1
        simp only [St.setR, St.setT, List.length_append, List.length_singleton]
        omega
      · simp only [St.setR, St.setT] at hx
        rw [List.getElem?_append] at hx
        split at hx
        · exact h.spc x pc hx
        · have : pc = .live := by
            have := List.mem_of_getElem? hx
            simpa using this
          subst this; trivial
      · intro h1
        exact absurd hr h1
    have hmm := h.mmc
    have ha := tot_append (holdMm (anyAcct s.mods)) s.sess [.live]
    split at hs
    case isTrue hany =>
      split at hs
      · cases hs
      · cases hs
        refine hgen _ ?_
        rw [ha, hmm, hany]
        simp [tot, holdMm]; omega
    case isFalse hany =>
      cases hs
      refine hgen s.mm ?_
      rw [ha, hmm]
      simp [tot, holdMm, hany]

theorem Cnt.endSess {cs : List MCfg} {s s' : St} (h : Cnt cs s) {i : Nat} (hs : step s (.endSess i) = some (.ok s')) :
    Cnt cs s' := by
  simp only [step] at hs
  split at hs
  case h_2 => cases hs
  case h_1 hi =>
    cases hs
    refine h.setS hi ?_ ?_ ?_
    · split <;> simp_all [holdMm]
    · split <;> rfl
    · split
      · exact ⟨by assumption, Nat.zero_le _⟩
      · trivial

theorem Cnt.acct {cs : List MCfg} {s s' : St} (h : Cnt cs s) {i j : Nat} {b : Bool}
    (hs : step s (.acct i j b) = some (.ok s')) : Cnt cs s' := by
  simp only [step] at hs
  split at hs
  case isFalse => cases hs
  case isTrue hi =>
    have hok := h.spc i _ hi
    simp only [Option.some.injEq] at hs
    unfold St.stepAcct at hs
    split at hs
    · cases hs
      exact h.setS hi rfl rfl hok.1
    case h_2 m hm =>
      have hj := (List.getElem?_eq_some_iff.mp hm).1
      split at hs
      · split at hs
        · cases hs
        case h_2 s1 h1 =>
          cases hs
          have g := doAcct_same h1
          refine (h.same g).setS (pc := .acct j) (by rw [g.sess]; exact hi) rfl rfl ?_
          rw [g.any, g.len]
          exact ⟨hok.1, hj⟩
      · cases hs
        exact h.setS hi rfl rfl ⟨hok.1, hj⟩

theorem Cnt.relMm {cs : List MCfg} {s s' : St} (h : Cnt cs s) {i : Nat} (hs : step s (.relMm i) = some (.ok s')) :
    Cnt cs s' ∧ s' = ({ s with mm := s.mm - 1 } : St).setS i .relAcct := by
  simp only [step] at hs
  split at hs
  case isFalse => cases hs
  case isTrue hi =>
    have ht := h.sess_strm hi (by nofun)
    have he := h.early ht
    have hmh : mainHolds s.main = 1 := by rcases he with he | he <;> rw [he] <;> rfl
    have hge := tot_ge (holdMm (anyAcct s.mods)) s.sess i _ hi
    have hmm := h.mmc
    simp only [holdMm] at hge
    split at hs
    · cases hs
    case h_2 s1 h1 =>
      have hs1 : s1 = { s with mm := s.mm - 1 } := by
        unfold St.decMm at h1
        split at h1
        · cases h1
        case h_2 hm => omega
        case h_3 n hn hm =>
          cases h1
          rw [hm]; rfl
      cases hs
      subst hs1
      refine ⟨?_, rfl⟩
      refine ⟨h.cfg, ?_, fun x => ?_, fun p k hk => ?_, fun x pc' hx => ?_, h.kapn, h.kapy, h.kapd, h.kapl, h.post⟩
      · have := tot_set (holdMm (anyAcct s.mods)) s.sess i _ .relAcct hi
        simp only [St.setS, holdMm] at *
        omega
      · simp only [St.setS]
        rw [h.strm x, List.getElem?_set]
        by_cases hx : i = x
        · subst hx
          have hl := (List.getElem?_eq_some_iff.mp hi).1
          rw [if_pos rfl, if_pos hl, hi]; rfl
        · rw [if_neg hx]
      · have := h.pktlt p k hk
        simpa [St.setS] using this
      · rcases get_set hx with ⟨_, hx⟩ | ⟨_, hx⟩
        · subst hx; trivial
        · exact h.spc x pc' hx

theorem Cnt.relAcct {cs : List MCfg} {s s' : St} (h : Cnt cs s) {i : Nat} (hs : step s (.relAcct i) = some (.ok s')) :
    Cnt cs s' := by
  simp only [step] at hs
  split at hs
  case isFalse => cases hs
  case isTrue hi =>
    split at hs
    · cases hs
    case h_2 s1 h1 =>
      cases hs
      have g := decr_same h1
      exact (h.same g).setS (pc := .relAcct) (by rw [g.sess]; exact hi.1) rfl rfl trivial

theorem Cnt.relStrm {cs : List MCfg} {s s' : St} (h : Cnt cs s) {i : Nat} (hs : step s (.relStrm i) = some (.ok s')) :
    Cnt cs s' := by
  simp only [step] at hs
  split at hs
  case isFalse => cases hs
  case isTrue hi =>
    split at hs
    · cases hs
    · cases hs
      have ht := h.sess_strm hi (by nofun)
      refine ⟨h.cfg, ?_, fun x => ?_, fun p k hk => ?_, fun x pc' hx => ?_, h.kapn, h.kapy, h.kapd, h.kapl, ?_⟩
      · have := tot_set (holdMm (anyAcct s.mods)) s.sess i _ .gone hi
        have h2 := h.mmc
        simp only [St.setS, St.setT, holdMm] at *
        omega
      · simp only [St.setS, St.setT]
        rw [List.getElem?_set]
        by_cases hx : i = x
        · subst hx
          have hl := (List.getElem?_eq_some_iff.mp hi).1
          rw [if_pos rfl, if_pos hl, if_pos rfl, h.strm i, hi]
          simp [optS, holdStrm]
        · rw [if_neg hx, if_neg (fun e => hx e.symm)]; exact h.strm x
      · have := h.pktlt p k hk
        simpa [St.setS, St.setT] using this
      · rcases get_set hx with ⟨_, hx⟩ | ⟨_, hx⟩
        · subst hx; trivial
        · exact h.spc x pc' hx
      · intro h1 h2
        exact absurd (h.post h1 h2 i) ht

theorem Cnt.newPkt {cs : List MCfg} {s s' : St} (h : Cnt cs s) {i : Nat} (hs : step s (.newPkt i) = some (.ok s')) :
    Cnt cs s' := by
  simp only [step] at hs
  split at hs
  case isFalse => cases hs
  case isTrue hi =>
    cases hs
    have hlt : i < s.sess.length := by
      by_cases hl : i < s.sess.length
      · exact hl
      · have h1 : s.sess[i]? = none := List.getElem?_eq_none (by omega)
        have h2 := pkt_none h (i := i) (by omega)
        have h3 := h.strm i
        rw [h1, h2] at h3
        simp [optS] at h3; omega
    refine ⟨h.cfg, h.mmc, fun x => ?_, fun p k hk => ?_, h.spc, h.kapn, h.kapy, h.kapd, h.kapl, ?_⟩
    · have := h.strm x
      have h2 := tot_append (pktOn x) s.pkts [⟨i, some 0⟩]
      simp only [St.setT]
      rw [h2]
      by_cases hx : x = i
      · subst hx; simp [tot, pktOn] at *; omega
      · rw [if_neg hx]
        have hx2 : ¬ i = x := fun e => hx e.symm
        simp [tot, pktOn, hx2] at *; omega
    · simp only [St.setT] at hk ⊢
      rw [List.getElem?_append] at hk
      split at hk
      · exact h.pktlt p k hk
      · have := List.mem_of_getElem? hk
        simp at this
        subst this
        exact ⟨hlt, fun j hj => by cases hj; exact Nat.zero_le _⟩
    · intro h1 h2
      exact absurd (h.post h1 h2 i) (by omega)

theorem doRtcp_same {s s' : St} {j p i : Nat} {m : Made} (hj : j < s.mods.length) (h : s.doRtcp j p i m = .ok s') :
    ∃ s1 j', Same s s1 ∧ s' = s1.setK p ⟨i, some j'⟩ ∧ j' ≤ s.mods.length := by
  unfold St.doRtcp at h
  split at h
  · cases h
    exact ⟨s, s.mods.length, Same.refl s, rfl, Nat.le_refl _⟩
  · split at h
    · cases h
    case h_2 s1 h1 =>
      cases h
      exact ⟨s1, j + 1, ((setR_same s _ _).trans (emit_same _ _)).trans (decr_same h1), rfl, hj⟩
  · split at h
    · cases h
    case h_2 s1 h1 =>
      cases h
      exact ⟨s1, j + 1, (setR_same s _ _).trans (put_same h1), rfl, hj⟩

theorem Cnt.pkt {cs : List MCfg} {s s' : St} (h : Cnt cs s) {p j : Nat} {m : Made}
    (hs : step s (.pkt p j m) = some (.ok s')) : Cnt cs s' := by
  simp only [step] at hs
  split at hs
  case h_2 => cases hs
  case h_1 i j' hp =>
    split at hs
    case isFalse => cases hs
    case isTrue hj =>
      subst hj
      split at hs
      case h_2 => cases hs
      case h_1 md hm =>
        have hj := (List.getElem?_eq_some_iff.mp hm).1
        simp only [Option.some.injEq] at hs
        unfold St.stepPkt at hs
        split at hs
        · split at hs
          · obtain ⟨s1, j2, g, rfl, hj2⟩ := doRtcp_same hj hs
            exact (h.same g).setK (by rw [g.pkts]; exact hp) (by rw [g.len]; exact hj2)
          · cases hs
        · cases hs
          exact h.setK hp hj

theorem Cnt.endPkt {cs : List MCfg} {s s' : St} (h : Cnt cs s) {p : Nat} (hs : step s (.endPkt p) = some (.ok s')) :
    Cnt cs s' := by
  simp only [step] at hs
  split at hs
  case h_2 => cases hs
  case h_1 i j hp =>
    split at hs
    case isFalse => cases hs
    case isTrue hj =>
      have ht := h.pkt_strm hp
      split at hs
      · cases hs
      · cases hs
        refine ⟨h.cfg, h.mmc, fun x => ?_, fun q k hk => ?_, h.spc, h.kapn, h.kapy, h.kapd, h.kapl, ?_⟩
        · have h2 := h.strm x
          have := tot_set (pktOn x) s.pkts p _ ⟨i, none⟩ hp
          simp only [St.setK, St.setT, pktOn] at *
          by_cases hx : x = i
          · subst hx; simp at this ⊢; omega
          · have hx2 : ¬ i = x := fun e => hx e.symm
            rw [if_neg hx]; simp [hx2] at this ⊢; omega
        · rcases get_set hk with ⟨_, hk⟩ | ⟨_, hk⟩
          · subst hk
            exact ⟨(h.pktlt p _ hp).1, nofun⟩
          · exact h.pktlt q k hk
        · intro h1 h2
          exact absurd (h.post h1 h2 i) ht

theorem Cnt.take {cs : List MCfg} {s s' : St} (h : Cnt cs s) {j : Nat} (hs : step s (.take j) = some (.ok s')) :
    Cnt cs s' := by
  simp only [step] at hs
  split at hs
  case h_2 => cases hs
  case h_1 m hm =>
    unfold St.stepTake at hs
    split at hs
    · cases hs
    · cases hs
    · cases hs; exact h.same (setM_same hm (by rfl))
    · split at hs
      · cases hs; exact h.same ((setM_same hm (by rfl)).trans (emit_same _ _))
      · cases hs
    · cases hs

theorem Cnt.ret {cs : List MCfg} {s s' : St} (h : Cnt cs s) {j : Nat} (hs : step s (.ret j) = some (.ok s')) :
    Cnt cs s' := by
  simp only [step] at hs
  split at hs
  case h_2 => cases hs
  case h_1 m hm =>
    unfold St.stepRet at hs
    split at hs
    · simp only [Option.some.injEq] at hs
      refine h.same ((setM_same hm ?_).trans (decr_same hs))
      rfl
    · cases hs

theorem Cnt.stop {cs : List MCfg} {s s' : St} (h : Cnt cs s) (hs : step s .stop = some (.ok s')) : Cnt cs s' := by
  simp only [step] at hs
  split at hs
  case isFalse => cases hs
  case isTrue hr =>
    cases hs
    have hk := h.kapn (by rw [hr]; nofun) (by rw [hr]; nofun)
    refine ⟨h.cfg, ?_, h.strm, h.pktlt, h.spc, fun _ _ => hk, nofun, nofun, h.kapl, fun _ h2 => absurd rfl h2⟩
    have := h.mmc
    rw [hr] at this; exact this

theorem Cnt.wait {cs : List MCfg} {s s' : St} (h : Cnt cs s) (hs : step s .wait = some (.ok s')) : Cnt cs s' := by
  simp only [step] at hs
  split at hs
  case isFalse => cases hs
  case isTrue hr =>
    cases hs
    obtain ⟨hr, hz⟩ := hr
    have hk := h.kapn (by rw [hr]; nofun) (by rw [hr]; nofun)
    refine ⟨h.cfg, ?_, h.strm, h.pktlt, h.spc, fun _ _ => hk, nofun, nofun, h.kapl, fun _ _ i => ?_⟩
    · have := h.mmc
      rw [hr] at this; exact this
    · by_cases hi : i < s.sess.length
      · have := List.all_eq_true.mp hz i (List.mem_range.mpr hi)
        simpa using this
      · have h1 : s.sess[i]? = none := List.getElem?_eq_none (by omega)
        have h2 := pkt_none h (i := i) (by omega)
        have h3 := h.strm i
        rw [h1, h2] at h3
        exact h3

/-- All sessions are gone once no stream is left. -/
theorem Cnt.all_gone {cs : List MCfg} {s : St} (h : Cnt cs s) (hz : ∀ i, s.strm i = 0) {i : Nat} {pc : Spc}
    (hi : s.sess[i]? = some pc) : pc = .gone := by
  have := h.strm i
  rw [hz i, hi] at this
  cases pc <;> simp only [optS, holdStrm] at this <;> first | rfl | omega

theorem Cnt.all_done {cs : List MCfg} {s : St} (h : Cnt cs s) (hz : ∀ i, s.strm i = 0) {p : Nat} {k : Pkt}
    (hp : s.pkts[p]? = some k) : k.pc = none := by
  have h1 := h.strm k.i
  have h2 := tot_ge (pktOn k.i) s.pkts p _ hp
  rw [hz] at h1
  cases hk : k.pc with
  | none => rfl
  | some j =>
    have h3 : pktOn k.i k = 1 := by simp [pktOn, hk]
    omega

theorem Cnt.mm_zero {cs : List MCfg} {s : St} (h : Cnt cs s) (hz : ∀ i, s.strm i = 0) :
    tot (holdMm (anyAcct s.mods)) s.sess = 0 := by
  apply tot_zero
  intro pc hpc
  obtain ⟨i, hi⟩ := List.mem_iff_getElem?.mp hpc
  rw [h.all_gone hz hi]; rfl

theorem Cnt.rel {cs : List MCfg} {s s' : St} (h : Cnt cs s) (hs : step s .rel = some (.ok s')) :
    Cnt cs s' ∧ s.main = .rel ∧ s.kap = .no ∧
      s' = { s with mm := 0, kap := kstart s.mods, owner := none, main := .after } := by
  simp only [step] at hs
  split at hs
  case isFalse => cases hs
  case isTrue hr =>
    have hz := h.post (by rw [hr]; nofun) (by rw [hr]; nofun)
    have h0 := h.mm_zero hz
    have hmm := h.mmc
    rw [h0, hr] at hmm
    simp only [mainHolds] at hmm
    have hk := h.kapn (by rw [hr]; nofun) (by rw [hr]; nofun)
    unfold St.decMm at hs
    rw [hmm] at hs
    cases hs
    refine ⟨⟨h.cfg, ?_, h.strm, h.pktlt, h.spc, fun h1 => absurd rfl h1, fun _ => ⟨?_, rfl⟩, nofun, ?_, fun _ _ => hz⟩,
      hr, hk, rfl⟩
    · show 0 = 0 + _
      rw [h0]
    · show kstart s.mods ≠ .no
      unfold kstart; split <;> nofun
    · intro j k hjk
      show j < s.mods.length
      simp only [kstart] at hjk
      split at hjk
      · cases hjk
      case isFalse hne =>
        cases hjk
        exact List.length_pos_iff.mpr hne

theorem Cnt.kap_main {cs : List MCfg} {s : St} (h : Cnt cs s) {j : Nat} {k : Kpc} (hk : s.kap = .run j k) :
    s.main = .after ∧ s.owner = none ∧ ∀ i, s.strm i = 0 := by
  cases hm : s.main with
  | after =>
    exact ⟨rfl, (h.kapy (.inl hm)).2, h.post (by rw [hm]; nofun) (by rw [hm]; nofun)⟩
  | ended =>
    have := h.kapd hm
    rw [hk] at this; cases this
  | _ =>
    have := h.kapn (by rw [hm]; nofun) (by rw [hm]; nofun)
    rw [hk] at this; cases this

theorem Cnt.setKap {cs : List MCfg} {s : St} (h : Cnt cs s) {j : Nat} {k : Kpc} (hk : s.kap = .run j k) {kp : Kap}
    (hn : kp ≠ .no) (hl : ∀ j k, kp = .run j k → j < s.mods.length) : Cnt cs { s with kap := kp } := by
  obtain ⟨hm, ho, hz⟩ := h.kap_main hk
  refine ⟨h.cfg, h.mmc, h.strm, h.pktlt, h.spc, fun h1 => absurd hm h1, fun _ => ⟨hn, ho⟩, ?_, hl, h.post⟩
  intro (h1 : s.main = .ended)
  rw [hm] at h1; cases h1

theorem Cnt.kap {cs : List MCfg} {s s' : St} (h : Cnt cs s) (hs : step s .kap = some (.ok s')) : Cnt cs s' := by
  simp only [step] at hs
  split at hs
  case h_2 => cases hs
  case h_1 j k hk =>
    split at hs
    case h_2 => cases hs
    case h_1 m hm =>
      have hj := (List.getElem?_eq_some_iff.mp hm).1
      have hgen : ∀ s1, Same s s1 → ∀ k', Cnt cs { s1 with kap := .run j k' } := by
        intro s1 g k'
        refine (h.same g).setKap (by rw [g.kap]; exact hk) (by nofun) ?_
        intro j2 k2 e
        cases e
        rw [g.len]; exact hj
      unfold St.stepKap at hs
      split at hs
      · split at hs
        · cases hs; exact hgen s (Same.refl s) _
        · split at hs
          · cases hs
          · split at hs
            · cases hs; exact hgen _ (setM_same hm (by rfl)) _
            · cases hs
      · split at hs
        · cases hs; exact hgen s (Same.refl s) _
        · cases hs
      · split at hs
        · cases hs
        · cases hs; exact hgen _ (setM_same hm (by rfl)) _
      · split at hs
        · cases hs; exact hgen _ ((setM_same hm (by rfl)).trans (emit_same _ _)) _
        · cases hs
      · split at hs
        · cases hs
          have g : Same s (s.setM j { m with live := false }) := setM_same hm (by rfl)
          refine (h.same g).setKap (by rw [g.kap]; exact hk) ?_ ?_
          · unfold knext; split <;> nofun
          · intro j2 k2 e
            rw [g.len]
            unfold knext at e
            split at e
            case isTrue hl => cases e; exact hl
            case isFalse => cases e
        · cases hs

theorem Cnt.fin {cs : List MCfg} {s s' : St} (h : Cnt cs s) (hs : step s .fin = some (.ok s')) : Cnt cs s' := by
  simp only [step] at hs
  split at hs
  case isFalse => cases hs
  case isTrue hr =>
    cases hs
    obtain ⟨hm, hf⟩ := hr
    have hy := h.kapy (.inl hm)
    have hd : s.kap = .done := by
      unfold St.free at hf
      rw [hy.2] at hf
      simp at hf
      rcases hf with hf | hf
      · exact absurd hf hy.1
      · exact hf
    refine ⟨h.cfg, ?_, h.strm, h.pktlt, h.spc, fun _ h1 => absurd rfl h1, fun _ => hy, fun _ => hd, h.kapl, fun _ _ => ?_⟩
    · have := h.mmc
      rw [hm] at this; exact this
    · exact h.post (by rw [hm]; nofun) (by rw [hm]; nofun)

theorem Cnt.step {cs : List MCfg} {s s' : St} (h : Cnt cs s) (e : Ev) (hs : Modman.step s e = some (.ok s')) :
    Cnt cs s' := by
  cases e with
  | newSess => exact h.newSess hs
  | endSess => exact h.endSess hs
  | acct => exact h.acct hs
  | relMm => exact (h.relMm hs).1
  | relAcct => exact h.relAcct hs
  | relStrm => exact h.relStrm hs
  | newPkt => exact h.newPkt hs
  | pkt => exact h.pkt hs
  | endPkt => exact h.endPkt hs
  | take => exact h.take hs
  | ret => exact h.ret hs
  | stop => exact h.stop hs
  | wait => exact h.wait hs
  | rel => exact (h.rel hs).1
  | kap => exact h.kap hs
  | fin => exact h.fin hs

theorem Cnt.init (cs : List MCfg) : Cnt cs (St.init cs) where
  cfg := by
    show (cs.map Mod.init).map (·.cfg) = cs
    rw [List.map_map]
    exact List.map_id'' (fun _ => rfl) cs
  mmc := rfl
  strm := fun _ => rfl
  pktlt := fun p k hk => by simp [St.init] at hk
  spc := fun i pc hi => by simp [St.init] at hi
  kapn := fun _ _ => rfl
  kapy := nofun
  kapd := nofun
  kapl := nofun
  post := fun h1 => absurd rfl h1

end Verif.Modman
