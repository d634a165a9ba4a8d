import Verif.Modman.Free

/-! The shutdown gets to its end. -/

namespace Verif.Modman

open Verif.Util

def sessW (n : Nat) : Spc → Nat
  | .live => 3 * n + 5
  | .acct j => 3 * (n - j) + 4
  | .relMm => 3
  | .relAcct => 2
  | .relStrm => 1
  | .gone => 0

def pktW (n : Nat) (k : Pkt) : Nat :=
  match k.pc with
  | some j => 3 * (n - j) + 1
  | none => 0

def busyW : Thr → Nat
  | .busy _ => 1
  | _ => 0

def modW (m : Mod) : Nat := 2 * (m.q.getD []).length + busyW m.thr

def kpcW : Kpc → Nat
  | .put => 7
  | .join => 4
  | .destroy => 3
  | .dtor => 2
  | .rel => 1

def kapW (n : Nat) : Kap → Nat
  | .no => 7 * n
  | .run j k => 7 * (n - j - 1) + kpcW k
  | .done => 0

def mainW : Mpc → Nat
  | .run => 4
  | .stop => 3
  | .rel => 2
  | .after => 1
  | .ended => 0

def rank (s : St) : Nat :=
  tot (sessW s.mods.length) s.sess + tot (pktW s.mods.length) s.pkts + tot modW s.mods + kapW s.mods.length s.kap +
    mainW s.main

/-- What an event may add. -/
def cost (n : Nat) : Ev → Nat
  | .newSess => 3 * n + 6
  | .newPkt _ => 3 * n + 2
  | _ => 0

theorem decr_mods {s s' : St} {r : Rec} (h : s.decr r = .ok s') : s'.mods = s.mods := by
  unfold St.decr at h
  split at h
  · cases h
  · cases h; rfl
  · cases h; rfl

theorem incr_mods {s s' : St} {r : Rec} (h : s.incr r = .ok s') : s'.mods = s.mods := by
  unfold St.incr at h
  split at h
  · cases h
  · cases h; rfl

theorem modW_set {s : St} {j : Nat} {m m' : Mod} (hm : s.mods[j]? = some m) :
    tot modW (s.setM j m').mods + modW m = tot modW s.mods + modW m' := tot_set modW s.mods j m m' hm

theorem put_modW {s s' : St} {j : Nat} {r : Rec} (h : s.put j r = .ok s') : tot modW s'.mods ≤ tot modW s.mods + 2 := by
  unfold St.put at h
  split at h
  · cases h
  case h_2 m hm =>
    split at h
    case h_1 l hl hq =>
      split at h
      · cases h
        have := modW_set (m' := { m with q := some (l ++ [.job r]) }) hm
        simp only [modW, hq, Option.getD_some, List.length_append, List.length_singleton] at this
        omega
      · rw [decr_mods h]; exact Nat.le_add_right _ _
    · cases h

theorem doAcct_modW {s s' : St} {j i : Nat} {b : Bool} (h : s.doAcct j i b = .ok s') :
    tot modW s'.mods ≤ tot modW s.mods + 2 := by
  unfold St.doAcct at h
  split at h
  · cases h
  · split at h
    · split at h
      · cases h
      case h_2 s2 h2 =>
        have := put_modW h
        rw [incr_mods h2] at this
        exact this
    · cases h; exact Nat.le_add_right _ _

theorem rank_same {s s' : St} (g : Same s s') :
    rank s' + tot modW s.mods = rank s + tot modW s'.mods := by
  unfold rank
  rw [g.sess, g.pkts, g.kap, g.main, g.len]
  omega

theorem rank_setS {s : St} {i : Nat} {pc pc' : Spc} (hi : s.sess[i]? = some pc) :
    rank (s.setS i pc') + sessW s.mods.length pc = rank s + sessW s.mods.length pc' := by
  have := tot_set (sessW s.mods.length) s.sess i pc pc' hi
  unfold rank
  simp only [St.setS]
  omega

theorem rank_setK {s : St} {p : Nat} {k k' : Pkt} (hp : s.pkts[p]? = some k) :
    rank (s.setK p k') + pktW s.mods.length k = rank s + pktW s.mods.length k' := by
  have := tot_set (pktW s.mods.length) s.pkts p k k' hp
  unfold rank
  simp only [St.setK]
  omega

theorem rank_setM {s : St} {j : Nat} {m m' : Mod} (hm : s.mods[j]? = some m) :
    rank (s.setM j m') + modW m = rank s + modW m' := by
  have := modW_set (m' := m') hm
  have h2 : (s.setM j m').mods.length = s.mods.length := by simp [St.setM]
  unfold rank
  rw [h2]
  simp only [St.setM] at *
  omega

theorem setM_len (s : St) (j : Nat) (m : Mod) : (s.setM j m).mods.length = s.mods.length := by simp [St.setM]

/-- The destructor of the manager goes on. -/
theorem rank_near {s s' : St} {j : Nat} {m m' : Mod} (hm : s.mods[j]? = some m) (h1 : s'.sess = s.sess) (h2 : s'.pkts = s.pkts)
    (h3 : s'.main = s.main) (h4 : s'.mods = s.mods.set j m') :
    rank s' + modW m + kapW s.mods.length s.kap = rank s + modW m' + kapW s.mods.length s'.kap := by
  have h5 := tot_set modW s.mods j m m' hm
  have h6 : s'.mods.length = s.mods.length := by rw [h4, List.length_set]
  unfold rank
  rw [h6, h1, h2, h3, h4]
  omega

theorem rank_stepKap {s s' : St} {j : Nat} {k : Kpc} {m : Mod} (hm : s.mods[j]? = some m) (hk : s.kap = .run j k)
    (h : s.stepKap j k m = some (.ok s')) : rank s' + 1 ≤ rank s := by
  have hj := (List.getElem?_eq_some_iff.mp hm).1
  have hself : s.mods = s.mods.set j m := set_self hm
  unfold St.stepKap at h
  split at h
  · split at h
    · cases h
      have := rank_near (s := s) (s' := { s with kap := .run j .destroy }) hm rfl rfl rfl hself
      simp only [hk, kapW, kpcW] at this
      omega
    · split at h
      · cases h
      case h_2 l hq =>
        split at h
        · simp only [Option.some.injEq, Except.ok.injEq] at h
          have := rank_near (s := s) (s' := s') (m' := { m with q := some (l ++ [.term]) }) hm (by rw [← h]; rfl)
            (by rw [← h]; rfl) (by rw [← h]; rfl) (by rw [← h]; rfl)
          have h2 : s'.kap = .run j .join := by rw [← h]
          simp only [hk, h2, kapW, kpcW] at this
          simp only [modW, hq, Option.getD_some, List.length_append, List.length_singleton] at this
          omega
        · cases h
  · split at h
    · cases h
      have := rank_near (s := s) (s' := { s with kap := .run j .destroy }) hm rfl rfl rfl hself
      simp only [hk, kapW, kpcW] at this
      omega
    · cases h
  · split at h
    · cases h
    · simp only [Option.some.injEq, Except.ok.injEq] at h
      have := rank_near (s := s) (s' := s') (m' := { m with q := none }) hm (by rw [← h]; rfl)
        (by rw [← h]; rfl) (by rw [← h]; rfl) (by rw [← h]; rfl)
      have h2 : s'.kap = .run j .dtor := by rw [← h]
      simp only [hk, h2, kapW, kpcW] at this
      simp only [modW, Option.getD_none, List.length_nil] at this
      omega
  · split at h
    · simp only [Option.some.injEq, Except.ok.injEq] at h
      have := rank_near (s := s) (s' := s') (m' := { m with built := false }) hm (by rw [← h]; rfl)
        (by rw [← h]; rfl) (by rw [← h]; rfl) (by rw [← h]; rfl)
      have h2 : s'.kap = .run j .rel := by rw [← h]
      simp only [hk, h2, kapW, kpcW] at this
      simp only [modW] at this
      omega
    · cases h
  · split at h
    · simp only [Option.some.injEq, Except.ok.injEq] at h
      have := rank_near (s := s) (s' := s') (m' := { m with live := false }) hm (by rw [← h]; rfl)
        (by rw [← h]; rfl) (by rw [← h]; rfl) (by rw [← h]; rfl)
      have h2 : s'.kap = knext s.mods j := by rw [← h]
      rw [h2] at this
      unfold knext at this
      simp only [modW] at this
      split at this
      · simp only [hk, kapW, kpcW] at this
        omega
      · simp only [hk, kapW, kpcW] at this
        omega
    · cases h

theorem tot_snoc {α : Type} (f : α → Nat) (l : List α) (a : α) : tot f (l ++ [a]) = tot f l + f a := by
  induction l with
  | nil => simp [tot]
  | cons b l ih => rw [List.cons_append, tot_cons, tot_cons, ih]; omega

theorem kstart_le (ms : List Mod) : kapW ms.length (kstart ms) ≤ 7 * ms.length := by
  unfold kstart
  split
  · exact Nat.zero_le _
  case isFalse h =>
    have : 0 < ms.length := by
      cases ms with
      | nil => exact absurd rfl h
      | cons => simp
    simp only [kapW, kpcW]; omega

theorem pkt_rank {s s1 : St} {p i j x : Nat} (g : Same s s1) (hp : s.pkts[p]? = some ⟨i, some j⟩) :
    rank (s1.setK p ⟨i, some x⟩) + (3 * (s.mods.length - j) + 1) + tot modW s.mods =
      rank s + (3 * (s.mods.length - x) + 1) + tot modW s1.mods := by
  have h1 := rank_same g
  have h2 := rank_setK (s := s1) (k' := ⟨i, some x⟩) (by rw [g.pkts]; exact hp)
  rw [g.len] at h2
  simp only [pktW] at h2
  omega

theorem rank_step {cs : List MCfg} {s s' : St} {e : Ev} (h : Inv cs s) (hs : step s e = some (.ok s')) :
    rank s' + 1 ≤ rank s + cost cs.length e := by
  have hlen : s.mods.length = cs.length := by
    have := congrArg List.length h.cnt.cfg
    simpa using this
  cases e with
  | newSess =>
    have hgen : ∀ t : St, t.sess = s.sess ++ [.live] → t.pkts = s.pkts → t.mods = s.mods → t.kap = s.kap → t.main = s.main →
        rank t + 1 ≤ rank s + cost cs.length .newSess := by
      intro t h1 h2 h3 h4 h5
      unfold rank
      rw [h1, h2, h3, h4, h5, tot_snoc]
      simp only [sessW, cost, hlen]
      omega
    simp only [step] at hs
    split at hs
    case isFalse => cases hs
    case isTrue =>
      split at hs
      · split at hs
        · cases hs
        · cases hs; exact hgen _ rfl rfl rfl rfl rfl
      · cases hs; exact hgen _ rfl rfl rfl rfl rfl
  | endSess i =>
    simp only [step] at hs
    split at hs
    case h_2 => cases hs
    case h_1 hi =>
      cases hs
      have := rank_setS (s := s) (pc' := if anyAcct s.mods then .acct 0 else .relAcct) hi
      split at this
      · rw [if_pos (by assumption)]
        simp only [sessW, cost] at *; omega
      · rw [if_neg (by assumption)]
        simp only [sessW, cost] at *; omega
  | acct i j b =>
    simp only [step] at hs
    split at hs
    case isFalse => cases hs
    case isTrue hi =>
      simp only [Option.some.injEq] at hs
      unfold St.stepAcct at hs
      split at hs
      case h_1 =>
        cases hs
        have := rank_setS (s := s) (pc' := .relMm) hi
        simp only [sessW, cost] at *; omega
      case h_2 m hm =>
        have hj := (List.getElem?_eq_some_iff.mp hm).1
        split at hs
        · split at hs
          · cases hs
          case h_2 s1 h1 =>
            cases hs
            have g := doAcct_same h1
            have h2 := rank_same g
            have h3 := doAcct_modW h1
            have h4 := rank_setS (s := s1) (pc' := .acct (j + 1)) (by rw [g.sess]; exact hi)
            rw [g.len] at h4
            simp only [sessW, cost] at *; omega
        · cases hs
          have := rank_setS (s := s) (pc' := .acct (j + 1)) hi
          simp only [sessW, cost] at *; omega
  | relMm i =>
    have hi : s.sess[i]? = some .relMm := by
      simp only [step] at hs
      split at hs
      · assumption
      · cases hs
    obtain ⟨_, rfl⟩ := h.cnt.relMm hs
    have := rank_setS (s := s) (pc' := .relAcct) hi
    have h2 : rank (({ s with mm := s.mm - 1 } : St).setS i .relAcct) = rank (s.setS i .relAcct) := rfl
    rw [h2]
    simp only [sessW, cost] at *; omega
  | relAcct i =>
    simp only [step] at hs
    split at hs
    case isFalse => cases hs
    case isTrue hi =>
      split at hs
      · cases hs
      case h_2 s1 h1 =>
        cases hs
        have g := decr_same h1
        have h2 := rank_same g
        rw [decr_mods h1] at h2
        have h4 := rank_setS (s := s1) (pc' := .relStrm) (by rw [g.sess]; exact hi.1)
        rw [g.len] at h4
        simp only [sessW, cost] at *; omega
  | relStrm i =>
    simp only [step] at hs
    split at hs
    case isFalse => cases hs
    case isTrue hi =>
      split at hs
      · cases hs
      · cases hs
        have h4 := rank_setS (s := s.setT i (s.strm i - 1)) (pc' := .gone) hi
        have h5 : rank (s.setT i (s.strm i - 1)) = rank s := rfl
        rw [h5] at h4
        simp only [sessW, cost] at *; omega
  | newPkt i =>
    simp only [step] at hs
    split at hs
    · cases hs
      unfold rank
      show tot (sessW s.mods.length) s.sess + tot (pktW s.mods.length) (s.pkts ++ [⟨i, some 0⟩]) + tot modW s.mods +
        kapW s.mods.length s.kap + mainW s.main + 1 ≤ _
      rw [tot_snoc]
      simp only [pktW, cost, hlen]
      omega
    · cases hs
  | pkt p j md =>
    simp only [step] at hs
    split at hs
    case h_2 => cases hs
    case h_1 i j' hp =>
      split at hs
      case isFalse => cases hs
      case isTrue hjj =>
        subst hjj
        split at hs
        case h_2 => cases hs
        case h_1 m hm =>
          have hj := (List.getElem?_eq_some_iff.mp hm).1
          simp only [Option.some.injEq] at hs
          unfold St.stepPkt at hs
          split at hs
          · split at hs
            case isFalse => cases hs
            case isTrue =>
              unfold St.doRtcp at hs
              split at hs
              · cases hs
                have := pkt_rank (x := s.mods.length) (Same.refl s) hp
                simp only [cost]; omega
              · split at hs
                · cases hs
                case h_2 s1 h1 =>
                  cases hs
                  have g := ((setR_same s (.pkt p j') 1).trans (emit_same _ (.nomem j' (.pkt p j')))).trans (decr_same h1)
                  have h2 := pkt_rank (x := j' + 1) g hp
                  rw [decr_mods h1] at h2
                  have h3 : ((s.setR (.pkt p j') 1).emit (.nomem j' (.pkt p j'))).mods = s.mods := rfl
                  rw [h3] at h2
                  simp only [cost]; omega
              · split at hs
                · cases hs
                case h_2 s1 h1 =>
                  cases hs
                  have g := (setR_same s (.pkt p j') 1).trans (put_same h1)
                  have h2 := pkt_rank (x := j' + 1) g hp
                  have h4 := put_modW h1
                  have h3 : (s.setR (.pkt p j') 1).mods = s.mods := rfl
                  rw [h3] at h4
                  simp only [cost]; omega
          · cases hs
            have := pkt_rank (x := j' + 1) (Same.refl s) hp
            simp only [cost]; omega
  | endPkt p =>
    simp only [step] at hs
    split at hs
    case h_2 => cases hs
    case h_1 i j hp =>
      split at hs
      · split at hs
        · cases hs
        · cases hs
          have h4 := rank_setK (s := s.setT i (s.strm i - 1)) (k' := ⟨i, none⟩) hp
          have h5 : rank (s.setT i (s.strm i - 1)) = rank s := rfl
          rw [h5] at h4
          simp only [pktW, cost] at *; omega
      · cases hs
  | take j =>
    simp only [step] at hs
    split at hs
    case h_2 => cases hs
    case h_1 m hm =>
      unfold St.stepTake at hs
      split at hs
      · cases hs
      · cases hs
      case h_3 l ht hq =>
        cases hs
        have := rank_setM (s := s) (m' := { m with q := some l, thr := .ended }) hm
        simp only [modW, hq, ht, busyW, Option.getD_some, List.length_cons, cost] at *
        omega
      case h_4 r l ht hq =>
        split at hs
        · cases hs
          have := rank_setM (s := s) (m' := { m with q := some l, thr := .busy r }) hm
          have h5 : ∀ t : St, rank (t.emit (.call j r)) = rank t := fun _ => rfl
          rw [h5]
          simp only [modW, hq, ht, busyW, Option.getD_some, List.length_cons, cost] at *
          omega
        · cases hs
      · cases hs
  | ret j =>
    simp only [step] at hs
    split at hs
    case h_2 => cases hs
    case h_1 m hm =>
      unfold St.stepRet at hs
      split at hs
      case h_2 => cases hs
      case h_1 r ht =>
        simp only [Option.some.injEq] at hs
        have h1 := rank_same (decr_same hs)
        rw [decr_mods hs] at h1
        have := rank_setM (s := s) (m' := { m with thr := .idle }) hm
        simp only [modW, ht, busyW, cost] at *
        omega
  | stop =>
    simp only [step] at hs
    split at hs
    case isTrue hr => cases hs; simp only [rank, hr, mainW, cost]; omega
    · cases hs
  | wait =>
    simp only [step] at hs
    split at hs
    case isTrue hr => cases hs; simp only [rank, hr.1, mainW, cost]; omega
    · cases hs
  | rel =>
    obtain ⟨_, h1, h5, rfl⟩ := h.cnt.rel hs
    have h4 := kstart_le s.mods
    simp only [rank, h1, h5, mainW, cost]
    have h6 : kapW s.mods.length .no = 7 * s.mods.length := rfl
    omega
  | kap =>
    simp only [step] at hs
    split at hs
    case h_2 => cases hs
    case h_1 j k hk =>
      split at hs
      case h_2 => cases hs
      case h_1 m hm => exact Nat.le_trans (rank_stepKap hm hk hs) (Nat.le_add_right _ _)
  | fin =>
    simp only [step] at hs
    split at hs
    case isTrue hr => cases hs; simp only [rank, hr.1, mainW, cost]; omega
    · cases hs

def costs (n : Nat) (es : List Ev) : Nat := (es.map (cost n)).sum

theorem rank_run {cs : List MCfg} : ∀ (es : List Ev) (s s' : St), Inv cs s → run s es = some (.ok s') →
    rank s' + es.length ≤ rank s + costs cs.length es
  | [], s, s', _, h => by cases h; simp [costs]
  | e :: es, s, s', hi, h => by
    simp only [run] at h
    split at h
    · cases h
    · cases h
    case h_3 s1 h1 =>
      obtain ⟨s2, h2, h3⟩ := inv_step hi e _ h1
      cases h2
      have h4 := rank_step hi h1
      have h5 := rank_run es s1 s' h3 h
      simp only [costs, List.map_cons, List.sum_cons, List.length_cons] at *
      omega

theorem costs_eq (n : Nat) : ∀ es : List Ev, costs n es =
    (3 * n + 6) * es.count .newSess + (3 * n + 2) * arrived es
  | [] => by simp [costs, arrived]
  | e :: es => by
    have := costs_eq n es
    simp only [costs, List.map_cons, List.sum_cons] at *
    rw [this]
    cases e <;> simp [cost, arrived, List.countP_cons, Ev.isPkt, Nat.mul_add] <;> omega

theorem rank_init (cs : List MCfg) : rank (St.init cs) = 7 * cs.length + 4 := by
  have : tot modW (cs.map Mod.init) = 0 := by
    apply tot_zero
    intro m hm
    obtain ⟨c, _, rfl⟩ := List.mem_map.mp hm
    simp only [modW, Mod.init, Option.getD_some, List.length_nil]
    split <;> rfl
  have h2 : (St.init cs).mods.length = cs.length := by simp [St.init]
  unfold rank
  rw [h2]
  show 0 + 0 + tot modW (cs.map Mod.init) + 7 * cs.length + 4 = _
  rw [this]
  omega

/-- Something that belongs to the end of what is there can happen. -/
def Goes (s : St) : Prop := ∃ e, e ≠ .newSess ∧ (∀ i, e ≠ .newPkt i) ∧ step s e ≠ none

theorem goes_sess {s : St} {i : Nat} {pc : Spc} (hi : s.sess[i]? = some pc) (hn : pc ≠ .gone) (hk : s.kap = .no) : Goes s := by
  cases pc with
  | live => exact ⟨.endSess i, nofun, nofun, by simp only [step, hi]; nofun⟩
  | acct j => exact ⟨.acct i j true, nofun, nofun, by simp [step, hi]⟩
  | relMm =>
    refine ⟨.relMm i, nofun, nofun, ?_⟩
    simp only [step, hi, if_true]
    split <;> nofun
  | relAcct =>
    refine ⟨.relAcct i, nofun, nofun, ?_⟩
    simp only [step, hi, St.free, hk]
    simp only [beq_self_eq_true, Bool.true_or, and_self, if_true]
    split <;> nofun
  | relStrm =>
    refine ⟨.relStrm i, nofun, nofun, ?_⟩
    simp only [step, hi, if_true]
    split <;> nofun
  | gone => exact absurd rfl hn

theorem goes_pkt {s : St} {p i j : Nat} (hp : s.pkts[p]? = some ⟨i, some j⟩) (hj : j ≤ s.mods.length) : Goes s := by
  by_cases h : j = s.mods.length
  · refine ⟨.endPkt p, nofun, nofun, ?_⟩
    simp only [step, hp, h, if_true]
    split <;> nofun
  · have h2 : j < s.mods.length := by omega
    refine ⟨.pkt p j .ok, nofun, nofun, ?_⟩
    simp only [step, hp, if_true, List.getElem?_eq_getElem h2]
    nofun

theorem goes_thr {s : St} {j : Nat} {m : Mod} (hm : s.mods[j]? = some m) (ht : m.thr.on) {x : Item} {l : List Item}
    (hq : m.q = some (x :: l)) : Goes s := by
  match hth : m.thr, ht with
  | .idle, _ =>
    refine ⟨.take j, nofun, nofun, ?_⟩
    simp only [step, hm, St.stepTake, hth, hq]
    cases x with
    | term => nofun
    | job r => simp only []; split <;> nofun
  | .busy r, _ =>
    refine ⟨.ret j, nofun, nofun, ?_⟩
    simp only [step, hm, St.stepRet, hth]
    nofun

theorem goes {cs : List MCfg} {s : St} (h : Inv cs s) (hr : s.main ≠ .run) (he : s.main ≠ .ended) : Goes s := by
  match hmn : s.main with
  | .run => exact absurd hmn hr
  | .ended => exact absurd hmn he
  | .rel =>
    refine ⟨.rel, nofun, nofun, ?_⟩
    simp only [step, hmn, if_true]
    split <;> nofun
  | .stop =>
    have hk := h.cnt.kapn (by rw [hmn]; nofun) (by rw [hmn]; nofun)
    by_cases hall : (List.range s.sess.length).all (fun i => s.strm i == 0) = true
    · exact ⟨.wait, nofun, nofun, by simp [step, hmn, hall]⟩
    · have : ∃ i, i < s.sess.length ∧ s.strm i ≠ 0 := by
        apply Classical.byContradiction
        intro hc
        apply hall
        rw [List.all_eq_true]
        intro i hi
        have hi := List.mem_range.mp hi
        by_cases h0 : s.strm i = 0
        · simp [h0]
        · exact absurd ⟨i, hi, h0⟩ hc
      obtain ⟨i, hi, h0⟩ := this
      have hst := h.cnt.strm i
      by_cases hg : s.sess[i] = .gone
      · rw [List.getElem?_eq_getElem hi, hg] at hst
        simp only [optS, holdStrm] at hst
        obtain ⟨p, k, hp, hk2⟩ := exists_of_tot_pos (pktOn i) s.pkts (by omega)
        obtain ⟨x, pc⟩ := k
        match pc with
        | none => simp [pktOn] at hk2
        | some j => exact goes_pkt hp ((h.cnt.pktlt p _ hp).2 j rfl)
      · exact goes_sess (List.getElem?_eq_getElem hi) hg hk
  | .after =>
    obtain ⟨hk1, hk2⟩ := h.cnt.kapy (.inl hmn)
    match hk : s.kap with
    | .no => exact absurd hk hk1
    | .done => exact ⟨.fin, nofun, nofun, by simp [step, hmn, St.free, hk]⟩
    | .run j k =>
      have hj := h.cnt.kapl j k hk
      have hm : s.mods[j]? = some s.mods[j] := List.getElem?_eq_getElem hj
      have hok := h.ok j _ hm
      rw [hk] at hok
      simp only [phase, Nat.lt_irrefl, if_false, if_true] at hok
      cases k with
      | put =>
        by_cases hto : s.mods[j].thr = .off
        · exact ⟨.kap, nofun, nofun, by simp [step, hk, hm, St.stepKap, hto]⟩
        · obtain ⟨_, _, h1, h2, l, h3, h4, h5, _⟩ := hok
          by_cases hl : l.length < qmax
          · refine ⟨.kap, nofun, nofun, ?_⟩
            simp only [step, hk, hm, St.stepKap, hto, h3, if_false, hl, if_true]
            nofun
          · have hon : s.mods[j].thr.on := by
              cases ha : s.mods[j].cfg.aapi with
              | true => exact h1 ha
              | false => exact absurd (h2 ha) hto
            cases l with
            | nil => exact absurd (show 0 < qmax by decide) hl
            | cons x l => exact goes_thr hm hon h3
      | join =>
        obtain ⟨_, _, ⟨h1, l, h2, _⟩ | ⟨h1, _⟩⟩ := hok
        · cases l with
          | nil => exact goes_thr hm h1 h2
          | cons x l => exact goes_thr hm h1 h2
        · exact ⟨.kap, nofun, nofun, by simp [step, hk, hm, St.stepKap, h1]⟩
      | destroy =>
        obtain ⟨_, _, _, h1⟩ := hok
        refine ⟨.kap, nofun, nofun, ?_⟩
        simp only [step, hk, hm, St.stepKap, h1]
        nofun
      | dtor =>
        obtain ⟨_, h1, _⟩ := hok
        refine ⟨.kap, nofun, nofun, ?_⟩
        simp only [step, hk, hm, St.stepKap, h1, if_true]
        nofun
      | rel =>
        obtain ⟨h1, _⟩ := hok
        refine ⟨.kap, nofun, nofun, ?_⟩
        simp only [step, hk, hm, St.stepKap, h1, if_true]
        nofun

end Verif.Modman
