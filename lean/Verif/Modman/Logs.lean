import Verif.Modman.Free

/-! What is logged, and the number of sessions. -/

namespace Verif.Modman

open Verif.Util

/-- The messages tell what has happened. -/
def Honest (s : St) (e : Ev) (o : Out) : Prop :=
  (∀ j r, o = .full j r → ∃ (m : Mod) (l : List Item), s.mods[j]? = some m ∧ m.q = some l ∧ qmax ≤ l.length ∧ s.kap = .no ∧
    offer m.cfg j e = some r) ∧
  (∀ j r, o = .nomem j r → (∃ i, e = .acct i j false ∧ r = .sess i) ∨ ∃ p, e = .pkt p j .noWi ∧ r = .pkt p j)

def Logs (s : St) (e : Ev) (s' : St) : Prop := ∃ t, s'.out = s.out ++ t ∧ ∀ o ∈ t, Honest s e o

theorem Logs.nil {s s' : St} {e : Ev} (h : s'.out = s.out) : Logs s e s' := ⟨[], by rw [h, List.append_nil], nofun⟩

theorem Logs.one {s s' : St} {e : Ev} (o : Out) (h : s'.out = s.out ++ [o]) (h1 : ∀ j r, o ≠ .full j r)
    (h2 : ∀ j r, o ≠ .nomem j r) : Logs s e s' :=
  ⟨[o], h, fun x hx => by
    have := List.mem_singleton.mp hx
    subst this
    exact ⟨fun j r e => absurd e (h1 j r), fun j r e => absurd e (h2 j r)⟩⟩

theorem free_honest (s : St) (e : Ev) (r : Rec) : Honest s e (.free r) := ⟨nofun, nofun⟩

theorem decr_out {s s' : St} {r : Rec} (h : s.decr r = .ok s') : s'.out = s.out ∨ s'.out = s.out ++ [.free r] := by
  unfold St.decr at h
  split at h
  · cases h
  · cases h; exact .inr rfl
  · cases h; exact .inl rfl

theorem incr_out {s s' : St} {r : Rec} (h : s.incr r = .ok s') :
    s'.out = s.out ∧ s'.mods = s.mods ∧ s'.kap = s.kap := by
  unfold St.incr at h
  split at h
  · cases h
  · cases h; exact ⟨rfl, rfl, rfl⟩

theorem decr_logs {s s1 s' : St} {r : Rec} {e : Ev} (h : s1.decr r = .ok s') (hs : Logs s e s1) : Logs s e s' := by
  obtain ⟨t, h1, h2⟩ := hs
  rcases decr_out h with h3 | h3
  · exact ⟨t, by rw [h3, h1], h2⟩
  · refine ⟨t ++ [.free r], by rw [h3, h1, List.append_assoc], fun o ho => ?_⟩
    rcases List.mem_append.mp ho with ho | ho
    · exact h2 o ho
    · rw [List.mem_singleton.mp ho]; exact free_honest s e r

theorem put_logs {s s1 s' : St} {j : Nat} {r : Rec} {e : Ev} (h : s1.put j r = .ok s') (ho : s1.out = s.out)
    (hm : s1.mods = s.mods) (hk : s.kap = .no)
    (hof : ∀ m, s.mods[j]? = some m → offer m.cfg j e = some r) : Logs s e s' := by
  unfold St.put at h
  split at h
  · cases h
  case h_2 m hj =>
    split at h
    case h_2 => cases h
    case h_1 l hl hq =>
      split at h
      · cases h; exact Logs.nil ho
      case isFalse hlt =>
        refine decr_logs h ⟨[.full j r], by simp only [St.emit, ho], fun o hx => ?_⟩
        rw [List.mem_singleton.mp hx]
        refine ⟨fun j' r' e' => ?_, nofun⟩
        cases e'
        exact ⟨m, l, by rw [← hm]; exact hj, hq, by omega, hk, hof m (by rw [← hm]; exact hj)⟩

theorem logs_step {cs : List MCfg} {s s' : St} {e : Ev} (h : Inv cs s) (hs : step s e = some (.ok s')) : Logs s e s' := by
  cases e with
  | newSess =>
    simp only [step] at hs
    split at hs
    case isFalse => cases hs
    case isTrue =>
      split at hs
      · split at hs
        · cases hs
        · cases hs; exact Logs.nil rfl
      · cases hs; exact Logs.nil rfl
  | endSess i =>
    simp only [step] at hs
    split at hs
    · cases hs; exact Logs.nil rfl
    · cases hs
  | acct i j b =>
    simp only [step] at hs
    split at hs
    case isFalse => cases hs
    case isTrue hi =>
      have hk := h.kap_no (by rw [h.cnt.strm i, hi]; simp only [optS, holdStrm]; omega)
      simp only [Option.some.injEq] at hs
      unfold St.stepAcct at hs
      split at hs
      · cases hs; exact Logs.nil rfl
      case h_2 m hm =>
        split at hs
        case isTrue hd =>
          split at hs
          · cases hs
          case h_2 s1 h1 =>
            cases hs
            show Logs s _ s1
            unfold St.doAcct at h1
            split at h1
            · cases h1
            · split at h1
              · split at h1
                · cases h1
                case h_2 s2 h2 =>
                  obtain ⟨h3, h4, _⟩ := incr_out h2
                  exact put_logs h1 h3 h4 hk (fun m' hm' => by rw [hm] at hm'; cases hm'; exact offer_acct hd)
              case isFalse hb =>
                cases h1
                refine ⟨[.nomem j (.sess i)], rfl, fun o ho => ?_⟩
                rw [List.mem_singleton.mp ho]
                refine ⟨nofun, fun j' r' e' => ?_⟩
                cases e'
                cases b with
                | true => exact absurd rfl hb
                | false => exact .inl ⟨i, rfl, rfl⟩
        · cases hs; exact Logs.nil rfl
  | relMm i =>
    obtain ⟨_, rfl⟩ := h.cnt.relMm hs
    exact Logs.nil rfl
  | relAcct i =>
    simp only [step] at hs
    split at hs
    case isFalse => cases hs
    case isTrue =>
      split at hs
      · cases hs
      case h_2 s1 h1 =>
        cases hs
        show Logs s _ s1
        exact decr_logs h1 (Logs.nil rfl)
  | relStrm i =>
    simp only [step] at hs
    split at hs
    case isFalse => cases hs
    case isTrue =>
      split at hs
      · cases hs
      · cases hs; exact Logs.nil rfl
  | newPkt i =>
    simp only [step] at hs
    split at hs
    · cases hs; exact Logs.nil rfl
    · cases hs
  | pkt p j md =>
    simp only [step] at hs
    split at hs
    case h_2 => cases hs
    case h_1 i j' hp =>
      split at hs
      case isFalse => cases hs
      case isTrue hjj =>
        subst hjj
        have hk := h.kap_no (h.cnt.pkt_strm hp)
        split at hs
        case h_2 => cases hs
        case h_1 m hm =>
          simp only [Option.some.injEq] at hs
          unfold St.stepPkt at hs
          split at hs
          case isTrue hd =>
            split at hs
            case isFalse => cases hs
            case isTrue =>
              unfold St.doRtcp at hs
              split at hs
              · cases hs; exact Logs.nil rfl
              · split at hs
                · cases hs
                case h_2 s1 h1 =>
                  cases hs
                  show Logs s _ s1
                  refine decr_logs h1 ⟨[.nomem j' (.pkt p j')], rfl, fun o ho => ?_⟩
                  rw [List.mem_singleton.mp ho]
                  refine ⟨nofun, fun j' r' e' => ?_⟩
                  cases e'
                  exact .inr ⟨p, rfl, rfl⟩
              · split at hs
                · cases hs
                case h_2 s1 h1 =>
                  cases hs
                  show Logs s _ s1
                  exact put_logs h1 rfl rfl hk (fun m' hm' => by rw [hm] at hm'; cases hm'; exact offer_pkt hd (by nofun))
          · cases hs; exact Logs.nil rfl
  | endPkt p =>
    simp only [step] at hs
    split at hs
    case h_2 => cases hs
    case h_1 =>
      split at hs
      · split at hs
        · cases hs
        · cases hs; exact Logs.nil rfl
      · cases hs
  | take j =>
    simp only [step] at hs
    split at hs
    case h_2 => cases hs
    case h_1 m hm =>
      unfold St.stepTake at hs
      split at hs
      · cases hs
      · cases hs
      · cases hs; exact Logs.nil rfl
      · split at hs
        · cases hs; exact Logs.one _ rfl (by nofun) (by nofun)
        · cases hs
      · cases hs
  | ret j =>
    simp only [step] at hs
    split at hs
    case h_2 => cases hs
    case h_1 m hm =>
      unfold St.stepRet at hs
      split at hs
      case h_2 => cases hs
      case h_1 r ht =>
        simp only [Option.some.injEq] at hs
        exact decr_logs hs (Logs.nil rfl)
  | stop =>
    simp only [step] at hs
    split at hs
    · cases hs; exact Logs.nil rfl
    · cases hs
  | wait =>
    simp only [step] at hs
    split at hs
    · cases hs; exact Logs.nil rfl
    · cases hs
  | rel =>
    obtain ⟨_, _, _, rfl⟩ := h.cnt.rel hs
    exact Logs.nil rfl
  | kap =>
    simp only [step] at hs
    split at hs
    case h_2 => cases hs
    case h_1 j k hk =>
      split at hs
      case h_2 => cases hs
      case h_1 m hm =>
        unfold St.stepKap at hs
        split at hs
        · split at hs
          · cases hs; exact Logs.nil rfl
          · split at hs
            · cases hs
            · split at hs
              · cases hs; exact Logs.nil rfl
              · cases hs
        · split at hs
          · cases hs; exact Logs.nil rfl
          · cases hs
        · split at hs
          · cases hs
          · cases hs; exact Logs.nil rfl
        · split at hs
          · cases hs; exact Logs.one _ rfl (by nofun) (by nofun)
          · cases hs
        · split at hs
          · cases hs; exact Logs.nil rfl
          · cases hs
  | fin =>
    simp only [step] at hs
    split at hs
    · cases hs; exact Logs.nil rfl
    · cases hs

theorem sess_len {cs : List MCfg} {s s' : St} {e : Ev} (h : Inv cs s) (hs : step s e = some (.ok s')) :
    s'.sess.length = s.sess.length + created [e] := by
  cases e with
  | newSess =>
    simp only [step] at hs
    split at hs
    case isFalse => cases hs
    case isTrue =>
      split at hs
      · split at hs
        · cases hs
        · cases hs; exact List.length_append
      · cases hs; exact List.length_append
  | endSess i =>
    simp only [step] at hs
    split at hs
    · cases hs; exact setS_len _ _ _
    · cases hs
  | acct i j b =>
    simp only [step] at hs
    split at hs
    case isFalse => cases hs
    case isTrue hi =>
      simp only [Option.some.injEq] at hs
      exact (bal_stepAcct hs).2
  | relMm i =>
    obtain ⟨_, rfl⟩ := h.cnt.relMm hs
    exact setS_len _ _ _
  | relAcct i =>
    simp only [step] at hs
    split at hs
    case isFalse => cases hs
    case isTrue =>
      split at hs
      · cases hs
      case h_2 s1 h1 =>
        cases hs
        rw [setS_len, (decr_same h1).sess]; rfl
  | relStrm i =>
    simp only [step] at hs
    split at hs
    case isFalse => cases hs
    case isTrue =>
      split at hs
      · cases hs
      · cases hs; exact setS_len _ _ _
  | newPkt i =>
    simp only [step] at hs
    split at hs
    · cases hs; rfl
    · cases hs
  | pkt p j md =>
    simp only [step] at hs
    split at hs
    case h_2 => cases hs
    case h_1 =>
      split at hs
      case isFalse => cases hs
      case isTrue =>
        split at hs
        case h_2 => cases hs
        case h_1 m hm =>
          have hj := (List.getElem?_eq_some_iff.mp hm).1
          simp only [Option.some.injEq] at hs
          unfold St.stepPkt at hs
          split at hs
          · split at hs
            · obtain ⟨s1, j2, g, rfl, _⟩ := doRtcp_same hj hs
              exact congrArg List.length g.sess
            · cases hs
          · cases hs; rfl
  | endPkt p =>
    simp only [step] at hs
    split at hs
    case h_2 => cases hs
    case h_1 =>
      split at hs
      · split at hs
        · cases hs
        · cases hs; rfl
      · cases hs
  | take j =>
    simp only [step] at hs
    split at hs
    case h_2 => cases hs
    case h_1 m hm =>
      unfold St.stepTake at hs
      split at hs
      · cases hs
      · cases hs
      · cases hs; rfl
      · split at hs
        · cases hs; rfl
        · cases hs
      · cases hs
  | ret j =>
    simp only [step] at hs
    split at hs
    case h_2 => cases hs
    case h_1 m hm =>
      unfold St.stepRet at hs
      split at hs
      case h_2 => cases hs
      case h_1 r ht =>
        simp only [Option.some.injEq] at hs
        exact congrArg List.length (decr_same hs).sess
  | stop =>
    simp only [step] at hs
    split at hs
    · cases hs; rfl
    · cases hs
  | wait =>
    simp only [step] at hs
    split at hs
    · cases hs; rfl
    · cases hs
  | rel =>
    obtain ⟨_, _, _, rfl⟩ := h.cnt.rel hs
    rfl
  | kap =>
    simp only [step] at hs
    split at hs
    case h_2 => cases hs
    case h_1 j k hk =>
      split at hs
      case h_2 => cases hs
      case h_1 m hm => exact congrArg List.length (bal_kap hs).2
  | fin =>
    simp only [step] at hs
    split at hs
    · cases hs; rfl
    · cases hs

theorem stepAcct_main {s s' : St} {i j : Nat} {b : Bool} (h : s.stepAcct i j b = .ok s') : s'.main = s.main := by
  unfold St.stepAcct at h
  split at h
  · cases h; rfl
  · split at h
    · split at h
      · cases h
      case h_2 s1 h1 => cases h; exact (doAcct_same h1).main
    · cases h; rfl

theorem kap_mainS {s s' : St} {j : Nat} {k : Kpc} {m : Mod} (h : s.stepKap j k m = some (.ok s')) : s'.main = s.main := by
  unfold St.stepKap at h
  split at h
  · split at h
    · cases h; rfl
    · split at h
      · cases h
      · split at h
        · cases h; rfl
        · cases h
  · split at h
    · cases h; rfl
    · cases h
  · split at h
    · cases h
    · cases h; rfl
  · split at h
    · cases h; rfl
    · cases h
  · split at h
    · cases h; rfl
    · cases h

theorem main_run {cs : List MCfg} {s s' : St} {e : Ev} (h : Inv cs s) (hs : step s e = some (.ok s')) (hm : s'.main = .run) :
    s.main = .run := by
  cases e with
  | newSess =>
    simp only [step] at hs
    split at hs
    case isFalse => cases hs
    case isTrue =>
      split at hs
      · split at hs
        · cases hs
        · cases hs; exact hm
      · cases hs; exact hm
  | endSess i =>
    simp only [step] at hs
    split at hs
    · cases hs; exact hm
    · cases hs
  | acct i j b =>
    simp only [step] at hs
    split at hs
    case isFalse => cases hs
    case isTrue hi =>
      simp only [Option.some.injEq] at hs
      rw [← stepAcct_main hs]; exact hm
  | relMm i =>
    obtain ⟨_, rfl⟩ := h.cnt.relMm hs
    exact hm
  | relAcct i =>
    simp only [step] at hs
    split at hs
    case isFalse => cases hs
    case isTrue =>
      split at hs
      · cases hs
      case h_2 s1 h1 =>
        cases hs
        rw [← (decr_same h1).main]; exact hm
  | relStrm i =>
    simp only [step] at hs
    split at hs
    case isFalse => cases hs
    case isTrue =>
      split at hs
      · cases hs
      · cases hs; exact hm
  | newPkt i =>
    simp only [step] at hs
    split at hs
    · cases hs; exact hm
    · cases hs
  | pkt p j md =>
    simp only [step] at hs
    split at hs
    case h_2 => cases hs
    case h_1 =>
      split at hs
      case isFalse => cases hs
      case isTrue =>
        split at hs
        case h_2 => cases hs
        case h_1 m hmj =>
          have hj := (List.getElem?_eq_some_iff.mp hmj).1
          simp only [Option.some.injEq] at hs
          unfold St.stepPkt at hs
          split at hs
          · split at hs
            · obtain ⟨s1, j2, g, rfl, _⟩ := doRtcp_same hj hs
              rw [← g.main]; exact hm
            · cases hs
          · cases hs; exact hm
  | endPkt p =>
    simp only [step] at hs
    split at hs
    case h_2 => cases hs
    case h_1 =>
      split at hs
      · split at hs
        · cases hs
        · cases hs; exact hm
      · cases hs
  | take j =>
    simp only [step] at hs
    split at hs
    case h_2 => cases hs
    case h_1 m hmj =>
      unfold St.stepTake at hs
      split at hs
      · cases hs
      · cases hs
      · cases hs; exact hm
      · split at hs
        · cases hs; exact hm
        · cases hs
      · cases hs
  | ret j =>
    simp only [step] at hs
    split at hs
    case h_2 => cases hs
    case h_1 m hmj =>
      unfold St.stepRet at hs
      split at hs
      case h_2 => cases hs
      case h_1 r ht =>
        simp only [Option.some.injEq] at hs
        have := (decr_same hs).main
        rw [hm] at this; exact this.symm
  | stop =>
    simp only [step] at hs
    split at hs
    · cases hs; cases hm
    · cases hs
  | wait =>
    simp only [step] at hs
    split at hs
    · cases hs; cases hm
    · cases hs
  | rel =>
    obtain ⟨_, _, _, rfl⟩ := h.cnt.rel hs
    cases hm
  | kap =>
    simp only [step] at hs
    split at hs
    case h_2 => cases hs
    case h_1 j k hk =>
      split at hs
      case h_2 => cases hs
      case h_1 m hmj => rw [← kap_mainS hs]; exact hm
  | fin =>
    simp only [step] at hs
    split at hs
    · cases hs; cases hm
    · cases hs

theorem sess_run {cs : List MCfg} : ∀ (es : List Ev) (s s' : St), Inv cs s → run s es = some (.ok s') →
    s'.sess.length = s.sess.length + created es
  | [], s, s', _, h => by cases h; rfl
  | e :: es, s, s', hi, h => by
    simp only [run] at h
    split at h
    · cases h
    · cases h
    case h_3 s1 h1 =>
      obtain ⟨s2, h2, h3⟩ := inv_step hi e _ h1
      cases h2
      have h4 := sess_len hi h1
      have h5 := sess_run es s1 s' h3 h
      have h6 : created (e :: es) = created [e] + created es := by
        unfold created
        rw [← List.count_append]; rfl
      omega

end Verif.Modman
