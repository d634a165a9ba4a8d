import Verif.Modman.Mods

/-! What has been handed over, and what has been freed. -/

namespace Verif.Modman

open Verif.Util

def jobsOf (l : List Item) : List Rec :=
  l.filterMap fun
    | .job r => some r
    | .term => none

def jobs (m : Mod) : List Rec := jobsOf (m.q.getD [])

/-- The end of the session has passed the module `j`. -/
def pastS (j : Nat) : Spc → Prop
  | .live => False
  | .acct j' => j < j'
  | _ => True

/-- The record has been offered to the module `j`, if it wants it. -/
def Past (s : St) (j : Nat) : Rec → Prop
  | .sess i => ∃ pc, s.sess[i]? = some pc ∧ pastS j pc
  | .pkt p j' => j' = j ∧ ∃ k, s.pkts[p]? = some k ∧ ∀ x, k.pc = some x → j < x

structure Calls (es : List Ev) (s : St) : Prop where
  calls : ∀ (j : Nat) (m : Mod), s.mods[j]? = some m →
    callsOf j s.out ++ jobs m = (offered m.cfg j es).filter (fun r => !decide (r ∈ droppedOf j s.out))
  past : ∀ (j : Nat) (m : Mod), s.mods[j]? = some m → ∀ r ∈ offered m.cfg j es, Past s j r
  nodup : ∀ (j : Nat) (m : Mod), s.mods[j]? = some m → (offered m.cfg j es).Nodup
  drop : ∀ (j : Nat) (m : Mod), s.mods[j]? = some m → ∀ r ∈ droppedOf j s.out, r ∈ offered m.cfg j es
  dropd : ∀ (j : Nat) (m : Mod), s.mods[j]? = some m → (droppedOf j s.out).Nodup
  len : ∀ (j : Nat) (m : Mod), s.mods[j]? = some m →
    (droppedOf j s.out).length + (callsOf j s.out ++ jobs m).length = (offered m.cfg j es).length

theorem offered_append (c : MCfg) (j : Nat) (es : List Ev) (e : Ev) :
    offered c j (es ++ [e]) = offered c j es ++ (offer c j e).toList := by
  unfold offered
  rw [List.filterMap_append]
  cases h : offer c j e <;> simp [h]

/-- How one module sees a step. -/
inductive Sees (s s' : St) (e : Ev) (j : Nat) (m m' : Mod) : Prop where
  | none (h1 : offer m.cfg j e = none) (h2 : callsOf j s'.out ++ jobs m' = callsOf j s.out ++ jobs m)
      (h3 : droppedOf j s'.out = droppedOf j s.out)
  | put (r : Rec) (h1 : offer m.cfg j e = some r) (h2 : callsOf j s'.out ++ jobs m' = callsOf j s.out ++ jobs m ++ [r])
      (h3 : droppedOf j s'.out = droppedOf j s.out) (h4 : ¬ Past s j r) (h5 : Past s' j r)
  | drop (r : Rec) (h1 : offer m.cfg j e = some r) (h2 : callsOf j s'.out ++ jobs m' = callsOf j s.out ++ jobs m)
      (h3 : droppedOf j s'.out = droppedOf j s.out ++ [r]) (h4 : ¬ Past s j r) (h5 : Past s' j r)

theorem Calls.next {es : List Ev} {s s' : St} {e : Ev} (h : Calls es s) (hp : ∀ j r, Past s j r → Past s' j r)
    (hs : ∀ (j : Nat) (m' : Mod), s'.mods[j]? = some m' → ∃ m, s.mods[j]? = some m ∧ m'.cfg = m.cfg ∧ Sees s s' e j m m') :
    Calls (es ++ [e]) s' := by
  refine ⟨fun j m' hj => ?_, fun j m' hj r hr => ?_, fun j m' hj => ?_, fun j m' hj r hr => ?_,
    fun j m' hj => ?_, fun j m' hj => ?_⟩
  · obtain ⟨m, hm, hc, hsee⟩ := hs j m' hj
    rw [hc, offered_append, List.filter_append]
    have hold := h.calls j m hm
    cases hsee with
    | none h1 h2 h3 => rw [h1, h2, h3]; simpa using hold
    | put r h1 h2 h3 h4 h5 =>
      have hnd : r ∉ droppedOf j s.out := fun hd => h4 (h.past j m hm r (h.drop j m hm r hd))
      rw [h1, h2, h3, hold]
      simp [hnd]
    | drop r h1 h2 h3 h4 h5 =>
      have hno : r ∉ offered m.cfg j es := fun hd => h4 (h.past j m hm r hd)
      rw [h1, h2, h3, hold]
      have : List.filter (fun x => !decide (x ∈ droppedOf j s.out ++ [r])) (offered m.cfg j es) =
          List.filter (fun x => !decide (x ∈ droppedOf j s.out)) (offered m.cfg j es) := by
        apply List.filter_congr
        intro x hx
        have hxr : x ≠ r := fun e => hno (e ▸ hx)
        simp [hxr]
      rw [this]
      simp
  · obtain ⟨m, hm, hc, hsee⟩ := hs j m' hj
    rw [hc, offered_append] at hr
    rcases List.mem_append.mp hr with hr | hr
    · exact hp j r (h.past j m hm r hr)
    · cases hsee with
      | none h1 h2 h3 => rw [h1] at hr; simp at hr
      | put r' h1 h2 h3 h4 h5 => rw [h1] at hr; simp at hr; subst hr; exact h5
      | drop r' h1 h2 h3 h4 h5 => rw [h1] at hr; simp at hr; subst hr; exact h5
  · obtain ⟨m, hm, hc, hsee⟩ := hs j m' hj
    rw [hc, offered_append]
    have hold := h.nodup j m hm
    have hgen : ∀ r, ¬ Past s j r → (offered m.cfg j es ++ [r]).Nodup := by
      intro r hr
      rw [List.nodup_append]
      refine ⟨hold, by simp, fun a ha b hb => ?_⟩
      have hb2 := List.mem_singleton.mp hb
      intro e
      apply hr
      rw [← hb2, ← e]
      exact h.past j m hm a ha
    cases hsee with
    | none h1 h2 h3 => rw [h1]; simpa using hold
    | put r' h1 h2 h3 h4 h5 => rw [h1]; exact hgen r' h4
    | drop r' h1 h2 h3 h4 h5 => rw [h1]; exact hgen r' h4
  · obtain ⟨m, hm, hc, hsee⟩ := hs j m' hj
    rw [hc, offered_append]
    cases hsee with
    | none h1 h2 h3 =>
      rw [h3] at hr
      exact List.mem_append_left _ (h.drop j m hm r hr)
    | put r' h1 h2 h3 h4 h5 =>
      rw [h3] at hr
      exact List.mem_append_left _ (h.drop j m hm r hr)
    | drop r' h1 h2 h3 h4 h5 =>
      rw [h3] at hr
      rcases List.mem_append.mp hr with hr | hr
      · exact List.mem_append_left _ (h.drop j m hm r hr)
      · rw [h1]
        exact List.mem_append_right _ (by simpa using hr)
  · obtain ⟨m, hm, hc, hsee⟩ := hs j m' hj
    cases hsee with
    | none h1 h2 h3 => rw [h3]; exact h.dropd j m hm
    | put r' h1 h2 h3 h4 h5 => rw [h3]; exact h.dropd j m hm
    | drop r' h1 h2 h3 h4 h5 =>
      rw [h3, List.nodup_append]
      refine ⟨h.dropd j m hm, by simp, fun a ha b hb => ?_⟩
      have hb2 := List.mem_singleton.mp hb
      intro e
      apply h4
      rw [← hb2, ← e]
      exact h.past j m hm a (h.drop j m hm a ha)
  · obtain ⟨m, hm, hc, hsee⟩ := hs j m' hj
    have hold := h.len j m hm
    rw [hc, offered_append]
    cases hsee with
    | none h1 h2 h3 => rw [h1, h2, h3]; simpa using hold
    | put r' h1 h2 h3 h4 h5 =>
      rw [h1, h2, h3]
      simp only [List.length_append, Option.toList, List.length_singleton] at *
      omega
    | drop r' h1 h2 h3 h4 h5 =>
      rw [h1, h2, h3]
      simp only [List.length_append, Option.toList, List.length_singleton] at *
      omega

/-- Nothing is handed over. -/
theorem Calls.quiet {es : List Ev} {s s' : St} {e : Ev} (h : Calls es s) (hp : ∀ j r, Past s j r → Past s' j r)
    (hm : s'.mods = s.mods) (ho : s'.out = s.out)
    (hq : ∀ (j : Nat) (m : Mod), s.mods[j]? = some m → offer m.cfg j e = none) :
    Calls (es ++ [e]) s' := by
  refine h.next hp (fun j m' hj => ?_)
  rw [hm] at hj
  exact ⟨m', hj, rfl, .none (hq j m' hj) (by rw [ho]) (by rw [ho])⟩

theorem past_setS {s : St} {i : Nat} {pc pc' : Spc} (hi : s.sess[i]? = some pc) (h : ∀ j, pastS j pc → pastS j pc')
    (j : Nat) (r : Rec) (hp : Past s j r) : Past (s.setS i pc') j r := by
  cases r with
  | pkt => exact hp
  | sess k =>
    obtain ⟨q, hq, hq2⟩ := hp
    by_cases hk : k = i
    · subst hk
      have hl := (List.getElem?_eq_some_iff.mp hi).1
      rw [hi] at hq; cases hq
      exact ⟨pc', by simp [St.setS, hl], h j hq2⟩
    · exact ⟨q, get_set_other hk hq, hq2⟩

theorem past_setK {s : St} {p : Nat} {k k' : Pkt} (hi : s.pkts[p]? = some k)
    (h : ∀ j, (∀ x, k.pc = some x → j < x) → ∀ x, k'.pc = some x → j < x)
    (j : Nat) (r : Rec) (hp : Past s j r) : Past (s.setK p k') j r := by
  cases r with
  | sess => exact hp
  | pkt q l =>
    obtain ⟨e, c, hq, hq2⟩ := hp
    refine ⟨e, ?_⟩
    by_cases hk : q = p
    · subst hk
      have hl := (List.getElem?_eq_some_iff.mp hi).1
      rw [hi] at hq; cases hq
      exact ⟨k', by simp [St.setK, hl], h j hq2⟩
    · exact ⟨c, get_set_other hk hq, hq2⟩

theorem past_same {s s' : St} (g : Same s s') (j : Nat) (r : Rec) : Past s' j r ↔ Past s j r := by
  cases r with
  | sess => simp only [Past, g.sess]
  | pkt => simp only [Past, g.pkts]

theorem decr_desc {s s' : St} {r : Rec} (h : s.decr r = .ok s') :
    s'.mods = s.mods ∧ (s'.out = s.out ∨ s'.out = s.out ++ [.free r]) := by
  unfold St.decr at h
  split at h
  · cases h
  · cases h; exact ⟨rfl, .inr rfl⟩
  · cases h; exact ⟨rfl, .inl rfl⟩

theorem callsOf_append (j : Nat) (a b : List Out) : callsOf j (a ++ b) = callsOf j a ++ callsOf j b := by
  simp [callsOf]

theorem droppedOf_append (j : Nat) (a b : List Out) : droppedOf j (a ++ b) = droppedOf j a ++ droppedOf j b := by
  simp [droppedOf]

theorem decr_seen {s s' : St} {r : Rec} (h : s.decr r = .ok s') (j : Nat) :
    callsOf j s'.out = callsOf j s.out ∧ droppedOf j s'.out = droppedOf j s.out := by
  rcases (decr_desc h).2 with ho | ho
  · rw [ho]; exact ⟨rfl, rfl⟩
  · rw [ho, callsOf_append, droppedOf_append]
    simp [callsOf, droppedOf]

theorem put_desc {s s' : St} {j : Nat} {r : Rec} {m : Mod} (hj : s.mods[j]? = some m) (h : s.put j r = .ok s') :
    (∃ l, m.q = some l ∧ l.length < qmax ∧ s' = s.setM j { m with q := some (l ++ [.job r]) }) ∨
    (∃ l, m.q = some l ∧ qmax ≤ l.length ∧ (s.emit (.full j r)).decr r = .ok s') := by
  unfold St.put at h
  simp only [hj] at h
  split at h
  case h_2 => cases h
  case h_1 l hl hq =>
    split at h
    case isTrue hlt =>
      left
      refine ⟨l, hq, hlt, ?_⟩
      cases h; rfl
    case isFalse hge => exact .inr ⟨l, hq, by omega, h⟩

/-- What each module sees of an attempt to put a record into the queue of `j`. -/
theorem put_sees {s s' : St} {e : Ev} {j : Nat} {r : Rec} {m : Mod} (hj : s.mods[j]? = some m) (h : s.put j r = .ok s')
    (t : St) (h4 : ¬ Past s j r) (h5 : Past t j r) (ht : t.mods = s'.mods) (hto : t.out = s'.out)
    (he : offer m.cfg j e = some r) (hne : ∀ x c, x ≠ j → offer c x e = none) (x : Nat) (m' : Mod)
    (hx : t.mods[x]? = some m') : ∃ m, s.mods[x]? = some m ∧ m'.cfg = m.cfg ∧ Sees s t e x m m' := by
  rw [ht] at hx
  rcases put_desc hj h with ⟨l, hq, hlt, hs'⟩ | ⟨l, hq, hge, hd⟩
  · subst hs'
    rcases get_set hx with ⟨e1, e2⟩ | ⟨hxj, hx⟩
    · subst e1; subst e2
      refine ⟨m, hj, rfl, .put r he ?_ (by rw [hto]; rfl) h4 h5⟩
      rw [hto]
      simp [jobs, jobsOf, hq, St.setM]
    · exact ⟨m', hx, rfl, .none (hne x _ hxj) (by rw [hto]; rfl) (by rw [hto]; rfl)⟩
  · have h1 := (decr_desc hd).1
    have h2 := decr_seen hd x
    have hx2 : s.mods[x]? = some m' := by rw [h1] at hx; exact hx
    have hc : callsOf x (s.emit (.full j r)).out = callsOf x s.out := by
      simp [St.emit, callsOf]
    refine ⟨m', hx2, rfl, ?_⟩
    by_cases hxj : x = j
    · subst hxj
      rw [hj] at hx2; cases hx2
      refine .drop r he (by rw [hto, h2.1, hc]) ?_ h4 h5
      rw [hto, h2.2]
      simp [St.emit, droppedOf]
    · refine .none (hne x _ hxj) (by rw [hto, h2.1, hc]) ?_
      rw [hto, h2.2]
      have hjx : ¬ j = x := fun e => hxj e.symm
      simp [St.emit, droppedOf, hjx]

theorem nomem_seen (s : St) (j x : Nat) (r : Rec) : callsOf x (s.emit (.nomem j r)).out = callsOf x s.out ∧
    droppedOf x (s.emit (.nomem j r)).out = droppedOf x s.out ++ (if j = x then [r] else []) := by
  constructor
  · simp [St.emit, callsOf]
  · by_cases h : j = x <;> simp [St.emit, droppedOf, h]

theorem offer_acct {c : MCfg} {i j : Nat} {b : Bool} (h : c.doAcct = true) : offer c j (.acct i j b) = some (.sess i) := by
  unfold MCfg.doAcct at h
  simp at h
  simp [offer, h]

theorem offer_acct_no {c : MCfg} {i j : Nat} {b : Bool} (h : ¬ c.doAcct = true) : offer c j (.acct i j b) = none := by
  unfold MCfg.doAcct at h
  simp at h
  simp [offer]; exact h

theorem offer_acct_ne {c : MCfg} {i j x : Nat} {b : Bool} (h : x ≠ j) : offer c x (.acct i j b) = none := by
  have : ¬ j = x := fun e => h e.symm
  simp [offer, this]

theorem calls_acct {cs : List MCfg} {es : List Ev} {s s' : St} {i j : Nat} {b : Bool} (h : Inv cs s) (hc : Calls es s)
    (hs : step s (.acct i j b) = some (.ok s')) : Calls (es ++ [.acct i j b]) s' := by
  simp only [step] at hs
  split at hs
  case isFalse => cases hs
  case isTrue hi =>
    have hl := (List.getElem?_eq_some_iff.mp hi).1
    simp only [Option.some.injEq] at hs
    unfold St.stepAcct at hs
    split at hs
    case h_1 hnone =>
      cases hs
      refine hc.quiet (fun x r hp => past_setS hi (by intros; trivial) x r hp) rfl rfl (fun x m hx => ?_)
      refine offer_acct_ne ?_
      intro e; subst e
      rw [hnone] at hx; cases hx
    case h_2 m hm =>
      have hmono : ∀ x, pastS x (.acct j) → pastS x (.acct (j + 1)) := fun x (hx : x < j) => Nat.lt_succ_of_lt hx
      split at hs
      case isFalse hd =>
        cases hs
        refine hc.quiet (fun x r hp => past_setS hi hmono x r hp) rfl rfl (fun x mx hx => ?_)
        by_cases hxj : x = j
        · subst hxj
          rw [hm] at hx; cases hx
          exact offer_acct_no hd
        · exact offer_acct_ne hxj
      case isTrue hd =>
        have h4 : ¬ Past s j (.sess i) := by
          rintro ⟨pc, h1, h2⟩
          rw [hi] at h1; cases h1
          exact Nat.lt_irrefl _ h2
        split at hs
        · cases hs
        case h_2 s1 h1 =>
          have g := doAcct_same h1
          cases hs
          have hi1 : s1.sess[i]? = some (.acct j) := by rw [g.sess]; exact hi
          have hpast : ∀ x r, Past s x r → Past (s1.setS i (.acct (j + 1))) x r := fun x r hp =>
            past_setS hi1 hmono x r ((past_same g x r).mpr hp)
          have h5 : Past (s1.setS i (.acct (j + 1))) j (.sess i) :=
            ⟨.acct (j + 1), by simp [St.setS, g.sess, hl], Nat.lt_succ_self j⟩
          refine hc.next hpast ?_
          unfold St.doAcct at h1
          split at h1
          · cases h1
          · split at h1
            · split at h1
              · cases h1
              case h_2 s2 h2 =>
                have g2 := incr_same h2
                have hm2 : s2.mods = s.mods ∧ s2.out = s.out := by
                  unfold St.incr at h2
                  split at h2
                  · cases h2
                  · cases h2; exact ⟨rfl, rfl⟩
                intro x m' hx
                obtain ⟨m0, hm0, hc0, hsee⟩ := put_sees (e := .acct i j b) (by rw [hm2.1]; exact hm) h1 _ (fun hp => h4 ((past_same g2 j _).mp hp)) h5 rfl rfl
                  (offer_acct hd) (fun x c hne => offer_acct_ne hne) x m' hx
                rw [hm2.1] at hm0
                refine ⟨m0, hm0, hc0, ?_⟩
                cases hsee with
                | none a1 a2 a3 => exact .none a1 (by rw [a2, hm2.2]) (by rw [a3, hm2.2])
                | put r a1 a2 a3 a4 a5 =>
                  exact .put r a1 (by rw [a2, hm2.2]) (by rw [a3, hm2.2]) (fun hp => a4 ((past_same g2 x _).mpr hp)) a5
                | drop r a1 a2 a3 a4 a5 =>
                  exact .drop r a1 (by rw [a2, hm2.2]) (by rw [a3, hm2.2]) (fun hp => a4 ((past_same g2 x _).mpr hp)) a5
            · cases h1
              intro x m' hx
              have hx2 : s.mods[x]? = some m' := hx
              refine ⟨m', hx2, rfl, ?_⟩
              obtain ⟨b1, b2⟩ := nomem_seen s j x (.sess i)
              by_cases hxj : x = j
              · subst hxj
                rw [hm] at hx2; cases hx2
                exact .drop (.sess i) (offer_acct hd) (by show callsOf x (s.emit _).out ++ _ = _; rw [b1])
                  (by show droppedOf x (s.emit _).out = _; rw [b2, if_pos rfl]) h4 h5
              · exact .none (offer_acct_ne hxj) (by show callsOf x (s.emit _).out ++ _ = _; rw [b1])
                  (by show droppedOf x (s.emit _).out = _; rw [b2, if_neg (fun e => hxj e.symm), List.append_nil])

theorem offer_pkt {c : MCfg} {p j : Nat} {md : Made} (h : c.doRtcp = true) (hm : md ≠ .no) :
    offer c j (.pkt p j md) = some (.pkt p j) := by
  unfold MCfg.doRtcp at h
  simp at h
  simp [offer, h, hm]

theorem offer_pkt_no {c : MCfg} {p j : Nat} {md : Made} (h : c.doRtcp = true → md = .no) :
    offer c j (.pkt p j md) = none := by
  unfold MCfg.doRtcp at h
  simp at h
  simp [offer]; exact h

theorem offer_pkt_ne {c : MCfg} {p j x : Nat} {md : Made} (h : x ≠ j) : offer c x (.pkt p j md) = none := by
  have : ¬ j = x := fun e => h e.symm
  simp [offer, this]

theorem calls_pkt {cs : List MCfg} {es : List Ev} {s s' : St} {p j : Nat} {md : Made} (h : Inv cs s) (hc : Calls es s)
    (hs : step s (.pkt p j md) = some (.ok s')) : Calls (es ++ [.pkt p j md]) s' := by
  simp only [step] at hs
  split at hs
  case h_2 => cases hs
  case h_1 i j' hp =>
    split at hs
    case isFalse => cases hs
    case isTrue hj =>
      subst hj
      split at hs
      case h_2 => cases hs
      case h_1 m hm =>
        have hlt := (List.getElem?_eq_some_iff.mp hm).1
        have hl := (List.getElem?_eq_some_iff.mp hp).1
        simp only [Option.some.injEq] at hs
        have hquiet : ∀ n, j' ≤ n → (m.cfg.doRtcp = true → md = .no) →
            Calls (es ++ [.pkt p j' md]) (s.setK p ⟨i, some n⟩) := by
          intro n hn hno
          refine hc.quiet (fun x r hpa => past_setK hp (fun y hy z hz => ?_) x r hpa) rfl rfl (fun x mx hx => ?_)
          · cases hz
            have := hy j' rfl
            omega
          · by_cases hxj : x = j'
            · subst hxj
              rw [hm] at hx; cases hx
              exact offer_pkt_no hno
            · exact offer_pkt_ne hxj
        unfold St.stepPkt at hs
        split at hs
        case isFalse hd =>
          cases hs
          exact hquiet _ (Nat.le_succ _) (fun e => absurd e hd)
        case isTrue hd =>
          split at hs
          case isFalse => cases hs
          case isTrue hlive =>
            have h4 : ¬ Past s j' (.pkt p j') := by
              rintro ⟨_, k, h1, h2⟩
              rw [hp] at h1; cases h1
              exact Nat.lt_irrefl _ (h2 j' rfl)
            have hafter : ∀ s1, Same s s1 → (∀ x r, Past s x r → Past (s1.setK p ⟨i, some (j' + 1)⟩) x r) ∧
                Past (s1.setK p ⟨i, some (j' + 1)⟩) j' (.pkt p j') := by
              intro s1 g
              have hp1 : s1.pkts[p]? = some ⟨i, some j'⟩ := by rw [g.pkts]; exact hp
              refine ⟨fun x r hpa => past_setK hp1 (fun y hy z hz => ?_) x r ((past_same g x r).mpr hpa), ?_⟩
              · cases hz
                exact Nat.lt_succ_of_lt (hy j' rfl)
              · refine ⟨rfl, ⟨i, some (j' + 1)⟩, by simp [St.setK, g.pkts, hl], fun z hz => ?_⟩
                cases hz
                exact Nat.lt_succ_self _
            unfold St.doRtcp at hs
            split at hs
            · cases hs
              exact hquiet _ (by omega) (fun _ => rfl)
            · split at hs
              · cases hs
              case h_2 s1 h1 =>
                cases hs
                have g := ((setR_same s (.pkt p j') 1).trans (emit_same _ _)).trans (decr_same h1)
                obtain ⟨hmono, h5⟩ := hafter s1 g
                refine hc.next hmono (fun x m' hx => ?_)
                have hx2 : s.mods[x]? = some m' := by
                  have := (decr_desc h1).1
                  have hx1 : s1.mods[x]? = some m' := hx
                  rw [this] at hx1; exact hx1
                obtain ⟨b1, b2⟩ := nomem_seen (s.setR (.pkt p j') 1) j' x (.pkt p j')
                have b3 := decr_seen h1 x
                refine ⟨m', hx2, rfl, ?_⟩
                by_cases hxj : x = j'
                · subst hxj
                  rw [hm] at hx2; cases hx2
                  exact .drop (.pkt p x) (offer_pkt hd (by nofun)) (by show callsOf x s1.out ++ _ = _; rw [b3.1, b1]; rfl)
                    (by show droppedOf x s1.out = _; rw [b3.2, b2, if_pos rfl]; rfl) h4 h5
                · exact .none (offer_pkt_ne hxj) (by show callsOf x s1.out ++ _ = _; rw [b3.1, b1]; rfl)
                    (by show droppedOf x s1.out = _; rw [b3.2, b2, if_neg (fun e => hxj e.symm), List.append_nil]; rfl)
            · split at hs
              · cases hs
              case h_2 s1 h1 =>
                cases hs
                have g := (setR_same s (.pkt p j') 1).trans (put_same h1)
                obtain ⟨hmono, h5⟩ := hafter s1 g
                refine hc.next hmono (fun x m' hx => ?_)
                obtain ⟨m0, hm0, hc0, hsee⟩ := put_sees (s := s.setR (.pkt p j') 1) (e := .pkt p j' .ok) hm h1 _ h4 h5 rfl rfl
                  (offer_pkt hd (by nofun)) (fun x c hne => offer_pkt_ne hne) x m' hx
                refine ⟨m0, hm0, hc0, ?_⟩
                cases hsee with
                | none a1 a2 a3 => exact .none a1 a2 a3
                | put r a1 a2 a3 a4 a5 => exact .put r a1 a2 a3 a4 a5
                | drop r a1 a2 a3 a4 a5 => exact .drop r a1 a2 a3 a4 a5

theorem calls_take {es : List Ev} {s s' : St} {j : Nat} (hc : Calls es s)
    (hs : step s (.take j) = some (.ok s')) : Calls (es ++ [.take j]) s' := by
  simp only [step] at hs
  split at hs
  case h_2 => cases hs
  case h_1 m hm =>
    unfold St.stepTake at hs
    split at hs
    · cases hs
    · cases hs
    case h_3 l ht hq =>
      cases hs
      refine hc.next (fun x r hp => hp) (fun x m' hx => ?_)
      rcases get_set hx with ⟨e1, e2⟩ | ⟨_, hx⟩
      · subst e1; subst e2
        exact ⟨m, hm, rfl, .none rfl (by simp [jobs, jobsOf, hq, St.setM]) rfl⟩
      · exact ⟨m', hx, rfl, .none rfl rfl rfl⟩
    case h_4 r l ht hq =>
      split at hs
      case isFalse => cases hs
      case isTrue =>
        cases hs
        refine hc.next (fun x r hp => hp) (fun x m' hx => ?_)
        have hdr : ∀ x, droppedOf x (s.out ++ [.call j r]) = droppedOf x s.out := by
          intro x; rw [droppedOf_append]; simp [droppedOf]
        rcases get_set hx with ⟨e1, e2⟩ | ⟨hne, hx⟩
        · subst e1; subst e2
          refine ⟨m, hm, rfl, .none rfl ?_ (hdr x)⟩
          show callsOf x (s.out ++ [.call x r]) ++ _ = _
          rw [callsOf_append]
          simp [jobs, jobsOf, hq, callsOf]
        · refine ⟨m', hx, rfl, .none rfl ?_ (hdr x)⟩
          show callsOf x (s.out ++ [.call j r]) ++ _ = _
          rw [callsOf_append]
          have : ¬ j = x := fun e => hne e.symm
          simp [callsOf, this]
    · cases hs

theorem calls_ret {es : List Ev} {s s' : St} {j : Nat} (hc : Calls es s)
    (hs : step s (.ret j) = some (.ok s')) : Calls (es ++ [.ret j]) s' := by
  simp only [step] at hs
  split at hs
  case h_2 => cases hs
  case h_1 m hm =>
    unfold St.stepRet at hs
    split at hs
    case h_2 => cases hs
    case h_1 r ht =>
      simp only [Option.some.injEq] at hs
      have g : Same s s' := (setM_same hm (by rfl)).trans (decr_same hs)
      refine hc.next (fun x r hp => (past_same g x r).mpr hp) (fun x m' hx => ?_)
      rw [(decr_desc hs).1] at hx
      have hsee := decr_seen hs x
      rcases get_set hx with ⟨e1, e2⟩ | ⟨_, hx⟩
      · subst e1; subst e2
        exact ⟨m, hm, rfl, .none rfl (by rw [hsee.1]; rfl) (by rw [hsee.2]; rfl)⟩
      · exact ⟨m', hx, rfl, .none rfl (by rw [hsee.1]; rfl) (by rw [hsee.2]; rfl)⟩

theorem calls_kap {cs : List MCfg} {es : List Ev} {s s' : St} (h : Inv cs s) (hc : Calls es s)
    (hs : step s .kap = some (.ok s')) : Calls (es ++ [.kap]) s' := by
  simp only [step] at hs
  split at hs
  case h_2 => cases hs
  case h_1 j k hk =>
    split at hs
    case h_2 => cases hs
    case h_1 m hm =>
      have hok := h.ok j m hm
      rw [hk] at hok
      simp only [phase, Nat.lt_irrefl, if_true, if_false] at hok
      have hgen : ∀ (t : St) (m' : Mod), (∀ x r, Past s x r → Past t x r) → t.mods = s.mods.set j m' → m'.cfg = m.cfg →
          jobs m' = jobs m → (t.out = s.out ∨ t.out = s.out ++ [.dtor j]) → Calls (es ++ [.kap]) t := by
        intro t m' h1 h2 h3 h4 h5
        have h6 : ∀ x, callsOf x t.out = callsOf x s.out ∧ droppedOf x t.out = droppedOf x s.out := by
          intro x
          rcases h5 with h5 | h5
          · rw [h5]; exact ⟨rfl, rfl⟩
          · rw [h5, callsOf_append, droppedOf_append]; simp [callsOf, droppedOf]
        refine hc.next h1 (fun x mx hx => ?_)
        rw [h2] at hx
        rcases get_set hx with ⟨e1, e2⟩ | ⟨_, hx⟩
        · subst e1; subst e2
          exact ⟨m, hm, h3, .none rfl (by rw [(h6 x).1, h4]) (h6 x).2⟩
        · exact ⟨mx, hx, rfl, .none rfl (by rw [(h6 x).1]) (h6 x).2⟩
      unfold St.stepKap at hs
      split at hs
      · split at hs
        · cases hs; exact hgen _ m (fun _ _ hp => hp) (set_self hm) rfl rfl (.inl rfl)
        · split at hs
          · cases hs
          case h_2 l hq =>
            split at hs
            · cases hs
              exact hgen _ _ (fun _ _ hp => hp) rfl rfl (by simp [jobs, jobsOf, hq]) (.inl rfl)
            · cases hs
      · split at hs
        · cases hs; exact hgen _ m (fun _ _ hp => hp) (set_self hm) rfl rfl (.inl rfl)
        · cases hs
      · obtain ⟨h1, h2, h3, h4⟩ := hok
        simp only [h4] at hs
        cases hs
        exact hgen _ _ (fun _ _ hp => hp) rfl rfl (by simp [jobs, h4]) (.inl rfl)
      · split at hs
        · cases hs; exact hgen _ _ (fun _ _ hp => hp) rfl rfl rfl (.inr rfl)
        · cases hs
      · split at hs
        · cases hs; exact hgen _ _ (fun _ _ hp => hp) rfl rfl rfl (.inl rfl)
        · cases hs

theorem calls_step {cs : List MCfg} {es : List Ev} {s s' : St} {e : Ev} (h : Inv cs s) (hc : Calls es s)
    (hs : step s e = some (.ok s')) : Calls (es ++ [e]) s' := by
  cases e with
  | newSess =>
    have hmon : ∀ (n : Nat) (x : Nat) (r : Rec), Past s x r → Past ({ (({ s with sess := s.sess ++ [.live] } : St).setT s.sess.length 1).setR
          (.sess s.sess.length) 1 with mm := n }) x r := by
      intro n x r hp
      cases r with
      | pkt => exact hp
      | sess k =>
        obtain ⟨pc, h1, h2⟩ := hp
        refine ⟨pc, ?_, h2⟩
        show (s.sess ++ [Spc.live])[k]? = some pc
        rw [List.getElem?_append_left (List.getElem?_eq_some_iff.mp h1).1]; exact h1
    simp only [step] at hs
    split at hs
    case isFalse => cases hs
    case isTrue =>
      split at hs
      · split at hs
        · cases hs
        · cases hs; exact hc.quiet (hmon _) rfl rfl (fun _ _ _ => rfl)
      · cases hs; exact hc.quiet (hmon s.mm) rfl rfl (fun _ _ _ => rfl)
  | endSess i =>
    simp only [step] at hs
    split at hs
    case h_2 => cases hs
    case h_1 hi =>
      cases hs
      exact hc.quiet (fun x r hp => past_setS hi (fun _ hf => absurd hf id) x r hp) rfl rfl (fun _ _ _ => rfl)
  | acct i j b => exact calls_acct h hc hs
  | relMm i =>
    have hi : s.sess[i]? = some .relMm := by
      simp only [step] at hs
      split at hs
      · assumption
      · cases hs
    obtain ⟨_, rfl⟩ := h.cnt.relMm hs
    exact hc.quiet (fun x r hp => past_setS (s := { s with mm := s.mm - 1 }) hi (by intros; trivial) x r hp) rfl rfl (fun _ _ _ => rfl)
  | relAcct i =>
    simp only [step] at hs
    split at hs
    case isFalse => cases hs
    case isTrue hi =>
      split at hs
      · cases hs
      case h_2 s1 h1 =>
        cases hs
        have g := decr_same h1
        refine hc.next (fun x r hp => past_setS (s := s1) (pc := .relAcct) (by rw [g.sess]; exact hi.1) (by intros; trivial) x r
          ((past_same g x r).mpr hp)) (fun x m hx => ?_)
        have hx2 : s1.mods[x]? = some m := hx
        rw [(decr_desc h1).1] at hx2
        have hsee := decr_seen h1 x
        exact ⟨m, hx2, rfl, .none rfl (by show callsOf x s1.out ++ _ = _; rw [hsee.1]) hsee.2⟩
  | relStrm i =>
    simp only [step] at hs
    split at hs
    case isFalse => cases hs
    case isTrue hi =>
      split at hs
      · cases hs
      · cases hs
        exact hc.quiet (fun x r hp => past_setS (s := s.setT i (s.strm i - 1)) hi (by intros; trivial) x r hp) rfl rfl (fun _ _ _ => rfl)
  | newPkt i =>
    simp only [step] at hs
    split at hs
    case isFalse => cases hs
    case isTrue hi =>
      cases hs
      refine hc.quiet (fun x r hp => ?_) rfl rfl (fun _ _ _ => rfl)
      cases r with
      | sess => exact hp
      | pkt p j =>
        obtain ⟨e, k, h1, h2⟩ := hp
        refine ⟨e, k, ?_, h2⟩
        show (s.pkts ++ _)[p]? = some k
        rw [List.getElem?_append_left (List.getElem?_eq_some_iff.mp h1).1]; exact h1
  | pkt p j md => exact calls_pkt h hc hs
  | endPkt p =>
    simp only [step] at hs
    split at hs
    case h_2 => cases hs
    case h_1 i j hp =>
      split at hs
      case isFalse => cases hs
      case isTrue hj =>
        split at hs
        · cases hs
        · cases hs
          exact hc.quiet (fun x r hpa => past_setK (s := s.setT i (s.strm i - 1)) (k' := ⟨i, none⟩) hp (fun _ _ _ hz => nomatch hz) x r hpa) rfl rfl
            (fun _ _ _ => rfl)
  | take j => exact calls_take hc hs
  | ret j => exact calls_ret hc hs
  | stop =>
    simp only [step] at hs
    split at hs
    · cases hs; exact hc.quiet (fun _ _ hp => hp) rfl rfl (fun _ _ _ => rfl)
    · cases hs
  | wait =>
    simp only [step] at hs
    split at hs
    · cases hs; exact hc.quiet (fun _ _ hp => hp) rfl rfl (fun _ _ _ => rfl)
    · cases hs
  | rel =>
    obtain ⟨_, _, _, rfl⟩ := h.cnt.rel hs
    exact hc.quiet (fun _ _ hp => hp) rfl rfl (fun _ _ _ => rfl)
  | kap => exact calls_kap h hc hs
  | fin =>
    simp only [step] at hs
    split at hs
    · cases hs; exact hc.quiet (fun _ _ hp => hp) rfl rfl (fun _ _ _ => rfl)
    · cases hs

theorem calls_init (cs : List MCfg) : Calls [] (St.init cs) := by
  refine ⟨fun j m hj => ?_, fun _ _ _ => nofun, fun _ _ _ => List.nodup_nil, fun _ _ _ => nofun, fun _ _ _ => List.nodup_nil,
    fun j m hj => ?_⟩
  · have : m ∈ cs.map Mod.init := List.mem_of_getElem? hj
    obtain ⟨c, _, rfl⟩ := List.mem_map.mp this
    rfl
  · have : m ∈ cs.map Mod.init := List.mem_of_getElem? hj
    obtain ⟨c, _, rfl⟩ := List.mem_map.mp this
    rfl

end Verif.Modman
