import Verif.Modman.Hist

/-! Every record is freed once, and a module is called with records that are there, before its destructor. -/

namespace Verif.Modman

open Verif.Util

/-- Whether the record is there, and how often it has been freed. -/
def bal (s : St) (r : Rec) : Nat := s.out.count (.free r) + (if s.refs r = 0 then 0 else 1)

theorem bal_emit {s : St} {o : Out} (h : ∀ r, o ≠ .free r) (r : Rec) : bal (s.emit o) r = bal s r := by
  simp only [bal, St.emit, List.count_append]
  have : List.count (Out.free r) [o] = 0 := by simp [h r]
  rw [this, Nat.add_zero]
  rfl

theorem bal_decr {s s' : St} {r : Rec} (h : s.decr r = .ok s') (x : Rec) : bal s' x = bal s x := by
  unfold St.decr at h
  split at h
  · cases h
  case h_2 h0 =>
    cases h
    simp only [bal, St.emit, St.setR, List.count_append]
    by_cases hx : x = r
    · subst hx; simp [h0]
    · have h2 : ¬ Out.free r = .free x := fun e => hx (by cases e; rfl)
      simp [hx, h2]
  case h_3 n hn h0 =>
    cases h
    simp only [bal, St.setR]
    by_cases hx : x = r
    · subst hx
      have : n ≠ 0 := by intro e; subst e; exact hn rfl
      simp [h0, this]
    · simp [hx]

theorem bal_incr {s s' : St} {r : Rec} (h : s.incr r = .ok s') (x : Rec) : bal s' x = bal s x := by
  unfold St.incr at h
  split at h
  · cases h
  case isFalse h0 =>
    cases h
    simp only [bal, St.setR]
    by_cases hx : x = r
    · subst hx; simp [h0]
    · simp [hx]

theorem bal_put {s s' : St} {j : Nat} {r : Rec} (h : s.put j r = .ok s') (x : Rec) : bal s' x = bal s x := by
  unfold St.put at h
  split at h
  · cases h
  · split at h
    · split at h
      · cases h; rfl
      · rw [bal_decr h x]
        exact bal_emit (by nofun) x
    · cases h

theorem bal_born {s : St} {r : Rec} (h : bal s r = 0) (x : Rec) :
    bal (s.setR r 1) x = if x = r then 1 else bal s x := by
  simp only [bal, St.setR] at *
  by_cases hx : x = r
  · subst hx
    simp; omega
  · simp [hx]

def born (cs : List MCfg) (es : List Ev) (n : Nat) : Rec → Prop
  | .sess i => i < n
  | .pkt p j => ∃ c, cs[j]? = some c ∧ .pkt p j ∈ offered c j es

def FreeI (cs : List MCfg) (es : List Ev) (s : St) : Prop :=
  ∀ r, (born cs es s.sess.length r → bal s r = 1) ∧ (¬ born cs es s.sess.length r → bal s r = 0)

theorem FreeI.le {cs : List MCfg} {es : List Ev} {s : St} (h : FreeI cs es s) (r : Rec) : bal s r ≤ 1 := by
  by_cases hb : born cs es s.sess.length r
  · rw [(h r).1 hb]; exact Nat.le_refl 1
  · rw [(h r).2 hb]; exact Nat.zero_le 1

theorem mem_offered {c : MCfg} {j : Nat} {es : List Ev} {e : Ev} {r : Rec} :
    r ∈ offered c j (es ++ [e]) ↔ r ∈ offered c j es ∨ offer c j e = some r := by
  rw [offered_append, List.mem_append]
  cases offer c j e <;> simp [eq_comm]

theorem born_quiet {cs : List MCfg} {es : List Ev} {e : Ev} {n : Nat} (h : ∀ c j p, offer c j e ≠ some (.pkt p j)) (r : Rec) :
    born cs (es ++ [e]) n r ↔ born cs es n r := by
  cases r with
  | sess => exact Iff.rfl
  | pkt p j =>
    simp only [born, mem_offered]
    constructor
    · rintro ⟨c, h1, h2 | h2⟩
      · exact ⟨c, h1, h2⟩
      · exact absurd h2 (h c j p)
    · rintro ⟨c, h1, h2⟩
      exact ⟨c, h1, .inl h2⟩

theorem FreeI.quiet {cs : List MCfg} {es : List Ev} {e : Ev} {s s' : St} (h : FreeI cs es s)
    (hb : ∀ r, bal s' r = bal s r) (hl : s'.sess.length = s.sess.length) (he : ∀ c j p, offer c j e ≠ some (.pkt p j)) :
    FreeI cs (es ++ [e]) s' := by
  intro r
  rw [hb r, hl, born_quiet he r]
  exact h r

theorem cfg_get {cs : List MCfg} {s : St} (h : Cnt cs s) {j : Nat} {m : Mod} (hm : s.mods[j]? = some m) :
    cs[j]? = some m.cfg := by
  rw [← h.cfg, List.getElem?_map, hm]; rfl

theorem setS_len (s : St) (i : Nat) (pc : Spc) : (s.setS i pc).sess.length = s.sess.length := by simp [St.setS]

theorem free_pkt {cs : List MCfg} {es : List Ev} {s s' : St} {p j : Nat} {md : Made} (h : Inv cs s) (hc : Calls es s)
    (hf : FreeI cs es s) (hs : step s (.pkt p j md) = some (.ok s')) : FreeI cs (es ++ [.pkt p j md]) s' := by
  simp only [step] at hs
  split at hs
  case h_2 => cases hs
  case h_1 i j' hp =>
    split at hs
    case isFalse => cases hs
    case isTrue hj =>
      subst hj
      split at hs
      case h_2 => cases hs
      case h_1 m hm =>
        simp only [Option.some.injEq] at hs
        have hcs := cfg_get h.cnt hm
        have hquiet : (m.cfg.doRtcp = true → md = .no) → ∀ r, born cs (es ++ [.pkt p j' md]) s.sess.length r ↔
            born cs es s.sess.length r := by
          intro hno r
          cases r with
          | sess => exact Iff.rfl
          | pkt q x =>
            simp only [born, mem_offered]
            constructor
            · rintro ⟨c, h1, h2 | h2⟩
              · exact ⟨c, h1, h2⟩
              · exfalso
                by_cases hx : x = j'
                · subst hx
                  rw [hcs] at h1; cases h1
                  rw [offer_pkt_no hno] at h2; cases h2
                · rw [offer_pkt_ne hx] at h2; cases h2
            · rintro ⟨c, h1, h2⟩
              exact ⟨c, h1, .inl h2⟩
        have h4 : ¬ born cs es s.sess.length (.pkt p j') := by
          rintro ⟨c, h1, h2⟩
          rw [hcs] at h1; cases h1
          obtain ⟨_, k, h3, h5⟩ := hc.past j' m hm _ h2
          rw [hp] at h3; cases h3
          exact Nat.lt_irrefl _ (h5 j' rfl)
        have hnew : m.cfg.doRtcp = true → md ≠ .no → ∀ r, born cs (es ++ [.pkt p j' md]) s.sess.length r ↔
            born cs es s.sess.length r ∨ r = .pkt p j' := by
          intro hd hno r
          cases r with
          | sess => simp [born]
          | pkt q x =>
            simp only [born, mem_offered]
            constructor
            · rintro ⟨c, h1, h2 | h2⟩
              · exact .inl ⟨c, h1, h2⟩
              · right
                by_cases hx : x = j'
                · subst hx
                  rw [hcs] at h1; cases h1
                  rw [offer_pkt hd hno] at h2; cases h2; rfl
                · rw [offer_pkt_ne hx] at h2; cases h2
            · rintro (⟨c, h1, h2⟩ | h2)
              · exact ⟨c, h1, .inl h2⟩
              · cases h2
                exact ⟨m.cfg, hcs, .inr (offer_pkt hd hno)⟩
        have hb0 : bal s (.pkt p j') = 0 := (hf _).2 h4
        have hgo : m.cfg.doRtcp = true → md ≠ .no → ∀ t : St, t.sess = s.sess →
            (∀ r, bal t r = bal (s.setR (.pkt p j') 1) r) → FreeI cs (es ++ [.pkt p j' md]) t := by
          intro hd hno t ht hbt r
          rw [hbt r, bal_born hb0, ht]
          by_cases hr : r = .pkt p j'
          · rw [if_pos hr]
            exact ⟨fun _ => rfl, fun hn => absurd ((hnew hd hno r).mpr (.inr hr)) hn⟩
          · rw [if_neg hr]
            have : born cs (es ++ [.pkt p j' md]) s.sess.length r ↔ born cs es s.sess.length r := by
              rw [hnew hd hno r]
              exact ⟨fun h => h.resolve_right hr, .inl⟩
            rw [this]
            exact hf r
        unfold St.stepPkt at hs
        split at hs
        case isFalse hd =>
          cases hs
          intro r
          have := hf r
          rw [← hquiet (fun e => absurd e hd) r] at this
          exact this
        case isTrue hd =>
          split at hs
          case isFalse => cases hs
          case isTrue hlive =>
            unfold St.doRtcp at hs
            split at hs
            · cases hs
              intro r
              have := hf r
              rw [← hquiet (fun _ => rfl) r] at this
              exact this
            · split at hs
              · cases hs
              case h_2 s1 h1 =>
                cases hs
                refine hgo hd (by nofun) _ (decr_same h1).sess (fun r => ?_)
                show bal s1 r = _
                rw [bal_decr h1 r]
                exact bal_emit (by nofun) r
            · split at hs
              · cases hs
              case h_2 s1 h1 =>
                cases hs
                exact hgo hd (by nofun) _ (put_same h1).sess (fun r => bal_put h1 r)

theorem bal_stepAcct {s s' : St} {i j : Nat} {b : Bool} (h : s.stepAcct i j b = .ok s') :
    (∀ r, bal s' r = bal s r) ∧ s'.sess.length = s.sess.length := by
  unfold St.stepAcct at h
  split at h
  · cases h; exact ⟨fun _ => rfl, setS_len _ _ _⟩
  · split at h
    · split at h
      · cases h
      case h_2 s1 h1 =>
        cases h
        have g := doAcct_same h1
        refine ⟨fun r => ?_, by rw [setS_len, g.sess]⟩
        show bal s1 r = _
        unfold St.doAcct at h1
        split at h1
        · cases h1
        · split at h1
          · split at h1
            · cases h1
            case h_2 s2 h2 => rw [bal_put h1, bal_incr h2]
          · cases h1
            exact bal_emit (by nofun) r
    · cases h; exact ⟨fun _ => rfl, setS_len _ _ _⟩

theorem bal_kap {s s' : St} {j : Nat} {k : Kpc} {m : Mod} (h : s.stepKap j k m = some (.ok s')) :
    (∀ r, bal s' r = bal s r) ∧ s'.sess = s.sess := by
  unfold St.stepKap at h
  split at h
  · split at h
    · cases h; exact ⟨fun _ => rfl, rfl⟩
    · split at h
      · cases h
      · split at h
        · cases h; exact ⟨fun _ => rfl, rfl⟩
        · cases h
  · split at h
    · cases h; exact ⟨fun _ => rfl, rfl⟩
    · cases h
  · split at h
    · cases h
    · cases h; exact ⟨fun _ => rfl, rfl⟩
  · split at h
    · cases h
      exact ⟨fun r => bal_emit (s := s.setM j _) (by nofun) r, rfl⟩
    · cases h
  · split at h
    · cases h; exact ⟨fun _ => rfl, rfl⟩
    · cases h

theorem free_step {cs : List MCfg} {es : List Ev} {s s' : St} {e : Ev} (h : Inv cs s) (hc : Calls es s)
    (hf : FreeI cs es s) (hs : step s e = some (.ok s')) : FreeI cs (es ++ [e]) s' := by
  cases e with
  | newSess =>
    have hgen : ∀ (n : Nat), FreeI cs (es ++ [.newSess]) ({ (({ s with sess := s.sess ++ [.live] } : St).setT s.sess.length 1).setR
          (.sess s.sess.length) 1 with mm := n }) := by
      intro n r
      have hb0 : bal s (.sess s.sess.length) = 0 := (hf _).2 (Nat.lt_irrefl _)
      show (born cs (es ++ [.newSess]) (s.sess ++ [Spc.live]).length r → bal (s.setR (.sess s.sess.length) 1) r = 1) ∧
        (¬ born cs (es ++ [.newSess]) (s.sess ++ [Spc.live]).length r → bal (s.setR (.sess s.sess.length) 1) r = 0)
      rw [bal_born hb0, born_quiet (cs := cs) (es := es) (e := .newSess) (fun _ _ _ => nofun) r]
      by_cases hr : r = .sess s.sess.length
      · subst hr
        rw [if_pos rfl]
        refine ⟨fun _ => rfl, fun hn => absurd ?_ hn⟩
        show _ < _
        simp
      · rw [if_neg hr]
        cases r with
        | pkt p j => exact hf (.pkt p j)
        | sess i =>
          have : i ≠ s.sess.length := fun e => hr (by rw [e])
          have h2 : born cs es (s.sess ++ [Spc.live]).length (.sess i) ↔ born cs es s.sess.length (.sess i) := by
            simp only [born, List.length_append, List.length_singleton]; omega
          rw [h2]
          exact hf _
    simp only [step] at hs
    split at hs
    case isFalse => cases hs
    case isTrue =>
      split at hs
      · split at hs
        · cases hs
        · cases hs; exact hgen _
      · cases hs; exact hgen s.mm
  | endSess i =>
    simp only [step] at hs
    split at hs
    case h_2 => cases hs
    case h_1 hi => cases hs; exact hf.quiet (fun _ => rfl) (setS_len _ _ _) (fun _ _ _ => nofun)
  | acct i j b =>
    simp only [step] at hs
    split at hs
    case isFalse => cases hs
    case isTrue =>
      simp only [Option.some.injEq] at hs
      obtain ⟨h1, h2⟩ := bal_stepAcct hs
      refine hf.quiet h1 h2 (fun c x p => ?_)
      simp only [offer]
      split <;> nofun
  | relMm i =>
    obtain ⟨_, rfl⟩ := h.cnt.relMm hs
    exact hf.quiet (fun _ => rfl) (setS_len _ _ _) (fun _ _ _ => nofun)
  | relAcct i =>
    simp only [step] at hs
    split at hs
    case isFalse => cases hs
    case isTrue =>
      split at hs
      · cases hs
      case h_2 s1 h1 =>
        cases hs
        refine hf.quiet (fun r => bal_decr h1 r) ?_ (fun _ _ _ => nofun)
        rw [setS_len, (decr_same h1).sess]
  | relStrm i =>
    simp only [step] at hs
    split at hs
    case isFalse => cases hs
    case isTrue =>
      split at hs
      · cases hs
      · cases hs; exact hf.quiet (fun _ => rfl) (setS_len _ _ _) (fun _ _ _ => nofun)
  | newPkt i =>
    simp only [step] at hs
    split at hs
    · cases hs; exact hf.quiet (fun _ => rfl) rfl (fun _ _ _ => nofun)
    · cases hs
  | pkt p j md => exact free_pkt h hc hf hs
  | endPkt p =>
    simp only [step] at hs
    split at hs
    case h_2 => cases hs
    case h_1 =>
      split at hs
      · split at hs
        · cases hs
        · cases hs; exact hf.quiet (fun _ => rfl) rfl (fun _ _ _ => nofun)
      · cases hs
  | take j =>
    simp only [step] at hs
    split at hs
    case h_2 => cases hs
    case h_1 m hm =>
      unfold St.stepTake at hs
      split at hs
      · cases hs
      · cases hs
      · cases hs; exact hf.quiet (fun _ => rfl) rfl (fun _ _ _ => nofun)
      · split at hs
        · cases hs
          exact hf.quiet (fun r => bal_emit (s := s.setM j _) (by nofun) r) rfl (fun _ _ _ => nofun)
        · cases hs
      · cases hs
  | ret j =>
    simp only [step] at hs
    split at hs
    case h_2 => cases hs
    case h_1 m hm =>
      unfold St.stepRet at hs
      split at hs
      case h_2 => cases hs
      case h_1 r ht =>
        simp only [Option.some.injEq] at hs
        refine hf.quiet (fun x => bal_decr hs x) ?_ (fun _ _ _ => nofun)
        rw [(decr_same hs).sess]; rfl
  | stop =>
    simp only [step] at hs
    split at hs
    · cases hs; exact hf.quiet (fun _ => rfl) rfl (fun _ _ _ => nofun)
    · cases hs
  | wait =>
    simp only [step] at hs
    split at hs
    · cases hs; exact hf.quiet (fun _ => rfl) rfl (fun _ _ _ => nofun)
    · cases hs
  | rel =>
    obtain ⟨_, _, _, rfl⟩ := h.cnt.rel hs
    exact hf.quiet (fun _ => rfl) rfl (fun _ _ _ => nofun)
  | kap =>
    simp only [step] at hs
    split at hs
    case h_2 => cases hs
    case h_1 j k hk =>
      split at hs
      case h_2 => cases hs
      case h_1 m hm =>
        obtain ⟨h1, h2⟩ := bal_kap hs
        exact hf.quiet h1 (by rw [h2]) (fun _ _ _ => nofun)
  | fin =>
    simp only [step] at hs
    split at hs
    · cases hs; exact hf.quiet (fun _ => rfl) rfl (fun _ _ _ => nofun)
    · cases hs

/-- No call with a record that has been freed, or of a module that has been destroyed. -/
def before (x y : Out) : Prop := ∀ j r, y = .call j r → x ≠ .free r ∧ x ≠ .dtor j

structure Order (s : St) : Prop where
  pair : s.out.Pairwise before
  dtor : ∀ (j : Nat) (m : Mod), s.mods[j]? = some m → s.out.count (.dtor j) = if m.built then 0 else 1

theorem pair_snoc {l : List Out} {o : Out} (h : l.Pairwise before) (ho : ∀ x ∈ l, before x o) :
    (l ++ [o]).Pairwise before := by
  rw [List.pairwise_append]
  refine ⟨h, by simp, fun a ha b hb => ?_⟩
  have := List.mem_singleton.mp hb
  subst this
  exact ho a ha

/-- Nothing comes out but messages and what has been freed. -/
theorem Order.quiet {s s' : St} (h : Order s) (t : List Out) (ho : s'.out = s.out ++ t)
    (ht : ∀ x ∈ t, (∀ j r, x ≠ .call j r) ∧ ∀ j, x ≠ .dtor j)
    (hm : ∀ (j : Nat) (m' : Mod), s'.mods[j]? = some m' → ∃ m, s.mods[j]? = some m ∧ m'.built = m.built) : Order s' := by
  refine ⟨?_, fun j m' hj => ?_⟩
  · rw [ho, List.pairwise_append]
    refine ⟨h.pair, ?_, fun a _ b hb j r e => absurd e ((ht b hb).1 j r)⟩
    rw [List.pairwise_iff_forall_sublist]
    intro a b hab j r e
    have : b ∈ t := hab.subset (by simp)
    exact absurd e ((ht b this).1 j r)
  · obtain ⟨m, h1, h2⟩ := hm j m' hj
    rw [ho, List.count_append, h.dtor j m h1, h2]
    have : List.count (Out.dtor j) t = 0 := List.count_eq_zero.mpr (fun hd => (ht _ hd).2 j rfl)
    omega

theorem same_mods {s : St} (j : Nat) (m' : Mod) (h : s.mods[j]? = some m') :
    ∃ m, s.mods[j]? = some m ∧ m'.built = m.built := ⟨m', h, rfl⟩

theorem set_mods {s : St} {j : Nat} {m m1 : Mod} (hm : s.mods[j]? = some m) (hb : m1.built = m.built) (x : Nat) (m' : Mod)
    (h : (s.setM j m1).mods[x]? = some m') : ∃ m, s.mods[x]? = some m ∧ m'.built = m.built := by
  rcases get_set h with ⟨e1, e2⟩ | ⟨_, h⟩
  · subst e1; subst e2; exact ⟨m, hm, hb⟩
  · exact ⟨m', h, rfl⟩

/-- Only messages and freed records come out. -/
structure Mild (s s' : St) : Prop where
  out : ∃ t, s'.out = s.out ++ t ∧ ∀ x ∈ t, (∀ j r, x ≠ .call j r) ∧ ∀ j, x ≠ .dtor j
  mods : ∀ (j : Nat) (m' : Mod), s'.mods[j]? = some m' → ∃ m, s.mods[j]? = some m ∧ m'.built = m.built

theorem Mild.refl {s s' : St} (ho : s'.out = s.out) (hm : s'.mods = s.mods) : Mild s s' :=
  ⟨⟨[], by rw [ho, List.append_nil], nofun⟩, by rw [hm]; exact same_mods⟩

theorem Mild.trans {a b c : St} (h : Mild a b) (g : Mild b c) : Mild a c := by
  obtain ⟨t, h1, h2⟩ := h.out
  obtain ⟨u, h3, h4⟩ := g.out
  refine ⟨⟨t ++ u, by rw [h3, h1, List.append_assoc], fun x hx => ?_⟩, fun j m hj => ?_⟩
  · rcases List.mem_append.mp hx with hx | hx
    · exact h2 x hx
    · exact h4 x hx
  · obtain ⟨m1, h5, h6⟩ := g.mods j m hj
    obtain ⟨m2, h7, h8⟩ := h.mods j m1 h5
    exact ⟨m2, h7, h6.trans h8⟩

theorem Order.mild {s s' : St} (h : Order s) (g : Mild s s') : Order s' := by
  obtain ⟨t, h1, h2⟩ := g.out
  exact h.quiet t h1 h2 g.mods

theorem mild_emit {s : St} {o : Out} (h1 : ∀ j r, o ≠ .call j r) (h2 : ∀ j, o ≠ .dtor j) : Mild s (s.emit o) :=
  ⟨⟨[o], rfl, fun x hx => by have := List.mem_singleton.mp hx; subst this; exact ⟨h1, h2⟩⟩, same_mods⟩

theorem mild_setM {s : St} {j : Nat} {m m1 : Mod} (hm : s.mods[j]? = some m) (hb : m1.built = m.built) :
    Mild s (s.setM j m1) := ⟨⟨[], by simp [St.setM], nofun⟩, set_mods hm hb⟩

theorem mild_decr {s s' : St} {r : Rec} (h : s.decr r = .ok s') : Mild s s' := by
  unfold St.decr at h
  split at h
  · cases h
  · cases h; exact (Mild.refl (s := s) (s' := s.setR r 0) rfl rfl).trans (mild_emit (o := .free r) (by nofun) (by nofun))
  · cases h; exact Mild.refl rfl rfl

theorem mild_put {s s' : St} {j : Nat} {r : Rec} (h : s.put j r = .ok s') : Mild s s' := by
  unfold St.put at h
  split at h
  · cases h
  case h_2 m hm =>
    split at h
    · split at h
      · cases h; exact mild_setM hm (by rfl)
      · exact (mild_emit (by nofun) (by nofun)).trans (mild_decr h)
    · cases h

theorem mild_doAcct {s s' : St} {j i : Nat} {b : Bool} (h : s.doAcct j i b = .ok s') : Mild s s' := by
  unfold St.doAcct at h
  split at h
  · cases h
  · split at h
    · split at h
      · cases h
      case h_2 s2 h2 =>
        have : Mild s s2 := by
          unfold St.incr at h2
          split at h2
          · cases h2
          · cases h2; exact Mild.refl rfl rfl
        exact this.trans (mild_put h)
    · cases h; exact mild_emit (by nofun) (by nofun)

theorem order_step {cs : List MCfg} {es : List Ev} {s s' : St} {e : Ev} (h : Inv cs s) (hf : FreeI cs es s)
    (ho : Order s) (hs : step s e = some (.ok s')) : Order s' := by
  have hq : ∀ t : St, t.out = s.out → t.mods = s.mods → Order t := fun t h1 h2 => ho.mild (Mild.refl h1 h2)
  cases e with
  | newSess =>
    simp only [step] at hs
    split at hs
    case isFalse => cases hs
    case isTrue =>
      split at hs
      · split at hs
        · cases hs
        · cases hs; exact hq _ rfl rfl
      · cases hs; exact hq _ rfl rfl
  | endSess i =>
    simp only [step] at hs
    split at hs
    case h_2 => cases hs
    case h_1 hi => cases hs; exact hq _ rfl rfl
  | acct i j b =>
    simp only [step] at hs
    split at hs
    case isFalse => cases hs
    case isTrue =>
      simp only [Option.some.injEq] at hs
      unfold St.stepAcct at hs
      split at hs
      · cases hs; exact hq _ rfl rfl
      · split at hs
        · split at hs
          · cases hs
          case h_2 s1 h1 =>
            cases hs
            exact ho.mild ((mild_doAcct h1).trans (Mild.refl rfl rfl))
        · cases hs; exact hq _ rfl rfl
  | relMm i =>
    obtain ⟨_, rfl⟩ := h.cnt.relMm hs
    exact hq _ rfl rfl
  | relAcct i =>
    simp only [step] at hs
    split at hs
    case isFalse => cases hs
    case isTrue =>
      split at hs
      · cases hs
      case h_2 s1 h1 =>
        cases hs
        exact ho.mild ((mild_decr h1).trans (Mild.refl rfl rfl))
  | relStrm i =>
    simp only [step] at hs
    split at hs
    case isFalse => cases hs
    case isTrue =>
      split at hs
      · cases hs
      · cases hs; exact hq _ rfl rfl
  | newPkt i =>
    simp only [step] at hs
    split at hs
    · cases hs; exact hq _ rfl rfl
    · cases hs
  | pkt p j md =>
    simp only [step] at hs
    split at hs
    case h_2 => cases hs
    case h_1 =>
      split at hs
      case isFalse => cases hs
      case isTrue =>
        split at hs
        case h_2 => cases hs
        case h_1 m hm =>
          simp only [Option.some.injEq] at hs
          unfold St.stepPkt at hs
          split at hs
          · split at hs
            case isFalse => cases hs
            case isTrue =>
              unfold St.doRtcp at hs
              split at hs
              · cases hs; exact hq _ rfl rfl
              · split at hs
                · cases hs
                case h_2 s1 h1 =>
                  cases hs
                  refine ho.mild ((Mild.refl (s := s) (s' := s.setR (.pkt p j) 1) rfl rfl).trans ?_)
                  exact ((mild_emit (by nofun) (by nofun)).trans (mild_decr h1)).trans (Mild.refl rfl rfl)
              · split at hs
                · cases hs
                case h_2 s1 h1 =>
                  cases hs
                  refine ho.mild ((Mild.refl (s := s) (s' := s.setR (.pkt p j) 1) rfl rfl).trans ?_)
                  exact (mild_put h1).trans (Mild.refl rfl rfl)
          · cases hs; exact hq _ rfl rfl
  | endPkt p =>
    simp only [step] at hs
    split at hs
    case h_2 => cases hs
    case h_1 =>
      split at hs
      · split at hs
        · cases hs
        · cases hs; exact hq _ rfl rfl
      · cases hs
  | take j =>
    simp only [step] at hs
    split at hs
    case h_2 => cases hs
    case h_1 m hm =>
      unfold St.stepTake at hs
      split at hs
      · cases hs
      · cases hs
      · cases hs; exact ho.mild (mild_setM hm (by rfl))
      case h_4 r l ht hq2 =>
        split at hs
        case isFalse => cases hs
        case isTrue hcond =>
          cases hs
          refine ⟨?_, fun x m' hx => ?_⟩
          · refine pair_snoc ho.pair (fun x hx j' r' e => ?_)
            cases e
            constructor
            · intro e; subst e
              have h1 := hf.le r
              have h2 : 0 < s.out.count (.free r) := List.count_pos_iff.mpr hx
              unfold bal at h1
              have h3 : ¬ s.refs r = 0 := by omega
              rw [if_neg h3] at h1
              omega
            · intro e; subst e
              have h1 := ho.dtor j m hm
              have h2 : 0 < s.out.count (.dtor j) := List.count_pos_iff.mpr hx
              rw [if_pos hcond.1] at h1
              omega
          · obtain ⟨m0, h1, h2⟩ := set_mods (m1 := { m with q := some l, thr := .busy r }) hm rfl x m' hx
            have h3 := ho.dtor x m0 h1
            rw [h2, ← h3]
            show List.count _ (s.out ++ [Out.call j r]) = _
            rw [List.count_append]
            simp
      · cases hs
  | ret j =>
    simp only [step] at hs
    split at hs
    case h_2 => cases hs
    case h_1 m hm =>
      unfold St.stepRet at hs
      split at hs
      case h_2 => cases hs
      case h_1 r ht =>
        simp only [Option.some.injEq] at hs
        exact ho.mild ((mild_setM hm (by rfl)).trans (mild_decr hs))
  | stop =>
    simp only [step] at hs
    split at hs
    · cases hs; exact hq _ rfl rfl
    · cases hs
  | wait =>
    simp only [step] at hs
    split at hs
    · cases hs; exact hq _ rfl rfl
    · cases hs
  | rel =>
    obtain ⟨_, _, _, rfl⟩ := h.cnt.rel hs
    exact hq _ rfl rfl
  | kap =>
    simp only [step] at hs
    split at hs
    case h_2 => cases hs
    case h_1 j k hk =>
      split at hs
      case h_2 => cases hs
      case h_1 m hm =>
        unfold St.stepKap at hs
        split at hs
        · split at hs
          · cases hs; exact hq _ rfl rfl
          · split at hs
            · cases hs
            · split at hs
              · cases hs; exact ho.mild ((mild_setM hm (by rfl)).trans (Mild.refl rfl rfl))
              · cases hs
        · split at hs
          · cases hs; exact hq _ rfl rfl
          · cases hs
        · split at hs
          · cases hs
          · cases hs; exact ho.mild ((mild_setM hm (by rfl)).trans (Mild.refl rfl rfl))
        · split at hs
          case isFalse => cases hs
          case isTrue hb =>
            cases hs
            refine ⟨pair_snoc ho.pair (fun x hx j' r' e => nomatch e), fun x m' hx => ?_⟩
            show List.count _ (s.out ++ [Out.dtor j]) = _
            rw [List.count_append]
            rcases get_set hx with ⟨e1, e2⟩ | ⟨hne, hx⟩
            · subst e1; subst e2
              have := ho.dtor x m hm
              rw [if_pos hb] at this
              simp [this]
            · have := ho.dtor x m' hx
              have h2 : ¬ Out.dtor j = .dtor x := fun e => hne (by cases e; rfl)
              rw [this]; simp [h2]
        · split at hs
          · cases hs; exact ho.mild ((mild_setM hm (by rfl)).trans (Mild.refl rfl rfl))
          · cases hs
  | fin =>
    simp only [step] at hs
    split at hs
    · cases hs; exact hq _ rfl rfl
    · cases hs

/-- A session whose end has passed a module has been offered to it. -/
def Seen (cs : List MCfg) (es : List Ev) (s : St) : Prop :=
  ∀ (i : Nat) (pc : Spc), s.sess[i]? = some pc → ∀ (j : Nat) (c : MCfg), cs[j]? = some c → c.doAcct = true → pastS j pc →
    .sess i ∈ offered c j es

theorem Seen.more {cs : List MCfg} {es : List Ev} {s s' : St} (h : Seen cs es s) (e : Ev) (hs : s'.sess = s.sess) :
    Seen cs (es ++ [e]) s' := by
  intro i pc hi j c hc hd hp
  rw [hs] at hi
  exact mem_offered.mpr (.inl (h i pc hi j c hc hd hp))

theorem Seen.setS {cs : List MCfg} {es : List Ev} {s s' : St} (h : Seen cs es s) (e : Ev) {i : Nat} {pc pc' : Spc}
    (hi : s.sess[i]? = some pc) (hs : s'.sess = s.sess.set i pc')
    (hp : ∀ (j : Nat) (c : MCfg), cs[j]? = some c → c.doAcct = true → pastS j pc' → pastS j pc ∨ offer c j e = some (.sess i)) :
    Seen cs (es ++ [e]) s' := by
  intro x q hx j c hc hd hq
  rw [hs] at hx
  rcases get_set hx with ⟨e1, e2⟩ | ⟨_, hx⟩
  · subst e1; subst e2
    rcases hp j c hc hd hq with h1 | h1
    · exact mem_offered.mpr (.inl (h x pc hi j c hc hd h1))
    · exact mem_offered.mpr (.inr h1)
  · exact mem_offered.mpr (.inl (h x q hx j c hc hd hq))

theorem seen_step {cs : List MCfg} {es : List Ev} {s s' : St} {e : Ev} (h : Inv cs s) (hv : Seen cs es s)
    (hs : step s e = some (.ok s')) : Seen cs (es ++ [e]) s' := by
  cases e with
  | newSess =>
    have hgen : ∀ t : St, t.sess = s.sess ++ [.live] → Seen cs (es ++ [.newSess]) t := by
      intro t ht i pc hi j c hc hd hp
      rw [ht, List.getElem?_append] at hi
      split at hi
      · exact mem_offered.mpr (.inl (hv i pc hi j c hc hd hp))
      · have := List.mem_singleton.mp (List.mem_of_getElem? hi)
        subst this
        exact absurd hp id
    simp only [step] at hs
    split at hs
    case isFalse => cases hs
    case isTrue =>
      split at hs
      · split at hs
        · cases hs
        · cases hs; exact hgen _ rfl
      · cases hs; exact hgen _ rfl
  | endSess i =>
    simp only [step] at hs
    split at hs
    case h_2 => cases hs
    case h_1 hi =>
      cases hs
      refine hv.setS _ hi rfl (fun j c hc hd hp => ?_)
      split at hp
      · exact absurd hp (Nat.not_lt_zero j)
      case isFalse hn =>
        exfalso
        apply hn
        rw [anyAcct_map, h.cnt.cfg]
        exact List.any_eq_true.mpr ⟨c, List.mem_of_getElem? hc, hd⟩
  | acct i j b =>
    simp only [step] at hs
    split at hs
    case isFalse => cases hs
    case isTrue hi =>
      simp only [Option.some.injEq] at hs
      unfold St.stepAcct at hs
      have hone : ∀ (c : MCfg) (x : Nat), c.doAcct = true → pastS x (.acct (j + 1)) → pastS x (.acct j) ∨
          offer c x (.acct i j b) = some (.sess i) := by
        intro c x hd (hx : x < j + 1)
        by_cases hxj : x = j
        · subst hxj; exact .inr (offer_acct hd)
        · exact .inl (show x < j by omega)
      split at hs
      case h_1 hnone =>
        cases hs
        refine hv.setS _ hi rfl (fun x c hc hd hp => .inl ?_)
        have h1 : cs[j]? = none := by rw [← h.cnt.cfg, List.getElem?_map, hnone]; rfl
        have h2 := (List.getElem?_eq_some_iff.mp hc).1
        rw [List.getElem?_eq_none_iff] at h1
        exact (show x < j by omega)
      · split at hs
        · split at hs
          · cases hs
          case h_2 s1 h1 =>
            cases hs
            have g := doAcct_same h1
            exact hv.setS _ hi (by simp only [St.setS, g.sess]) (fun x c hc hd hp => hone c x hd hp)
        · cases hs
          exact hv.setS _ hi rfl (fun x c hc hd hp => hone c x hd hp)
  | relMm i =>
    have hi : s.sess[i]? = some .relMm := by
      simp only [step] at hs
      split at hs
      · assumption
      · cases hs
    obtain ⟨_, rfl⟩ := h.cnt.relMm hs
    exact hv.setS _ hi rfl (fun _ _ _ _ _ => .inl trivial)
  | relAcct i =>
    simp only [step] at hs
    split at hs
    case isFalse => cases hs
    case isTrue hi =>
      split at hs
      · cases hs
      case h_2 s1 h1 =>
        cases hs
        exact hv.setS _ hi.1 (pc' := .relStrm) (by simp only [St.setS, (decr_same h1).sess]) (fun _ _ _ _ _ => .inl trivial)
  | relStrm i =>
    simp only [step] at hs
    split at hs
    case isFalse => cases hs
    case isTrue hi =>
      split at hs
      · cases hs
      · cases hs; exact hv.setS _ hi rfl (fun _ _ _ _ _ => .inl trivial)
  | newPkt i =>
    simp only [step] at hs
    split at hs
    · cases hs; exact hv.more _ rfl
    · cases hs
  | pkt p j md =>
    simp only [step] at hs
    split at hs
    case h_2 => cases hs
    case h_1 =>
      split at hs
      case isFalse => cases hs
      case isTrue =>
        split at hs
        case h_2 => cases hs
        case h_1 m hm =>
          have hj := (List.getElem?_eq_some_iff.mp hm).1
          simp only [Option.some.injEq] at hs
          unfold St.stepPkt at hs
          split at hs
          · split at hs
            · obtain ⟨s1, j2, g, rfl, _⟩ := doRtcp_same hj hs
              exact hv.more _ g.sess
            · cases hs
          · cases hs; exact hv.more _ rfl
  | endPkt p =>
    simp only [step] at hs
    split at hs
    case h_2 => cases hs
    case h_1 =>
      split at hs
      · split at hs
        · cases hs
        · cases hs; exact hv.more _ rfl
      · cases hs
  | take j =>
    simp only [step] at hs
    split at hs
    case h_2 => cases hs
    case h_1 m hm =>
      unfold St.stepTake at hs
      split at hs
      · cases hs
      · cases hs
      · cases hs; exact hv.more _ rfl
      · split at hs
        · cases hs; exact hv.more _ rfl
        · cases hs
      · cases hs
  | ret j =>
    simp only [step] at hs
    split at hs
    case h_2 => cases hs
    case h_1 m hm =>
      unfold St.stepRet at hs
      split at hs
      case h_2 => cases hs
      case h_1 r ht =>
        simp only [Option.some.injEq] at hs
        exact hv.more _ (decr_same hs).sess
  | stop =>
    simp only [step] at hs
    split at hs
    · cases hs; exact hv.more _ rfl
    · cases hs
  | wait =>
    simp only [step] at hs
    split at hs
    · cases hs; exact hv.more _ rfl
    · cases hs
  | rel =>
    obtain ⟨_, _, _, rfl⟩ := h.cnt.rel hs
    exact hv.more _ rfl
  | kap =>
    simp only [step] at hs
    split at hs
    case h_2 => cases hs
    case h_1 j k hk =>
      split at hs
      case h_2 => cases hs
      case h_1 m hm => exact hv.more _ (bal_kap hs).2
  | fin =>
    simp only [step] at hs
    split at hs
    · cases hs; exact hv.more _ rfl
    · cases hs

structure Full (cs : List MCfg) (es : List Ev) (s : St) : Prop where
  inv : Inv cs s
  calls : Calls es s
  free : FreeI cs es s
  order : Order s
  seen : Seen cs es s

theorem full_init (cs : List MCfg) : Full cs [] (St.init cs) where
  inv := inv_init cs
  calls := calls_init cs
  free := fun r => by
    have : ¬ born cs [] 0 r := by
      cases r with
      | sess i => exact Nat.not_lt_zero i
      | pkt p j => rintro ⟨c, _, h⟩; cases h
    exact ⟨fun hb => absurd hb this, fun _ => rfl⟩
  order := ⟨List.Pairwise.nil, fun j m hj => by
    have : m ∈ cs.map Mod.init := List.mem_of_getElem? hj
    obtain ⟨c, _, rfl⟩ := List.mem_map.mp this
    rfl⟩
  seen := fun i pc hi => by simp [St.init] at hi

theorem full_step {cs : List MCfg} {es : List Ev} {s : St} (h : Full cs es s) (e : Ev) : ∀ x, step s e = some x →
    ∃ s', x = .ok s' ∧ Full cs (es ++ [e]) s' := by
  intro x hx
  obtain ⟨s', rfl, hi⟩ := inv_step h.inv e x hx
  exact ⟨s', rfl, hi, calls_step h.inv h.calls hx, free_step h.inv h.calls h.free hx, order_step h.inv h.free h.order hx,
    seen_step h.inv h.seen hx⟩

theorem full_run {cs : List MCfg} : ∀ (es es0 : List Ev) (s : St), Full cs es0 s → ∀ x, run s es = some x →
    ∃ s', x = .ok s' ∧ Full cs (es0 ++ es) s'
  | [], es0, s, h, x, hx => by
    cases hx
    exact ⟨s, rfl, by rw [List.append_nil]; exact h⟩
  | e :: es, es0, s, h, x, hx => by
    simp only [run] at hx
    split at hx
    · cases hx
    case h_2 f hf =>
      obtain ⟨_, h1, _⟩ := full_step h e _ hf
      cases h1
    case h_3 s1 h1 =>
      obtain ⟨s2, h2, h3⟩ := full_step h e _ h1
      cases h2
      have := full_run es (es0 ++ [e]) s1 h3 x hx
      simpa using this

end Verif.Modman
