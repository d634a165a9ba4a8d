import Verif.Play.Step

/-! Bookkeeping of the processors that hold back the media of the opposite party, in every
execution. -/

namespace Verif.Play

def cnt (l : List Entry) (s : Nat) : Nat := l.countP (fun e => e.2 == s)

def lkB (x : Strm) : Nat := if x.lk = .free then 0 else 1

def npB (c : Cmd) (s : Nat) : Nat :=
  match c with
  | .npC t _ _ => if t = s then 1 else 0
  | _ => 0

/-- Entry of an ended prompt that is still in the table. -/
def Plr.over : Plr → Option Entry
  | .ended u s _ => some (u, s)
  | .killI s (some u) _ => some (u, s)
  | .killA s (some u) _ => some (u, s)
  | _ => none

def enB (p : Plr) (s : Nat) : Nat :=
  match p.over with
  | some (_, t) => if t = s then 1 else 0
  | none => 0

/-- Everything the player thread has still in hand. -/
def Plr.hand : Plr → List Entry
  | .next r => r
  | .body u s r => (u, s) :: r
  | .lock _ u s r => (u, s) :: r
  | .ended u s r => (u, s) :: r
  | .killI s (some u) r => (u, s) :: r
  | .killA s (some u) r => (u, s) :: r
  | .killI _ none r => r
  | .killA _ none r => r
  | _ => []

/-- The command is about player `u` of stream `s`. -/
def Cmd.about (c : Cmd) (u s : Nat) : Prop :=
  match c with
  | .npI t v _ => t = s ∧ v = u
  | .npA t v _ => t = s ∧ v = u
  | .npC t v _ => t = s ∧ v = u
  | .plR t v => t = s ∧ v = u
  | _ => False

/-- Player `u` is known as a player of stream `s`. -/
def K (σ : St) (u s : Nat) : Prop :=
  (u, s) ∈ σ.act ∨ (u, s) ∈ σ.ina ∨ (σ.st s).lk = .mov u ∨ (σ.st s).lk = .play u ∨
    (σ.st s).uid = some u ∨ σ.cmd.about u s

structure AInv (σ : St) : Prop where
  lt : ∀ u s, K σ u s → u < σ.nuid
  fn : ∀ u s t, K σ u s → K σ u t → s = t
  dis : ∀ u s, (u, s) ∈ σ.act → (u, s) ∉ σ.ina ∧ (σ.st s).lk ≠ .mov u ∧ (σ.st s).lk ≠ .play u
  dis2 : ∀ u s, (u, s) ∈ σ.ina → (σ.st s).lk ≠ .mov u ∧ (σ.st s).lk ≠ .play u
  plR : ∀ s u, σ.cmd = .plR s u → (σ.st s).lk = .play u

structure CInv (b : Nat → Nat) (σ : St) : Prop where
  ab : σ.ab = false
  nd : (σ.act.map (·.1)).Nodup
  hand : σ.plr.hand.Sublist σ.act
  cn : ∀ s, cnt σ.act s + cnt σ.ina s + lkB (σ.st s) + npB σ.cmd s + b s ≤
    (σ.st s).drops + enB σ.plr s

theorem cnt_cons (e : Entry) (l : List Entry) (s : Nat) :
    cnt (e :: l) s = cnt l s + if e.2 = s then 1 else 0 := by
  simp [cnt, List.countP_cons]

theorem cnt_del (l : List Entry) (u s : Nat) : cnt (del l u) s ≤ cnt l s :=
  (del_sub l u).countP_le

theorem cnt_del_mem {l : List Entry} {u s : Nat} (h : (u, s) ∈ l) :
    cnt (del l u) s + 1 ≤ cnt l s := by
  induction l with
  | nil => simp at h
  | cons e l ih =>
    rw [cnt_cons]
    have hd : del (e :: l) u = if e.1 = u then del l u else e :: del l u := by
      unfold del
      by_cases he : e.1 = u <;> simp [List.filter_cons, he]
    rw [hd]
    rcases List.mem_cons.mp h with e1 | h1
    · subst e1
      simp only [if_true]
      have := cnt_del l u s
      omega
    · have := ih h1
      split
      · have := ih h1; omega
      · rw [cnt_cons]; omega

theorem cnt_pos {l : List Entry} {u s : Nat} (h : (u, s) ∈ l) : 1 ≤ cnt l s := by
  have := cnt_del_mem h; omega

theorem over_hand {p : Plr} {e : Entry} (h : p.over = some e) : e ∈ p.hand := by
  cases p <;> simp_all [Plr.over, Plr.hand]
  all_goals (split at h <;> simp_all [Plr.hand])

theorem enB_le (p : Plr) (s : Nat) : enB p s ≤ 1 := by
  unfold enB; split
  · split <;> omega
  · omega

theorem enB_cnt {b : Nat → Nat} {σ : St} (h : CInv b σ) (s : Nat) :
    enB σ.plr s ≤ cnt σ.act s := by
  unfold enB
  split
  · rename_i u t hq
    split
    · rename_i e; subst e; exact cnt_pos (h.hand.subset (over_hand hq))
    · exact Nat.zero_le _
  · exact Nat.zero_le _

/-- A processor that is owed a removal is there. -/
theorem drops_pos {b : Nat → Nat} {σ : St} (h : CInv b σ) {s : Nat}
    (hk : 1 ≤ lkB (σ.st s) + npB σ.cmd s) : (σ.st s).drops ≠ 0 := by
  have hc := h.cn s
  have he := enB_cnt h s
  omega

theorem drops_pos2 {b : Nat → Nat} {σ : St} (h : CInv b σ) {u s : Nat} (hm : (u, s) ∈ σ.act)
    (h0 : σ.plr.over = none) : (σ.st s).drops ≠ 0 := by
  have hc := h.cn s
  have : enB σ.plr s = 0 := by simp [enB, h0]
  have := cnt_pos hm
  omega

theorem ainv_init : AInv init := by
  constructor <;> simp [init, K, Cmd.about]

theorem cinv_init : CInv (fun _ => 0) init := by
  constructor <;> simp [init, Plr.hand, cnt, lkB, npB, enB, Plr.over]

theorem out_hand {p : Plr} (h : p.holds = false) : p.hand = [] ∧ p.over = none := by
  cases p <;> simp_all [Plr.holds, Plr.hand, Plr.over]

theorem out_hand_w {p : Plr} (h : p.holds = false) :
    (wakeup p).hand = [] ∧ (wakeup p).over = none := by
  apply out_hand
  cases p <;> simp_all [Plr.holds, wakeup]

/-! ### `AInv` -/

theorem ainv_of {σ σ' : St} (h : AInv σ) (hk : ∀ u s, K σ' u s → K σ u s)
    (hn : σ.nuid ≤ σ'.nuid)
    (hd : ∀ u s, (u, s) ∈ σ'.act → (u, s) ∉ σ'.ina ∧ (σ'.st s).lk ≠ .mov u ∧ (σ'.st s).lk ≠ .play u)
    (hd2 : ∀ u s, (u, s) ∈ σ'.ina → (σ'.st s).lk ≠ .mov u ∧ (σ'.st s).lk ≠ .play u)
    (hp : ∀ s u, σ'.cmd = .plR s u → (σ'.st s).lk = .play u) : AInv σ' :=
  ⟨fun u s hx => Nat.lt_of_lt_of_le (h.lt u s (hk u s hx)) hn,
    fun u s t hx hy => h.fn u s t (hk _ _ hx) (hk _ _ hy), hd, hd2, hp⟩

/-- A change that only forgets players. -/
theorem ainv_less {σ σ' : St} (h : AInv σ) (ha : ∀ u s, (u, s) ∈ σ'.act → (u, s) ∈ σ.act)
    (hi : ∀ u s, (u, s) ∈ σ'.ina → (u, s) ∈ σ.ina)
    (hl : ∀ s, (σ'.st s).lk = (σ.st s).lk ∨ (σ'.st s).lk = .free)
    (hu : ∀ s, (σ'.st s).uid = (σ.st s).uid ∨ (σ'.st s).uid = none)
    (hc : ∀ u s, σ'.cmd.about u s → K σ u s)
    (hn : σ'.nuid = σ.nuid) (hp : ∀ s u, σ'.cmd = .plR s u → (σ'.st s).lk = .play u) : AInv σ' := by
  have h3 := h.dis
  have h4 := h.dis2
  refine ainv_of h ?_ (by omega) ?_ ?_ hp
  · intro u s hx
    rcases hx with hx | hx | hx | hx | hx | hx
    · exact Or.inl (ha _ _ hx)
    · exact Or.inr (Or.inl (hi _ _ hx))
    · rcases hl s with e | e
      · exact Or.inr (Or.inr (Or.inl (e ▸ hx)))
      · rw [e] at hx; cases hx
    · rcases hl s with e | e
      · exact Or.inr (Or.inr (Or.inr (Or.inl (e ▸ hx))))
      · rw [e] at hx; cases hx
    · rcases hu s with e | e
      · exact Or.inr (Or.inr (Or.inr (Or.inr (Or.inl (e ▸ hx)))))
      · rw [e] at hx; cases hx
    · exact hc u s hx
  · intro u s hm
    obtain ⟨a, b, c⟩ := h3 u s (ha _ _ hm)
    refine ⟨fun q => a (hi _ _ q), ?_, ?_⟩ <;> rcases hl s with e | e <;> rw [e] <;> simp_all
  · intro u s hm
    obtain ⟨b, c⟩ := h4 u s (hi _ _ hm)
    refine ⟨?_, ?_⟩ <;> rcases hl s with e | e <;> rw [e] <;> simp_all

theorem about_npDone (s : Nat) (k : Bool) (u t : Nat) : ¬ (npDone s k).about u t := by
  cases k <;> simp [npDone, Cmd.about]

theorem npDone_ne (s t u : Nat) (k : Bool) : npDone s k ≠ .plR t u := by
  cases k <;> simp [npDone]

theorem upd_same (f : Nat → Strm) (s : Nat) (v : Strm) : upd f s v s = v := by simp [upd]

theorem upd_proj {α : Type} (g : Strm → α) (f : Nat → Strm) (s t : Nat) (v : Strm)
    (h : g v = g (f s)) : g (upd f s v t) = g (f t) := by
  unfold upd; split
  · rename_i e; rw [e, h]
  · rfl

theorem upd_or {α : Type} (g : Strm → α) (f : Nat → Strm) (s t : Nat) (v : Strm) (z : α)
    (h : g v = g (f s) ∨ g v = z) : g (upd f s v t) = g (f t) ∨ g (upd f s v t) = z := by
  unfold upd; split
  · rename_i e; rw [e]; exact h
  · exact Or.inl rfl

theorem mem_of_del {l : List Entry} {u : Nat} (v s : Nat) (h : (v, s) ∈ del l u) : (v, s) ∈ l :=
  (mem_del.mp h).1

theorem k_cmd {σ : St} {u s : Nat} (h : σ.cmd.about u s) : K σ u s :=
  Or.inr (Or.inr (Or.inr (Or.inr (Or.inr h))))

theorem k_uid {σ : St} {u s : Nat} (h : (σ.st s).uid = some u) : K σ u s :=
  Or.inr (Or.inr (Or.inr (Or.inr (Or.inl h))))

theorem ainv_step {σ σ' : St} (h : AInv σ) {e : Ev} (hs : step σ e = some σ') : AInv σ' := by
  have same : ∀ {a i : List Entry} {p : Plr} {c : Cmd} {b : Bool},
      (∀ u s, (u, s) ∈ a → (u, s) ∈ σ.act) → (∀ u s, (u, s) ∈ i → (u, s) ∈ σ.ina) →
      (∀ u s, c.about u s → K σ u s) → (∀ s u, c = .plR s u → (σ.st s).lk = .play u) →
      AInv (St.mk σ.st a i p c σ.nuid b) := fun ha hi hc hp =>
    ainv_less h ha hi (fun _ => Or.inl rfl) (fun _ => Or.inl rfl) hc rfl hp
  have one : ∀ {a i : List Entry} {p : Plr} {b : Bool} {s : Nat} {x : Strm},
      (∀ u s, (u, s) ∈ a → (u, s) ∈ σ.act) → (∀ u s, (u, s) ∈ i → (u, s) ∈ σ.ina) →
      x.lk = (σ.st s).lk → (x.uid = (σ.st s).uid ∨ x.uid = none) →
      AInv (St.mk (upd σ.st s x) a i p σ.cmd σ.nuid b) := by
    intro a i p b s x ha hi hl hu
    refine ainv_less h ha hi (fun t => Or.inl (upd_proj (·.lk) _ _ _ _ hl))
      (fun t => upd_or (·.uid) _ _ _ _ _ hu) (fun u t hx => k_cmd hx) rfl ?_
    intro t u hc
    show (upd σ.st s x t).lk = _
    rw [upd_proj (·.lk) _ _ _ _ hl]
    exact h.plR t u hc
  have id1 : ∀ u s, (u, s) ∈ σ.act → (u, s) ∈ σ.act := fun _ _ hm => hm
  have id2 : ∀ u s, (u, s) ∈ σ.ina → (u, s) ∈ σ.ina := fun _ _ hm => hm
  unfold step at hs
  split at hs
  · cases hs
  cases e with
  | noplay s =>
    simp only at hs
    split at hs
    · injection hs with hs; subst hs
      exact same id1 id2 (by simp [Cmd.about]) (by simp)
    · cases hs
  | play s =>
    simp only at hs
    split at hs
    · injection hs with hs; subst hs
      exact same id1 id2 (by simp [Cmd.about]) (by simp)
    · cases hs
  | cmd =>
    simp only [stepCmd] at hs
    split at hs
    · rename_i s k hc
      split at hs
      · split at hs
        · injection hs with hs; subst hs
          exact same id1 id2 (fun u t hx => absurd hx (about_npDone _ _ _ _))
            (fun t u hx => absurd hx (npDone_ne _ _ _ _))
        · rename_i u hu
          injection hs with hs; subst hs
          refine same id1 id2 ?_ (by simp)
          rintro v t ⟨rfl, rfl⟩
          exact k_uid hu
      · cases hs
    · rename_i s u k hc
      split at hs
      · injection hs with hs; subst hs
        refine same id1 mem_of_del ?_ (by simp)
        rintro v t ⟨rfl, rfl⟩
        exact k_cmd (by rw [hc]; exact ⟨rfl, rfl⟩)
      · injection hs with hs; subst hs
        refine same id1 id2 ?_ (by simp)
        rintro v t ⟨rfl, rfl⟩
        exact k_cmd (by rw [hc]; exact ⟨rfl, rfl⟩)
    · rename_i s u k hc
      split at hs
      · cases hs
      · split at hs
        · injection hs with hs; subst hs
          refine same mem_of_del id2 ?_ (by simp)
          rintro v t ⟨rfl, rfl⟩
          exact k_cmd (by rw [hc]; exact ⟨rfl, rfl⟩)
        · injection hs with hs; subst hs
          exact same id1 id2 (fun u t hx => absurd hx (about_npDone _ _ _ _))
            (fun t u hx => absurd hx (npDone_ne _ _ _ _))
    · rename_i s u k hc
      split at hs
      · split at hs
        · injection hs with hs; subst hs
          exact same id1 id2 (fun u t hx => k_cmd hx) h.plR
        · injection hs with hs; subst hs
          refine ainv_less h id1 id2 (fun t => Or.inl (upd_proj (·.lk) _ _ _ _ ?_))
            (fun t => upd_or (·.uid) _ _ _ _ _ ?_)
            (fun u t hx => absurd hx (about_npDone _ _ _ _)) rfl
            (fun t u hx => absurd hx (npDone_ne _ _ _ _))
          · split <;> rfl
          · split
            · exact Or.inr rfl
            · exact Or.inl rfl
      · cases hs
    · cases hs
  | «open» r =>
    simp only [stepOpen] at hs
    split at hs
    · rename_i s hc
      split at hs
      · rename_i hl
        split at hs
        · injection hs with hs; subst hs
          exact same id1 id2 (by simp [Cmd.about]) (by simp)
        · have hK : ∀ u t, K σ u t → u < σ.nuid := h.lt
          have key : ∀ {x : Strm} {c : Cmd}, x.uid = some σ.nuid →
              (x.lk = .free ∨ x.lk = .play σ.nuid) →
              (∀ u t, c.about u t → u = σ.nuid ∧ t = s) →
              (∀ t u, c = .plR t u → t = s ∧ u = σ.nuid ∧ x.lk = .play σ.nuid) →
              AInv (St.mk (upd σ.st s x) σ.act σ.ina σ.plr c (σ.nuid + 1) σ.ab) := by
            intro x c hu hx hab hpl
            have hsub : ∀ u t, K (St.mk (upd σ.st s x) σ.act σ.ina σ.plr c (σ.nuid + 1) σ.ab) u t →
                K σ u t ∨ (u = σ.nuid ∧ t = s) := by
              intro u t hk
              unfold K at hk ⊢
              simp only [upd] at hk
              by_cases e : t = s
              · subst e
                simp only [if_true] at hk
                rcases hk with hk | hk | hk | hk | hk | hk
                · exact Or.inl (Or.inl hk)
                · exact Or.inl (Or.inr (Or.inl hk))
                · rcases hx with hx | hx <;> rw [hx] at hk <;> cases hk
                · rcases hx with hx | hx <;> rw [hx] at hk <;> cases hk
                  exact Or.inr ⟨rfl, rfl⟩
                · rw [hu] at hk; cases hk; exact Or.inr ⟨rfl, rfl⟩
                · exact Or.inr (hab _ _ hk)
              · simp only [e, if_false] at hk
                rcases hk with hk | hk | hk | hk | hk | hk
                · exact Or.inl (Or.inl hk)
                · exact Or.inl (Or.inr (Or.inl hk))
                · exact Or.inl (Or.inr (Or.inr (Or.inl hk)))
                · exact Or.inl (Or.inr (Or.inr (Or.inr (Or.inl hk))))
                · exact Or.inl (Or.inr (Or.inr (Or.inr (Or.inr (Or.inl hk)))))
                · exact Or.inr (hab _ _ hk)
            refine ⟨?_, ?_, ?_, ?_, ?_⟩
            · intro u t hk
              show u < σ.nuid + 1
              rcases hsub u t hk with h1 | ⟨h1, _⟩
              · have := hK u t h1; omega
              · omega
            · intro u t1 t2 hk1 hk2
              rcases hsub u t1 hk1 with h1 | ⟨h1, e1⟩ <;> rcases hsub u t2 hk2 with h2 | ⟨h2, e2⟩
              · exact h.fn u t1 t2 h1 h2
              · have := hK u t1 h1; omega
              · have := hK u t2 h2; omega
              · omega
            · intro u t hm
              obtain ⟨a, b, d⟩ := h.dis u t hm
              have hlt := hK u t (Or.inl hm)
              refine ⟨a, ?_, ?_⟩
              · show (upd σ.st s x t).lk ≠ _
                unfold upd; split
                · rcases hx with hx | hx <;> rw [hx] <;> simp
                · exact b
              · show (upd σ.st s x t).lk ≠ _
                unfold upd; split
                · rcases hx with hx | hx <;> rw [hx] <;> simp; omega
                · exact d
            · intro u t hm
              obtain ⟨b, d⟩ := h.dis2 u t hm
              have hlt := hK u t (Or.inr (Or.inl hm))
              refine ⟨?_, ?_⟩
              · show (upd σ.st s x t).lk ≠ _
                unfold upd; split
                · rcases hx with hx | hx <;> rw [hx] <;> simp
                · exact b
              · show (upd σ.st s x t).lk ≠ _
                unfold upd; split
                · rcases hx with hx | hx <;> rw [hx] <;> simp; omega
                · exact d
            · intro t u hcc
              obtain ⟨rfl, rfl, hxl⟩ := hpl t u hcc
              show (upd σ.st _ x _).lk = _
              rw [upd_same, hxl]
          split at hs
          · injection hs with hs; subst hs
            refine key rfl (Or.inr rfl) ?_ ?_
            · rintro u t ⟨rfl, rfl⟩; exact ⟨rfl, rfl⟩
            · intro t u e; cases e; exact ⟨rfl, rfl, rfl⟩
          · injection hs with hs; subst hs
            refine key rfl (Or.inl hl) ?_ ?_
            · intro u t hx; exact hx.elim
            · intro t u e; cases e
      · cases hs
    · cases hs
  | regT ok =>
    simp only [stepReg] at hs
    split at hs
    · rename_i s u hc
      have hl := h.plR _ _ hc
      have hna : (u, s) ∉ σ.act := fun hm => (h.dis _ _ hm).2.2 hl
      have hni : (u, s) ∉ σ.ina := fun hm => (h.dis2 _ _ hm).2 hl
      have hkk : K σ u s := Or.inr (Or.inr (Or.inr (Or.inl hl)))
      have hfree : ∀ t (x : Strm), x.lk = .free → (upd σ.st s x t).lk = (σ.st t).lk ∨
          (upd σ.st s x t).lk = .free := fun t x hx => upd_or (·.lk) _ _ _ _ _ (Or.inr hx)
      have fail : ∀ {b : Bool} {x : Strm}, x.lk = .free → x.uid = (σ.st s).uid →
          AInv (St.mk (upd σ.st s x) σ.act σ.ina σ.plr .idle σ.nuid b) := fun hx hu =>
        ainv_less h id1 id2 (fun t => hfree t _ hx)
          (fun t => Or.inl (upd_proj (·.uid) _ _ _ _ hu)) (by simp [Cmd.about]) rfl (by simp)
      have add : ∀ {a i : List Entry} {p : Plr} {b : Bool} {x : Strm}, x.lk = .free →
          x.uid = (σ.st s).uid →
          ((a = (u, s) :: σ.act ∧ i = σ.ina) ∨ (a = σ.act ∧ i = (u, s) :: σ.ina)) →
          AInv (St.mk (upd σ.st s x) a i p .idle σ.nuid b) := by
        intro a i p b x hx hu hai
        refine ainv_of h ?_ (Nat.le_refl _) ?_ ?_ (by simp)
        · intro v t hk
          unfold K at hk
          simp only [upd] at hk
          rcases hk with hk | hk | hk | hk | hk | hk
          · rcases hai with ⟨e1, e2⟩ | ⟨e1, e2⟩ <;> subst e1 <;> subst e2
            · rcases List.mem_cons.mp hk with e | hk
              · cases e; exact hkk
              · exact Or.inl hk
            · exact Or.inl hk
          · rcases hai with ⟨e1, e2⟩ | ⟨e1, e2⟩ <;> subst e1 <;> subst e2
            · exact Or.inr (Or.inl hk)
            · rcases List.mem_cons.mp hk with e | hk
              · cases e; exact hkk
              · exact Or.inr (Or.inl hk)
          · split at hk
            · rw [hx] at hk; cases hk
            · exact Or.inr (Or.inr (Or.inl hk))
          · split at hk
            · rw [hx] at hk; cases hk
            · exact Or.inr (Or.inr (Or.inr (Or.inl hk)))
          · split at hk
            · rename_i e; subst e; rw [hu] at hk; exact k_uid hk
            · exact k_uid hk
          · exact hk.elim
        · intro v t hm
          have hb : (upd σ.st s x t).lk ≠ .mov v ∧ (upd σ.st s x t).lk ≠ .play v := by
            rcases hai with ⟨e1, e2⟩ | ⟨e1, e2⟩ <;> subst e1 <;> subst e2
            · rcases List.mem_cons.mp hm with e | hm
              · cases e; rw [upd_same, hx]; simp
              · have := (h.dis v t hm).2
                rcases hfree t x hx with e | e <;> rw [e] <;> simp_all
            · have := (h.dis v t hm).2
              rcases hfree t x hx with e | e <;> rw [e] <;> simp_all
          refine ⟨?_, hb⟩
          intro hm2
          rcases hai with ⟨e1, e2⟩ | ⟨e1, e2⟩ <;> subst e1 <;> subst e2
          · rcases List.mem_cons.mp hm with e | hm
            · cases e; exact hni hm2
            · exact (h.dis v t hm).1 hm2
          · rcases List.mem_cons.mp hm2 with e | hm2
            · cases e; exact hna hm
            · exact (h.dis v t hm).1 hm2
        · intro v t hm
          rcases hai with ⟨e1, e2⟩ | ⟨e1, e2⟩ <;> subst e1 <;> subst e2
          · have := h.dis2 v t hm
            show (upd σ.st s x t).lk ≠ _ ∧ (upd σ.st s x t).lk ≠ _
            rcases hfree t x hx with e | e <;> rw [e] <;> simp_all
          · show (upd σ.st s x t).lk ≠ _ ∧ (upd σ.st s x t).lk ≠ _
            rcases List.mem_cons.mp hm with e | hm
            · cases e; rw [upd_same, hx]; simp
            · have := h.dis2 v t hm
              rcases hfree t x hx with e | e <;> rw [e] <;> simp_all
      split at hs
      · split at hs
        · injection hs with hs; subst hs
          exact add rfl rfl (Or.inr ⟨rfl, rfl⟩)
        · split at hs
          · injection hs with hs; subst hs
            exact same id1 id2 (fun u t hx => k_cmd hx) h.plR
          · injection hs with hs; subst hs
            exact fail rfl rfl
      · split at hs
        · cases hs
        · split at hs
          · injection hs with hs; subst hs
            exact add rfl rfl (Or.inl ⟨rfl, rfl⟩)
          · split at hs
            · injection hs with hs; subst hs
              exact same id1 id2 (fun u t hx => k_cmd hx) h.plR
            · injection hs with hs; subst hs
              exact fail rfl rfl
    · cases hs
  | addr s b =>
    simp only [stepAddr] at hs
    split at hs
    · rename_i ho
      split at hs
      · split at hs
        · injection hs with hs; subst hs
          exact one id1 id2 rfl (Or.inl rfl)
        · rename_i u hu
          split at hs
          · injection hs with hs; subst hs
            have hkk : K σ u s := k_uid hu
            refine ainv_of h ?_ (Nat.le_refl _) ?_ ?_ ?_
            · intro v t hk
              unfold K at hk
              simp only [upd] at hk
              rcases hk with hk | hk | hk | hk | hk | hk
              · exact Or.inl hk
              · exact Or.inr (Or.inl (mem_of_del _ _ hk))
              · split at hk
                · rename_i e; subst e; cases hk; exact hkk
                · exact Or.inr (Or.inr (Or.inl hk))
              · split at hk
                · cases hk
                · exact Or.inr (Or.inr (Or.inr (Or.inl hk)))
              · split at hk
                · rename_i e; subst e; exact k_uid hk
                · exact k_uid hk
              · exact k_cmd hk
            · intro v t hm
              obtain ⟨a, b', c⟩ := h.dis v t hm
              refine ⟨fun q => a (mem_of_del _ _ q), ?_, ?_⟩
              · show (upd σ.st s _ t).lk ≠ _
                unfold upd; split
                · rename_i hh e
                  subst e
                  intro e2
                  have e3 : u = v := by injection e2
                  subst e3
                  obtain ⟨w, hw⟩ := has_iff.mp hh
                  have := h.fn u t w (Or.inl hm) (Or.inr (Or.inl hw))
                  subst this
                  exact a hw
                · exact b'
              · show (upd σ.st s _ t).lk ≠ _
                unfold upd; split
                · simp
                · exact c
            · intro v t hm
              obtain ⟨hm1, hm2⟩ := mem_del.mp hm
              obtain ⟨b', c⟩ := h.dis2 v t hm1
              refine ⟨?_, ?_⟩
              · show (upd σ.st s _ t).lk ≠ _
                unfold upd; split
                · intro e2
                  have e3 : u = v := by injection e2
                  exact hm2 e3.symm
                · exact b'
              · show (upd σ.st s _ t).lk ≠ _
                unfold upd; split
                · simp
                · exact c
            · intro t v hc
              have := h.plR t v hc
              show (upd σ.st s _ t).lk = _
              unfold upd; split
              · rename_i e; subst e; rw [ho.2] at this; cases this
              · exact this
          · injection hs with hs; subst hs
            exact one id1 id2 rfl (Or.inl rfl)
      · injection hs with hs; subst hs
        exact one id1 id2 rfl (Or.inl rfl)
    · cases hs
  | moved s =>
    simp only [stepMoved] at hs
    split at hs
    · rename_i u hl
      split at hs
      · cases hs
      · injection hs with hs; subst hs
        have hna : (u, s) ∉ σ.act := fun hm => (h.dis _ _ hm).2.1 hl
        have hni : (u, s) ∉ σ.ina := fun hm => (h.dis2 _ _ hm).1 hl
        have hkk : K σ u s := Or.inr (Or.inr (Or.inl hl))
        refine ainv_of h ?_ (Nat.le_refl _) ?_ ?_ ?_
        · intro v t hk
          unfold K at hk
          simp only [upd] at hk
          rcases hk with hk | hk | hk | hk | hk | hk
          · rcases List.mem_cons.mp hk with e | hk
            · cases e; exact hkk
            · exact Or.inl hk
          · exact Or.inr (Or.inl hk)
          · split at hk
            · cases hk
            · exact Or.inr (Or.inr (Or.inl hk))
          · split at hk
            · cases hk
            · exact Or.inr (Or.inr (Or.inr (Or.inl hk)))
          · split at hk
            · rename_i e; subst e; exact k_uid hk
            · exact k_uid hk
          · exact k_cmd hk
        · intro v t hm
          rcases List.mem_cons.mp hm with e | hm
          · cases e
            refine ⟨hni, ?_, ?_⟩
            · show (upd σ.st s _ s).lk ≠ _
              rw [upd_same]; simp
            · show (upd σ.st s _ s).lk ≠ _
              rw [upd_same]; simp
          · obtain ⟨a, b', c⟩ := h.dis v t hm
            refine ⟨a, ?_, ?_⟩
            · show (upd σ.st s _ t).lk ≠ _
              unfold upd; split
              · simp
              · exact b'
            · show (upd σ.st s _ t).lk ≠ _
              unfold upd; split
              · simp
              · exact c
        · intro v t hm
          obtain ⟨b', c⟩ := h.dis2 v t hm
          refine ⟨?_, ?_⟩
          · show (upd σ.st s _ t).lk ≠ _
            unfold upd; split
            · simp
            · exact b'
          · show (upd σ.st s _ t).lk ≠ _
            unfold upd; split
            · simp
            · exact c
        · intro t v hc
          have := h.plR t v hc
          show (upd σ.st s _ t).lk = _
          unfold upd; split
          · rename_i e; subst e; rw [hl] at this; cases this
          · exact this
    · cases hs
  | unregS s =>
    simp only [stepUnregS] at hs
    injection hs with hs; subst hs
    exact one id1 id2 rfl (Or.inl rfl)
  | release s =>
    simp only [stepRelease] at hs
    split at hs
    · split at hs <;>
      · injection hs with hs; subst hs
        exact one id1 id2 rfl (Or.inl rfl)
    · cases hs
  | dtor s =>
    simp only [stepDtor] at hs
    split at hs
    · cases hs
    · split at hs
      · split at hs
        · injection hs with hs; subst hs
          exact one id1 mem_of_del rfl (Or.inl rfl)
        · injection hs with hs; subst hs
          exact one id1 id2 rfl (Or.inl rfl)
      · split at hs
        · split at hs
          · cases hs
          · injection hs with hs; subst hs
            exact one mem_of_del id2 rfl (Or.inl rfl)
        · cases hs
  | plr a =>
    have hret : ∀ d u s, (u, s) ∈ cbRet σ.act d → (u, s) ∈ σ.act := by
      intro d u s hm
      cases d with
      | none => exact hm
      | some v => exact mem_of_del _ _ hm
    have quiet : ∀ {a : List Entry} {p : Plr} {b : Bool}, (∀ u s, (u, s) ∈ a → (u, s) ∈ σ.act) →
        AInv (St.mk σ.st a σ.ina p σ.cmd σ.nuid b) := fun ha =>
      same ha id2 (fun u t hx => k_cmd hx) h.plR
    have drop : ∀ {s : Nat} {d : Option Nat} {r : List Entry}, AInv (cbDrop σ s d r) := by
      intro s d r
      unfold cbDrop
      split
      · exact quiet (hret d)
      · exact quiet id1
    simp only [stepPlr] at hs
    split at hs
    · split at hs <;> (injection hs with hs; subst hs; exact quiet id1)
    · injection hs with hs; subst hs; exact quiet id1
    · injection hs with hs; subst hs; exact quiet id1
    · split at hs <;> (injection hs with hs; subst hs; exact quiet id1)
    · injection hs with hs; subst hs; exact quiet id1
    · injection hs with hs; subst hs; exact drop
    · split at hs
      · split at hs
        · split at hs
          · injection hs with hs; subst hs; exact quiet id1
          · injection hs with hs; subst hs
            exact one id1 id2 rfl (Or.inr rfl)
        · injection hs with hs; subst hs; exact quiet id1
      · cases hs
    · split at hs
      · injection hs with hs; subst hs; exact quiet id1
      · cases hs
    · injection hs with hs; subst hs; exact drop
    · split at hs
      · injection hs with hs; subst hs
        exact one (hret _) id2 rfl (Or.inl rfl)
      · split at hs
        · injection hs with hs; subst hs
          exact one (hret _) mem_of_del rfl (Or.inl rfl)
        · injection hs with hs; subst hs; exact quiet id1
    · cases hs
    · cases hs

end Verif.Play
