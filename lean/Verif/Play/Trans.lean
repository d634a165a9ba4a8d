import Verif.Play.Inv

/-! The invariant of C65 is kept by every kind of change. -/

namespace Verif.Play

/-- The player thread is not inside `foreach`. -/
structure Out (p : Plr) : Prop where
  isEnd : ∀ u s, p.isEnd u s = false
  ref : p.ref = none
  cur : p.cur = none
  isKill : p.isKill = false

theorem out_of {p : Plr} (h : p.holds = false) : Out p := by
  constructor <;> cases p <;> simp_all [Plr.holds, Plr.isEnd, Plr.ref, Plr.cur, Plr.isKill]

theorem out_wakeup {p : Plr} (h : p.holds = false) : Out (wakeup p) := by
  apply out_of
  cases p <;> simp_all [Plr.holds, wakeup]

theorem end_ref {p : Plr} {u s : Nat} (h : p.isEnd u s = true) : p.ref = some s := by
  cases p <;> simp_all [Plr.isEnd, Plr.ref]

set_option maxHeartbeats 4000000 in
theorem t_start {σ : St} (h : Inv σ) {s : Nat} {k : Bool} (hi : σ.cmd = .idle) (ho : (σ.st s).own = true) :
    Inv { σ with cmd := .np s k } := by
  obtain ⟨h1, h2, h3, h4, h5, h6, h7, h8, h9, h10, h11, h12, h13, h14, h15, h16, h17, h18, h19, h20,
    h21, h22, h23, h24⟩ := h
  constructor <;> first | assumption | grind [Cmd.on]

set_option maxHeartbeats 4000000 in
theorem t_np0 {σ : St} (h : Inv σ) {s : Nat} {k : Bool} (hc : σ.cmd = .np s k ∨ ∃ u, σ.cmd = .npA s u k)
    (hu : (σ.st s).uid = none) :
    Inv { σ with cmd := npDone s k } := by
  obtain ⟨h1, h2, h3, h4, h5, h6, h7, h8, h9, h10, h11, h12, h13, h14, h15, h16, h17, h18, h19, h20,
    h21, h22, h23, h24⟩ := h
  cases k <;> constructor <;> first | assumption | grind [Cmd.on, npDone]

set_option maxHeartbeats 4000000 in
theorem t_np1 {σ : St} (h : Inv σ) {s u : Nat} {k : Bool} (hc : σ.cmd = .np s k)
    (hu : (σ.st s).uid = some u) :
    Inv { σ with cmd := .npI s u k } := by
  obtain ⟨h1, h2, h3, h4, h5, h6, h7, h8, h9, h10, h11, h12, h13, h14, h15, h16, h17, h18, h19, h20,
    h21, h22, h23, h24⟩ := h
  constructor <;> first | assumption | grind [Cmd.on]

set_option maxHeartbeats 4000000 in
theorem t_npI1 {σ : St} (h : Inv σ) {s u : Nat} {k : Bool} (hc : σ.cmd = .npI s u k)
    {t : Nat} (ht : (u, t) ∈ σ.ina) :
    Inv { σ with ina := del σ.ina u, cmd := .npC s u k } := by
  obtain ⟨h1, h2, h3, h4, h5, h6, h7, h8, h9, h10, h11, h12, h13, h14, h15, h16, h17, h18, h19, h20,
    h21, h22, h23, h24⟩ := h
  constructor
  case has =>
    intro v x hv hd
    by_cases e : v = u
    · subst e
      have hx := (h15 _ _ _ hc).2.1 x hv
      subst hx
      exact Or.inr (.inr (.inr (.inr ⟨k, rfl⟩)))
    · have := h7 v x hv hd
      grind [mem_del]
  all_goals first | assumption | grind [Cmd.on, mem_del]

set_option maxHeartbeats 4000000 in
theorem t_npI0 {σ : St} (h : Inv σ) {s u : Nat} {k : Bool} (hc : σ.cmd = .npI s u k)
    (ht : ∀ t, (u, t) ∉ σ.ina) :
    Inv { σ with cmd := .npA s u k } := by
  obtain ⟨h1, h2, h3, h4, h5, h6, h7, h8, h9, h10, h11, h12, h13, h14, h15, h16, h17, h18, h19, h20,
    h21, h22, h23, h24⟩ := h
  constructor <;> first | assumption | grind [Cmd.on]

set_option maxHeartbeats 4000000 in
theorem t_npA1 {σ : St} (h : Inv σ) {s u : Nat} {k : Bool} (hc : σ.cmd = .npA s u k)
    (hp : σ.plr.holds = false) {t : Nat} (ht : (u, t) ∈ σ.act) :
    Inv { σ with act := del σ.act u, cmd := .npC s u k } := by
  obtain ⟨h1, h2, h3, h4, h5, h6, h7, h8, h9, h10, h11, h12, h13, h14, h15, h16, h17, h18, h19, h20,
    h21, h22, h23, h24⟩ := h
  obtain ⟨e1, e2, e3, e4⟩ := out_of hp
  clear hp
  obtain ⟨g1, g2, g3⟩ := h6 u t ht (e1 _ _)
  obtain ⟨k1, k2, k3, k4⟩ := h16 _ _ _ hc
  have hts := k3 t g1
  subst hts
  clear h4 h22 h23 h24 k4
  constructor
  case endLt => intro v x hx; rw [e1] at hx; cases hx
  case ref => intro x hx; rw [show (σ.plr.ref) = none from e2] at hx; cases hx
  case kill => exact e4
  case cur => intro v x hx; rw [show (σ.plr.cur) = none from e3] at hx; cases hx
  case has =>
    intro v x hv hd
    by_cases e : v = u
    · subst e
      have hx := k3 x hv
      subst hx
      exact Or.inr (.inr (.inr (.inr ⟨k, rfl⟩)))
    · have := h7 v x hv hd
      grind [mem_del]
  all_goals first | assumption | grind [Cmd.on, mem_del]

set_option maxHeartbeats 4000000 in
theorem t_npC {σ : St} (h : Inv σ) {s u : Nat} {k : Bool} (hc : σ.cmd = .npC s u k) :
    Inv { σ with
      st := upd σ.st s { σ.st s with drops := (σ.st s).drops - 1, uid := none, inact := false },
      cmd := npDone s k } := by
  obtain ⟨h1, h2, h3, h4, h5, h6, h7, h8, h9, h10, h11, h12, h13, h14, h15, h16, h17, h18, h19, h20,
    h21, h22, h23, h24⟩ := h
  cases k <;> constructor <;> first | assumption | grind [Cmd.on, npDone, upd]

set_option maxHeartbeats 4000000 in
theorem t_open0 {σ : St} (h : Inv σ) {s : Nat} (hc : σ.cmd = .pl s) :
    Inv { σ with cmd := .idle } := by
  obtain ⟨h1, h2, h3, h4, h5, h6, h7, h8, h9, h10, h11, h12, h13, h14, h15, h16, h17, h18, h19, h20,
    h21, h22, h23, h24⟩ := h
  constructor <;> first | assumption | grind [Cmd.on]

set_option maxHeartbeats 4000000 in
theorem t_open1 {σ : St} (h : Inv σ) {s : Nat} (hc : σ.cmd = .pl s) (hl : (σ.st s).lk = .free) :
    Inv { σ with
      st := upd σ.st s { setUid (σ.st s) (some σ.nuid) with
        drops := (σ.st s).drops + 1, lk := .play σ.nuid },
      cmd := .plR s σ.nuid, nuid := σ.nuid + 1 } := by
  obtain ⟨h1, h2, h3, h4, h5, h6, h7, h8, h9, h10, h11, h12, h13, h14, h15, h16, h17, h18, h19, h20,
    h21, h22, h23, h24⟩ := h
  constructor <;> first | assumption | grind [Cmd.on, upd, setUid]

set_option maxHeartbeats 4000000 in
theorem t_reg1 {σ : St} (h : Inv σ) {s u : Nat} (hc : σ.cmd = .plR s u) (hi : (σ.st s).inact = true) :
    Inv { σ with
      st := upd σ.st s { σ.st s with lk := .free }, ina := (u, s) :: σ.ina, cmd := .idle } := by
  obtain ⟨h1, h2, h3, h4, h5, h6, h7, h8, h9, h10, h11, h12, h13, h14, h15, h16, h17, h18, h19, h20,
    h21, h22, h23, h24⟩ := h
  constructor <;> first | assumption | grind [Cmd.on, upd]

set_option maxHeartbeats 4000000 in
theorem t_reg2 {σ : St} (h : Inv σ) {s u : Nat} (hc : σ.cmd = .plR s u) (hi : (σ.st s).inact = false)
    (hp : σ.plr.holds = false) :
    Inv { σ with
      st := upd σ.st s { σ.st s with lk := .free }, act := (u, s) :: σ.act, cmd := .idle,
      plr := wakeup σ.plr } := by
  obtain ⟨h1, h2, h3, h4, h5, h6, h7, h8, h9, h10, h11, h12, h13, h14, h15, h16, h17, h18, h19, h20,
    h21, h22, h23, h24⟩ := h
  have ho := out_of hp
  have hw := out_wakeup hp
  revert hw
  generalize wakeup σ.plr = p
  intro hw
  obtain ⟨e1, e2, e3, e4⟩ := ho
  obtain ⟨w1, w2, w3, w4⟩ := hw
  clear hp
  constructor <;> first | assumption | grind [Cmd.on, upd]

set_option maxHeartbeats 4000000 in
theorem t_addr0 {σ : St} (h : Inv σ) {s : Nat} {b : Bool} (ho : (σ.st s).own = true)
    (hl : (σ.st s).lk = .free) (hb : b = false ∨ (σ.st s).inact = false) :
    Inv { σ with
      st := upd σ.st s { σ.st s with snd := b } } := by
  obtain ⟨h1, h2, h3, h4, h5, h6, h7, h8, h9, h10, h11, h12, h13, h14, h15, h16, h17, h18, h19, h20,
    h21, h22, h23, h24⟩ := h
  constructor <;> first | assumption | grind [upd]

set_option maxHeartbeats 4000000 in
theorem t_addr1 {σ : St} (h : Inv σ) {s : Nat} (ho : (σ.st s).own = true)
    (hl : (σ.st s).lk = .free) (hi : (σ.st s).inact = true)
    (hn : ∀ u, (σ.st s).uid = some u → ∀ t, (u, t) ∉ σ.ina) :
    Inv { σ with
      st := upd σ.st s { σ.st s with snd := true, inact := false } } := by
  obtain ⟨h1, h2, h3, h4, h5, h6, h7, h8, h9, h10, h11, h12, h13, h14, h15, h16, h17, h18, h19, h20,
    h21, h22, h23, h24⟩ := h
  constructor <;> first | assumption | grind [upd]

set_option maxHeartbeats 4000000 in
theorem t_addr2 {σ : St} (h : Inv σ) {s u : Nat} (ho : (σ.st s).own = true)
    (hl : (σ.st s).lk = .free) (hi : (σ.st s).inact = true)
    (hu : (σ.st s).uid = some u) {t : Nat} (ht : (u, t) ∈ σ.ina) :
    Inv { σ with
      st := upd σ.st s { σ.st s with snd := true, lk := .mov u }, ina := del σ.ina u } := by
  obtain ⟨h1, h2, h3, h4, h5, h6, h7, h8, h9, h10, h11, h12, h13, h14, h15, h16, h17, h18, h19, h20,
    h21, h22, h23, h24⟩ := h
  have hts : t = s := h3 _ _ _ (h5 _ _ ht).1 hu
  subst hts
  constructor <;> first | assumption | grind [upd, mem_del]

set_option maxHeartbeats 4000000 in
theorem t_moved {σ : St} (h : Inv σ) {s u : Nat} (hl : (σ.st s).lk = .mov u) (hp : σ.plr.holds = false) :
    Inv { σ with
      st := upd σ.st s { σ.st s with lk := .free, inact := false }, act := (u, s) :: σ.act,
      plr := wakeup σ.plr } := by
  obtain ⟨h1, h2, h3, h4, h5, h6, h7, h8, h9, h10, h11, h12, h13, h14, h15, h16, h17, h18, h19, h20,
    h21, h22, h23, h24⟩ := h
  have ho := out_of hp
  have hw := out_wakeup hp
  revert hw
  generalize wakeup σ.plr = p
  intro hw
  obtain ⟨e1, e2, e3, e4⟩ := ho
  obtain ⟨w1, w2, w3, w4⟩ := hw
  clear hp
  constructor <;> first | assumption | grind [Cmd.on, upd]

set_option maxHeartbeats 4000000 in
theorem t_unregS {σ : St} (h : Inv σ) {s : Nat} :
    Inv { σ with
      st := upd σ.st s { σ.st s with reg := false } } := by
  obtain ⟨h1, h2, h3, h4, h5, h6, h7, h8, h9, h10, h11, h12, h13, h14, h15, h16, h17, h18, h19, h20,
    h21, h22, h23, h24⟩ := h
  constructor <;> first | assumption | grind [upd]

set_option maxHeartbeats 4000000 in
theorem t_release {σ : St} (h : Inv σ) {s : Nat} (ho : (σ.st s).own = true) (hr : (σ.st s).reg = false)
    (hl : (σ.st s).lk = .free) (hc : σ.cmd.on ≠ some s) (hp : σ.plr.ref ≠ some s) :
    Inv { σ with
      st := upd σ.st s { σ.st s with own := false, dt := if (σ.st s).uid = none then 3 else 1 } } := by
  obtain ⟨h1, h2, h3, h4, h5, h6, h7, h8, h9, h10, h11, h12, h13, h14, h15, h16, h17, h18, h19, h20,
    h21, h22, h23, h24⟩ := h
  have he : ∀ v, σ.plr.isEnd v s = false := by
    intro v
    cases hq : σ.plr.isEnd v s
    · rfl
    · exact absurd (end_ref hq) hp
  have hne : ∀ u k, σ.cmd ≠ .npC s u k := fun u k e => hc (by rw [e]; rfl)
  constructor <;> first | assumption | grind [upd]

set_option maxHeartbeats 4000000 in
theorem t_dtor1 {σ : St} (h : Inv σ) {s u : Nat} (hu : (σ.st s).uid = some u) (hd : (σ.st s).dt = 1)
    {t : Nat} (ht : (u, t) ∈ σ.ina) :
    Inv { σ with
      st := upd σ.st s { σ.st s with dt := 3 }, ina := del σ.ina u } := by
  obtain ⟨h1, h2, h3, h4, h5, h6, h7, h8, h9, h10, h11, h12, h13, h14, h15, h16, h17, h18, h19, h20,
    h21, h22, h23, h24⟩ := h
  have hts : t = s := h3 _ _ _ (h5 _ _ ht).1 hu
  subst hts
  have hno : (σ.st t).own = false := by
    cases hq : (σ.st t).own
    · rfl
    · have := h20 _ hq; omega
  have he : ∀ v, σ.plr.isEnd v t = false := by
    intro v
    cases hq : σ.plr.isEnd v t
    · rfl
    · have := h22 _ (end_ref hq); simp_all
  constructor <;> first | assumption | grind [upd, mem_del]

set_option maxHeartbeats 4000000 in
theorem t_dtor0 {σ : St} (h : Inv σ) {s u : Nat} (hu : (σ.st s).uid = some u) (hd : (σ.st s).dt = 1)
    (ht : ∀ t, (u, t) ∉ σ.ina) :
    Inv { σ with
      st := upd σ.st s { σ.st s with dt := 2 } } := by
  obtain ⟨h1, h2, h3, h4, h5, h6, h7, h8, h9, h10, h11, h12, h13, h14, h15, h16, h17, h18, h19, h20,
    h21, h22, h23, h24⟩ := h
  constructor <;> first | assumption | grind [upd]

set_option maxHeartbeats 4000000 in
theorem t_dtor2 {σ : St} (h : Inv σ) {s u : Nat} (hu : (σ.st s).uid = some u) (hd : (σ.st s).dt = 2)
    (hp : σ.plr.holds = false) :
    Inv { σ with
      st := upd σ.st s { σ.st s with dt := 3 }, act := del σ.act u } := by
  obtain ⟨h1, h2, h3, h4, h5, h6, h7, h8, h9, h10, h11, h12, h13, h14, h15, h16, h17, h18, h19, h20,
    h21, h22, h23, h24⟩ := h
  obtain ⟨e1, e2, e3, e4⟩ := out_of hp
  clear hp
  constructor <;> first | assumption | grind [upd, mem_del]

set_option maxHeartbeats 4000000 in
theorem t_quiet {σ : St} (h : Inv σ) {p : Plr} (hp : ∀ u s, p.isEnd u s = σ.plr.isEnd u s)
    (hr : ∀ s, p.ref = some s → (σ.st s).own = true) (hk : p.isKill = false)
    (hc : ∀ u s, p.cur = some (u, s) → (u, s) ∈ σ.act) :
    Inv { σ with plr := p } := by
  obtain ⟨h1, h2, h3, h4, h5, h6, h7, h8, h9, h10, h11, h12, h13, h14, h15, h16, h17, h18, h19, h20,
    h21, h22, h23, h24⟩ := h
  constructor <;> first | assumption | grind

set_option maxHeartbeats 4000000 in
theorem t_eof {σ : St} (h : Inv σ) {u s : Nat} {r : List Entry} (hp : σ.plr = .body u s r) :
    Inv { σ with
      st := upd σ.st s (setUid { σ.st s with drops := (σ.st s).drops - 1 } none),
      plr := .ended u s r } := by
  obtain ⟨h1, h2, h3, h4, h5, h6, h7, h8, h9, h10, h11, h12, h13, h14, h15, h16, h17, h18, h19, h20,
    h21, h22, h23, h24⟩ := h
  have hm := h24 u s (by rw [hp]; rfl)
  have hne : ∀ v x, σ.plr.isEnd v x = false := by intro v x; rw [hp]; rfl
  obtain ⟨g1, g2, g3⟩ := h6 u s hm (hne _ _)
  have ho := h22 s (by rw [hp]; rfl)
  have hnew : ∀ v x, (Plr.ended u s r).isEnd v x = true ↔ u = v ∧ s = x := by
    intro v x; simp [Plr.isEnd]
  have hd := h10 s
  rw [g1] at hd
  simp only [reduceCtorEq, if_false] at hd
  constructor
  case ref => intro x hx; simp only [Plr.ref, Option.some.injEq] at hx; subst hx; simpa [upd, setUid] using ho
  case kill => rfl
  case cur => intro v x hx; cases hx
  all_goals first | assumption | grind [upd, setUid]

set_option maxHeartbeats 4000000 in
theorem t_ended {σ : St} (h : Inv σ) {u s : Nat} {r : List Entry} (hp : σ.plr = .ended u s r) :
    Inv { σ with
      act := del σ.act u, plr := .next r } := by
  obtain ⟨h1, h2, h3, h4, h5, h6, h7, h8, h9, h10, h11, h12, h13, h14, h15, h16, h17, h18, h19, h20,
    h21, h22, h23, h24⟩ := h
  constructor <;> first | assumption | grind [mem_del, Plr.isEnd, Plr.ref, Plr.cur, Plr.isKill]

end Verif.Play
