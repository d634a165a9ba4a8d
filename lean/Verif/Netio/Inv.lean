import Verif.Netio.Spec
import Verif.Util.Tot

/-! # The invariant of the counts of references -/

namespace Verif.Netio

open Verif.Util (tot tot_set tot_ge)

/-- Items with a reference to packet `p`. -/
def cnt (p : Nat) (l : List Item) : Nat := (l.map (·.obj)).count p

/-- References of live packets to a socket. -/
def hold (s : Nat) (o : Obj) : Nat := if o.refs = 0 then 0 else o.held.count s

def curItems : Option Cur → List Item
  | some c => [c.it]
  | none => []

/-- All items that have not been released. -/
def live (st : St) : List Item := curItems st.cur ++ items st.batch ++ items st.queue ++ st.lost

/-- `socks` with the references `h` of packets, and the table of descriptors. -/
structure InvS (st : St) (h : Nat → Nat) : Prop where
  refs : ∀ (s : Nat) (k : Sock), st.socks[s]? = some k → k.refs = k.ext + h s
  pin : ∀ (s : Nat) (k : Sock), st.socks[s]? = some k → k.pinned = true → 0 < k.ext
  fdt : ∀ fd s, st.fdt fd = some s ↔ ∃ k : Sock, st.socks[s]? = some k ∧ 0 < k.refs ∧ k.fd = fd

/-- The packets with the items `l`. -/
structure InvO (st : St) (l : List Item) : Prop where
  refs : ∀ (p : Nat) (o : Obj), st.objs[p]? = some o → o.refs = o.ext + cnt p l
  held : ∀ (p : Nat) (o : Obj), st.objs[p]? = some o → ∀ s ∈ o.held, s < st.socks.length
  item : ∀ i ∈ l, ∃ o, st.objs[i.obj]? = some o ∧
    ∃ (s : Nat) (k : Sock), st.socks[s]? = some k ∧ k.fd = i.fd ∧ (s ∈ o.held ∨ k.pinned = true)

def holds (st : St) (s : Nat) : Nat := tot (hold s) st.objs

def InvR (st : St) : Prop := InvS st (holds st) ∧ InvO st (live st)

theorem cnt_cons (p : Nat) (i : Item) (l : List Item) :
    cnt p (i :: l) = (if i.obj = p then 1 else 0) + cnt p l := by
  simp only [cnt, List.map_cons, List.count_cons, beq_iff_eq]
  omega

theorem cnt_append (p : Nat) (l m : List Item) : cnt p (l ++ m) = cnt p l + cnt p m := by
  simp [cnt]

theorem items_append (l m : List Work) : items (l ++ m) = items l ++ items m := by
  induction l with
  | nil => rfl
  | cons w l ih => cases w <;> simp [items, ih]

theorem upd_self {β : Type} (f : Nat → β) (a : Nat) (b : β) : upd f a b a = b := by simp [upd]
theorem upd_ne {β : Type} (f : Nat → β) {a x : Nat} (b : β) (h : x ≠ a) : upd f a b x = f x := by simp [upd, h]

theorem get_lt {α : Type} {l : List α} {i : Nat} {x : α} (h : l[i]? = some x) : i < l.length := by
  rcases Nat.lt_or_ge i l.length with h' | h'
  · exact h'
  · rw [List.getElem?_eq_none h'] at h; cases h

theorem set_get {α : Type} {l : List α} {i j : Nat} {x y : α} (hx : l[i]? = some x) :
    (l.set i y)[j]? = if j = i then some y else l[j]? := by
  rw [List.getElem?_set]
  have := get_lt hx
  by_cases h : i = j
  · subst h; simp [this]
  · simp [h, Ne.symm h]

/-- Two sockets in use have different numbers. -/
theorem fd_inj {st : St} {h : Nat → Nat} (hi : InvS st h) {s t : Nat} {k j : Sock} (hk : st.socks[s]? = some k)
    (hj : st.socks[t]? = some j) (hk0 : 0 < k.refs) (hj0 : 0 < j.refs) (he : k.fd = j.fd) : s = t := by
  have h1 := (hi.fdt k.fd s).mpr ⟨k, hk, hk0, rfl⟩
  have h2 := (hi.fdt k.fd t).mpr ⟨j, hj, hj0, he.symm⟩
  rw [h1] at h2
  exact Option.some.inj h2

/-- What does not change when a reference to a socket is given back. -/
structure Same (st st' : St) : Prop where
  dmode : st'.dmode = st.dmode
  objs : st'.objs = st.objs
  addrs : st'.addrs = st.addrs
  queue : st'.queue = st.queue
  batch : st'.batch = st.batch
  cur : st'.cur = st.cur
  out : st'.out = st.out
  sig : st'.sig = st.sig
  gone : st'.gone = st.gone
  lost : st'.lost = st.lost
  log : st'.log = st.log
  len : st'.socks.length = st.socks.length
  socks : ∀ s : Nat, (st'.socks[s]?).map (fun k => (k.fd, k.ext, k.pinned)) =
    (st.socks[s]?).map (fun k => (k.fd, k.ext, k.pinned))

theorem Same.refl (st : St) : Same st st := ⟨rfl, rfl, rfl, rfl, rfl, rfl, rfl, rfl, rfl, rfl, rfl, rfl, fun _ => rfl⟩

theorem Same.trans {a b c : St} (h : Same a b) (h' : Same b c) : Same a c :=
  ⟨h'.dmode.trans h.dmode, h'.objs.trans h.objs, h'.addrs.trans h.addrs, h'.queue.trans h.queue,
   h'.batch.trans h.batch, h'.cur.trans h.cur, h'.out.trans h.out, h'.sig.trans h.sig,
   h'.gone.trans h.gone, h'.lost.trans h.lost, h'.log.trans h.log, h'.len.trans h.len,
   fun s => (h'.socks s).trans (h.socks s)⟩

theorem Same.get {a b : St} (h : Same a b) {s : Nat} {k : Sock} (hk : a.socks[s]? = some k) :
    ∃ k', b.socks[s]? = some k' ∧ k'.fd = k.fd ∧ k'.ext = k.ext ∧ k'.pinned = k.pinned := by
  have := h.socks s
  rw [hk] at this
  cases hb : b.socks[s]? with
  | none => rw [hb] at this; cases this
  | some k' =>
    rw [hb] at this
    simp only [Option.map_some, Option.some.injEq, Prod.mk.injEq] at this
    exact ⟨k', rfl, this⟩

/-- Giving back one of the references of packets. -/
theorem decSock_inv {st : St} {h : Nat → Nat} {s : Nat} (hi : InvS st h) (hs : s < st.socks.length) (h0 : 0 < h s) :
    ∃ st', decSock st s = .ok st' ∧ InvS st' (fun t => if t = s then h t - 1 else h t) ∧ Same st st' := by
  obtain ⟨k, hk⟩ : ∃ k, st.socks[s]? = some k := ⟨st.socks[s], by simp [hs]⟩
  have hr := hi.refs s k hk
  simp only [decSock, hk]
  rw [if_neg (by omega)]
  split
  next h1 =>
    refine ⟨_, rfl, ⟨?_, ?_, ?_⟩, ?_⟩
    · intro t j hj
      simp only [set_get hk] at hj
      split at hj
      next e =>
        subst e; cases hj
        simp only [if_pos]
        omega
      next e =>
        rw [if_neg e]; exact hi.refs t j hj
    · intro t j hj
      simp only [set_get hk] at hj
      split at hj
      next e =>
        subst e; cases hj
        exact hi.pin t k hk
      next e => exact hi.pin t j hj
    · intro fd t
      simp only [set_get hk]
      by_cases hf : fd = k.fd
      · subst hf
        rw [upd_self]
        refine ⟨nofun, ?_⟩
        rintro ⟨j, hj, hj0, hjf⟩
        split at hj
        next e => cases hj; exact absurd hj0 (Nat.lt_irrefl _)
        next e =>
          exact absurd (fd_inj hi hj hk hj0 (by omega) hjf) e
      · rw [upd_ne _ _ hf, hi.fdt]
        constructor
        · rintro ⟨j, hj, hj0, hjf⟩
          have : t ≠ s := by
            rintro rfl
            rw [hk] at hj; cases hj
            exact hf hjf.symm
          exact ⟨j, by rw [if_neg this]; exact hj, hj0, hjf⟩
        · rintro ⟨j, hj, hj0, hjf⟩
          split at hj
          next e => cases hj; exact absurd hj0 (Nat.lt_irrefl _)
          next e => exact ⟨j, hj, hj0, hjf⟩
    · refine ⟨rfl, rfl, rfl, rfl, rfl, rfl, rfl, rfl, rfl, rfl, rfl, by simp, ?_⟩
      intro t
      simp only [set_get hk]
      split
      next e => subst e; simp [hk]
      · rfl
  next h1 =>
    refine ⟨_, rfl, ⟨?_, ?_, ?_⟩, ?_⟩
    · intro t j hj
      simp only [set_get hk] at hj
      split at hj
      next e =>
        subst e; cases hj
        simp only [if_pos]
        omega
      next e =>
        rw [if_neg e]; exact hi.refs t j hj
    · intro t j hj
      simp only [set_get hk] at hj
      split at hj
      next e =>
        subst e; cases hj
        exact hi.pin t k hk
      next e => exact hi.pin t j hj
    · intro fd t
      simp only [set_get hk]
      rw [hi.fdt]
      constructor
      · rintro ⟨j, hj, hj0, hjf⟩
        split
        next e =>
          subst e; rw [hk] at hj; cases hj
          exact ⟨_, rfl, by simp only; omega, hjf⟩
        next e => exact ⟨j, hj, hj0, hjf⟩
      · rintro ⟨j, hj, hj0, hjf⟩
        split at hj
        next e => subst e; cases hj; exact ⟨k, hk, by omega, hjf⟩
        next e => exact ⟨j, hj, hj0, hjf⟩
    · refine ⟨rfl, rfl, rfl, rfl, rfl, rfl, rfl, rfl, rfl, rfl, rfl, by simp, ?_⟩
      intro t
      simp only [set_get hk]
      split
      next e => subst e; simp [hk]
      · rfl

theorem decSocks_inv {l : List Nat} {st : St} {h : Nat → Nat} (hi : InvS st h) (hl : ∀ s ∈ l, s < st.socks.length)
    (h0 : ∀ s, l.count s ≤ h s) :
    ∃ st', decSocks st l = .ok st' ∧ InvS st' (fun t => h t - l.count t) ∧ Same st st' := by
  induction l generalizing st h with
  | nil => exact ⟨st, rfl, hi, .refl st⟩
  | cons s l ih =>
    have hc := h0 s
    rw [List.count_cons_self] at hc
    obtain ⟨st1, e1, i1, s1⟩ := decSock_inv hi (hl s List.mem_cons_self) (by omega)
    obtain ⟨st2, e2, i2, s2⟩ := ih i1 (fun t ht => by rw [s1.len]; exact hl t (List.mem_cons_of_mem _ ht)) (by
      intro t
      have := h0 t
      rw [List.count_cons] at this
      by_cases e : t = s
      · subst e
        simp only [BEq.rfl, if_true] at this ⊢; omega
      · have e' : (s == t) = false := by simp [Ne.symm e]
        simp only [e', if_neg e] at this ⊢
        simpa using this)
    refine ⟨st2, by simp only [decSocks, e1, e2], ?_, s1.trans s2⟩
    have : (fun t => (if t = s then h t - 1 else h t) - l.count t) = (fun t => h t - (s :: l).count t) := by
      funext t
      rw [List.count_cons]
      by_cases e : t = s
      · subst e
        simp only [BEq.rfl, if_true]; omega
      · have e' : (s == t) = false := by simp [Ne.symm e]
        simp only [e', if_neg e]; simp
    rw [this] at i2
    exact i2

/-- Giving back one of the references to a packet: there must be more of them than counted for. -/
theorem decObj_inv {st : St} {l : List Item} {p : Nat} {o : Obj} (hs : InvS st (holds st)) (ho : st.objs[p]? = some o)
    (hr : o.refs = o.ext + cnt p l + 1)
    (hro : ∀ (q : Nat) (o' : Obj), st.objs[q]? = some o' → q ≠ p → o'.refs = o'.ext + cnt q l)
    (hh : ∀ (p : Nat) (o : Obj), st.objs[p]? = some o → ∀ s ∈ o.held, s < st.socks.length)
    (hit : ∀ i ∈ l, ∃ o, st.objs[i.obj]? = some o ∧
      ∃ (s : Nat) (k : Sock), st.socks[s]? = some k ∧ k.fd = i.fd ∧ (s ∈ o.held ∨ k.pinned = true)) :
    ∃ st', decObj st p = .ok st' ∧ InvS st' (holds st') ∧ InvO st' l ∧
      Same { st with objs := st.objs.set p { o with refs := o.refs - 1 } } st' := by
  simp only [decObj, ho]
  rw [if_neg (by omega)]
  have hO : ∀ st', Same { st with objs := st.objs.set p { o with refs := o.refs - 1 } } st' → InvO st' l := by
    intro st' hS
    have hob : st'.objs = st.objs.set p { o with refs := o.refs - 1 } := hS.objs
    refine ⟨?_, ?_, ?_⟩
    · intro q o' hq
      rw [hob, set_get ho] at hq
      split at hq
      next e => subst e; cases hq; simp only; omega
      next e => exact hro q o' hq e
    · intro q o' hq s hs'
      rw [hob, set_get ho] at hq
      rw [hS.len]
      split at hq
      next e => subst e; cases hq; exact hh q o ho s hs'
      next e => exact hh q o' hq s hs'
    · intro i hi
      obtain ⟨o', h1, s, k, h2, h3, h4⟩ := hit i hi
      obtain ⟨k', h5, h6, _, h7⟩ := hS.get (s := s) (k := k) h2
      rw [hob, set_get ho]
      split
      next e =>
        rw [e] at h1
        rw [ho] at h1; cases h1
        exact ⟨_, rfl, s, k', h5, h6.trans h3, by rw [h7]; exact h4⟩
      next e => exact ⟨o', h1, s, k', h5, h6.trans h3, by rw [h7]; exact h4⟩
  split
  next h1 =>
    -- the last one
    have hset := fun s => tot_set (hold s) st.objs p o { o with refs := 0 } ho
    have hge := fun s => tot_ge (hold s) st.objs p o ho
    obtain ⟨st', e1, i1, s1⟩ := decSocks_inv (st := { st with objs := st.objs.set p { o with refs := 0 } })
      (h := holds st) (l := o.held) ⟨hs.refs, hs.pin, hs.fdt⟩ (hh p o ho) (by
        intro s
        have := hge s
        simp only [hold, h1] at this
        simpa [holds] using this)
    have e0 : o.refs - 1 = 0 := by omega
    have hS : Same { st with objs := st.objs.set p { o with refs := o.refs - 1 } } st' := by
      rw [e0]; exact s1
    refine ⟨st', e1, ?_, hO st' hS, hS⟩
    have : (fun t => holds st t - o.held.count t) = holds st' := by
      funext t
      have h2 := hset t
      have h3 : hold t o = o.held.count t := by simp [hold, h1]
      have h4 : hold t { o with refs := 0 } = 0 := by simp [hold]
      have h5 : holds st' t = tot (hold t) (st.objs.set p { o with refs := 0 }) := by rw [holds, s1.objs]
      rw [h5]; rw [h3, h4] at h2
      simp only [holds]; omega
    rw [← this]; exact i1
  next h1 =>
    refine ⟨_, rfl, ?_, hO _ (.refl _), .refl _⟩
    have : holds { st with objs := st.objs.set p { o with refs := o.refs - 1 } } = holds st := by
      funext t
      have h2 := tot_set (hold t) st.objs p o { o with refs := o.refs - 1 } ho
      have h3 : hold t { o with refs := o.refs - 1 } = hold t o := by
        simp only [hold]
        rw [if_neg (by omega), if_neg (by omega)]
      simp only [holds]; omega
    rw [this]
    exact ⟨hs.refs, hs.pin, hs.fdt⟩

end Verif.Netio
