import Verif.Netio.Steps

/-! # What the thread has sent and what it has yet to send -/

namespace Verif.Netio

open Verif.Util (tot_ge)

def All2 {α β : Type} (R : α → β → Prop) : List α → List β → Prop
  | [], [] => True
  | a :: l, b :: m => R a b ∧ All2 R l m
  | _, _ => False

theorem All2.mono {α β : Type} {R S : α → β → Prop} (h : ∀ a b, R a b → S a b) :
    ∀ {l : List α} {m : List β}, All2 R l m → All2 S l m
  | [], [], _ => trivial
  | _ :: _, _ :: _, ⟨h1, h2⟩ => ⟨h _ _ h1, h2.mono h⟩
  | [], _ :: _, hh => hh.elim
  | _ :: _, [], hh => hh.elim

theorem All2.snoc {α β : Type} {R : α → β → Prop} {a : α} {b : β} (h : R a b) :
    ∀ {l : List α} {m : List β}, All2 R l m → All2 R (l ++ [a]) (m ++ [b])
  | [], [], _ => ⟨h, trivial⟩
  | _ :: _, _ :: _, ⟨h1, h2⟩ => ⟨h1, h2.snoc h⟩
  | [], _ :: _, hh => hh.elim
  | _ :: _, [], hh => hh.elim

theorem All2.len {α β : Type} {R : α → β → Prop} :
    ∀ {l : List α} {m : List β}, All2 R l m → l.length = m.length
  | [], [], _ => rfl
  | _ :: _, _ :: _, ⟨_, h2⟩ => by simp [h2.len]
  | [], _ :: _, hh => hh.elim
  | _ :: _, [], hh => hh.elim

/-- The item is the one of the message. -/
def Match (st : St) (m : Msg) (i : Item) : Prop :=
  ∃ (o : Obj) (k : Sock), st.objs[i.obj]? = some o ∧ o.data = m.data ∧ st.socks[m.sock]? = some k ∧ k.fd = i.fd ∧
    (m.sock ∈ o.held ∨ k.pinned = true) ∧ i.to = m.to ∧ i.nsend = m.copies ∧ 0 < m.copies ∧ m.copies ≤ 2

/-- Packets keep their contents and the sockets they hold, sockets their numbers. -/
structure Grow (st st' : St) : Prop where
  objs : ∀ (p : Nat) (o : Obj), st.objs[p]? = some o → ∃ o', st'.objs[p]? = some o' ∧ o'.data = o.data ∧
    ∀ s ∈ o.held, s ∈ o'.held
  socks : ∀ (s : Nat) (k : Sock), st.socks[s]? = some k → ∃ k', st'.socks[s]? = some k' ∧ k'.fd = k.fd ∧
    k'.pinned = k.pinned

theorem Grow.refl (st : St) : Grow st st := ⟨fun _ o h => ⟨o, h, rfl, fun _ h => h⟩, fun _ k h => ⟨k, h, rfl, rfl⟩⟩

theorem Grow.trans {a b c : St} (h : Grow a b) (h' : Grow b c) : Grow a c := by
  refine ⟨?_, ?_⟩
  · intro p o ho
    obtain ⟨o1, h1, h2, h3⟩ := h.objs p o ho
    obtain ⟨o2, g1, g2, g3⟩ := h'.objs p o1 h1
    exact ⟨o2, g1, g2.trans h2, fun s hs => g3 s (h3 s hs)⟩
  · intro s k hk
    obtain ⟨k1, h1, h2, h3⟩ := h.socks s k hk
    obtain ⟨k2, g1, g2, g3⟩ := h'.socks s k1 h1
    exact ⟨k2, g1, g2.trans h2, g3.trans h3⟩

theorem Match.grow {a b : St} (h : Grow a b) {m : Msg} {i : Item} (hm : Match a m i) : Match b m i := by
  obtain ⟨o, k, h1, h2, h3, h4, h5, h6⟩ := hm
  obtain ⟨o', g1, g2, g3⟩ := h.objs _ o h1
  obtain ⟨k', f1, f2, f3⟩ := h.socks _ k h3
  exact ⟨o', k', g1, g2.trans h2, f1, f2.trans h4, h5.imp (g3 _) (by rw [f3]; exact id), h6⟩

/-- Everything but counts of references is the same. -/
structure Fix (st st' : St) : Prop where
  dmode : st'.dmode = st.dmode
  addrs : st'.addrs = st.addrs
  queue : st'.queue = st.queue
  batch : st'.batch = st.batch
  cur : st'.cur = st.cur
  out : st'.out = st.out
  sig : st'.sig = st.sig
  gone : st'.gone = st.gone
  log : st'.log = st.log
  data : st'.objs.map (·.data) = st.objs.map (·.data)
  grow : Grow st st'

theorem Fix.trans {a b c : St} (h : Fix a b) (h' : Fix b c) : Fix a c :=
  ⟨h'.dmode.trans h.dmode, h'.addrs.trans h.addrs, h'.queue.trans h.queue, h'.batch.trans h.batch, h'.cur.trans h.cur,
   h'.out.trans h.out, h'.sig.trans h.sig, h'.gone.trans h.gone, h'.log.trans h.log, h'.data.trans h.data,
   h.grow.trans h'.grow⟩

theorem grow_sock {st : St} {s : Nat} {k k' : Sock} (hk : st.socks[s]? = some k) (h1 : k'.fd = k.fd)
    (h2 : k'.pinned = k.pinned) {t : Nat} {j : Sock} (hj : st.socks[t]? = some j) :
    ∃ j', (st.socks.set s k')[t]? = some j' ∧ j'.fd = j.fd ∧ j'.pinned = j.pinned := by
  rw [set_get hk]
  split
  next e => subst e; rw [hk] at hj; cases hj; exact ⟨_, rfl, h1, h2⟩
  · exact ⟨j, hj, rfl, rfl⟩

theorem grow_obj {st : St} {p : Nat} {o o' : Obj} (ho : st.objs[p]? = some o) (h1 : o'.data = o.data)
    (h2 : ∀ s ∈ o.held, s ∈ o'.held) {q : Nat} {u : Obj} (hu : st.objs[q]? = some u) :
    ∃ u', (st.objs.set p o')[q]? = some u' ∧ u'.data = u.data ∧ ∀ s ∈ u.held, s ∈ u'.held := by
  rw [set_get ho]
  split
  next e => subst e; rw [ho] at hu; cases hu; exact ⟨_, rfl, h1, h2⟩
  · exact ⟨u, hu, rfl, fun _ h => h⟩

theorem data_set {l : List Obj} {p : Nat} {o o' : Obj} (ho : l[p]? = some o) (h1 : o'.data = o.data) :
    (l.set p o').map (·.data) = l.map (·.data) := by
  apply List.ext_getElem?
  intro j
  rw [List.getElem?_map, List.getElem?_map, set_get ho]
  split
  next e => subst e; simp [ho, h1]
  · rfl

theorem fix_sock {st : St} {s : Nat} {k k' : Sock} {f : Nat → Option Nat} (hk : st.socks[s]? = some k) (h1 : k'.fd = k.fd)
    (h2 : k'.pinned = k.pinned) : Fix st { st with socks := st.socks.set s k', fdt := f } :=
  ⟨rfl, rfl, rfl, rfl, rfl, rfl, rfl, rfl, rfl, rfl, ⟨(Grow.refl st).objs, fun _ _ hj => grow_sock hk h1 h2 hj⟩⟩

theorem fix_obj {st : St} {p : Nat} {o o' : Obj} (ho : st.objs[p]? = some o) (h1 : o'.data = o.data)
    (h2 : ∀ s ∈ o.held, s ∈ o'.held) : Fix st { st with objs := st.objs.set p o' } :=
  ⟨rfl, rfl, rfl, rfl, rfl, rfl, rfl, rfl, rfl, data_set ho h1, ⟨fun _ _ hu => grow_obj ho h1 h2 hu, (Grow.refl st).socks⟩⟩

theorem decSock_fix {st st' : St} {s : Nat} (h : decSock st s = .ok st') : Fix st st' := by
  simp only [decSock] at h
  split at h
  · cases h
  next k hk =>
    split at h
    · cases h
    · split at h
      · cases h; exact fix_sock hk rfl rfl
      · cases h; exact fix_sock (f := st.fdt) hk rfl rfl

theorem decSocks_fix {l : List Nat} {st st' : St} (h : decSocks st l = .ok st') : Fix st st' := by
  induction l generalizing st with
  | nil =>
    cases h
    exact ⟨rfl, rfl, rfl, rfl, rfl, rfl, rfl, rfl, rfl, rfl, .refl _⟩
  | cons s l ih =>
    simp only [decSocks] at h
    split at h
    · cases h
    next st1 h1 => exact (decSock_fix h1).trans (ih h)

theorem decObj_fix {st st' : St} {p : Nat} (h : decObj st p = .ok st') : Fix st st' := by
  simp only [decObj] at h
  split at h
  · cases h
  next o ho =>
    split at h
    · cases h
    · split at h
      · exact (fix_obj (o' := { o with refs := 0 }) ho rfl (fun _ h => h)).trans (decSocks_fix h)
      · cases h; exact fix_obj ho rfl (fun _ h => h)

/-! ### The invariant -/

def pend (st : St) : List Item := curItems st.cur ++ items st.batch ++ items st.queue

def CurOk : Option Cur → List Msg → List Tx → List Tx → Prop
  | none, _, L, log => log = L
  | some c, m :: _, L, log => ∃ rs, log = L ++ attempts m rs ∧
      ((c.over = true ∧ Done m.copies rs) ∨ (c.over = false ∧ Going m.copies rs ∧
        c.ncopies + rs.count .ok = m.copies ∧ c.nretry = rs.count .soft))
  | some _, [], _, _ => False

def TermOk (sig : Bool) (stop : Option Nat) (n : Nat) (l : List Work) : Prop :=
  if sig = true then ∃ l1 l2, l = l1 ++ .term :: l2 ∧ .term ∉ l1 ∧ .term ∉ l2 ∧ stop = some (n + (items l1).length)
  else stop = none ∧ .term ∉ l

def Running (st : St) (h : Hist) : Prop :=
  ∃ dn pd L, h.msgs = dn ++ pd ∧ All2 (Match st) pd (pend st) ∧ Sent dn L ∧ CurOk st.cur pd L st.log ∧
    TermOk st.sig h.stop (dn.length + (curItems st.cur).length) (st.batch ++ st.queue)

def Ended (st : St) (h : Hist) : Prop :=
  st.sig = true ∧ ∃ dn tl, h.msgs = dn ++ tl ∧ Sent dn st.log ∧ h.stop = some dn.length

structure Ord (d : Bool) (st : St) (h : Hist) : Prop where
  dmode : st.dmode = d
  addrs : h.addrs = st.addrs
  data : h.data = st.objs.map (·.data)
  run : st.out = false → Running st h
  fin : st.out = true → Ended st h

theorem ord_fix {d : Bool} {st st' : St} {h : Hist} (hf : Fix st st') (ho : Ord d st h) : Ord d st' h := by
  refine ⟨hf.dmode.trans ho.dmode, ho.addrs.trans hf.addrs.symm, ho.data.trans hf.data.symm, ?_, ?_⟩
  · intro e
    rw [hf.out] at e
    obtain ⟨dn, pd, L, h1, h2, h3, h4, h5⟩ := ho.run e
    refine ⟨dn, pd, L, h1, ?_, h3, ?_, ?_⟩
    · have : pend st' = pend st := by simp only [pend, hf.cur, hf.batch, hf.queue]
      rw [this]
      exact h2.mono (fun _ _ => Match.grow hf.grow)
    · rw [hf.cur, hf.log]; exact h4
    · rw [hf.cur, hf.sig, hf.batch, hf.queue]; exact h5
  · intro e
    rw [hf.out] at e
    obtain ⟨h1, dn, tl, h2, h3, h4⟩ := ho.fin e
    exact ⟨hf.sig.trans h1, dn, tl, h2, by rw [hf.log]; exact h3, h4⟩

theorem init_ord (d : Bool) : Ord d (init d) (hist d []) := by
  refine ⟨rfl, rfl, rfl, ?_, nofun⟩
  intro _
  exact ⟨[], [], [], rfl, trivial, .nil, rfl, by simp [TermOk, init, hist]⟩

theorem curOk_append {c : Option Cur} {pd : List Msg} {L log : List Tx} (m : Msg) (h : CurOk c pd L log) :
    CurOk c (pd ++ [m]) L log := by
  cases c with
  | none => exact h
  | some c =>
    cases pd with
    | nil => exact h.elim
    | cons a l => exact h

/-- An item is put into the queue. -/
theorem ord_put {d : Bool} {st st' : St} {h h' : Hist} {m : Msg} {i : Item} (ho : Ord d st h)
    (hd : st'.dmode = st.dmode) (ha : st'.addrs = st.addrs) (hda : st'.objs.map (·.data) = st.objs.map (·.data))
    (hg : Grow st st') (hq : st'.queue = st.queue ++ [.pkt i]) (hb : st'.batch = st.batch) (hc : st'.cur = st.cur)
    (hout : st'.out = st.out) (hsig : st'.sig = st.sig) (hlog : st'.log = st.log)
    (hm : Match st' m i) (e1 : h'.addrs = h.addrs) (e2 : h'.data = h.data) (e3 : h'.msgs = h.msgs ++ [m])
    (e4 : h'.stop = h.stop) : Ord d st' h' := by
  refine ⟨hd.trans ho.dmode, by rw [e1, ha]; exact ho.addrs, by rw [e2, hda]; exact ho.data, ?_, ?_⟩
  · intro e
    rw [hout] at e
    obtain ⟨dn, pd, L, h1, h2, h3, h4, h5⟩ := ho.run e
    refine ⟨dn, pd ++ [m], L, by rw [e3, h1, List.append_assoc], ?_, h3, ?_, ?_⟩
    · have : pend st' = pend st ++ [i] := by
        simp only [pend, hc, hb, hq, items_append, items, List.append_assoc]
      rw [this]
      exact (h2.mono (fun _ _ => Match.grow hg)).snoc hm
    · rw [hc, hlog]; exact curOk_append m h4
    · rw [hc, hsig, hb, hq, e4]
      simp only [TermOk] at h5 ⊢
      split
      next hs =>
        rw [if_pos hs] at h5
        obtain ⟨l1, l2, g1, g2, g3, g4⟩ := h5
        exact ⟨l1, l2 ++ [.pkt i], by rw [← List.append_assoc, g1]; simp, g2, by simp [g3], g4⟩
      next hs =>
        rw [if_neg hs] at h5
        exact ⟨h5.1, by have := h5.2; simp at this ⊢; exact this⟩
  · intro e
    rw [hout] at e
    obtain ⟨h1, dn, tl, h2, h3, h4⟩ := ho.fin e
    exact ⟨hsig.trans h1, dn, tl ++ [m], by rw [e3, h2, List.append_assoc], by rw [hlog]; exact h3, e4.trans h4⟩

theorem getD_data {l : List Obj} {p : Nat} {o : Obj} (h : l[p]? = some o) :
    (l.map (·.data)).getD p [] = o.data := by
  simp [List.getD, h]

/-- The descriptor of an item is the socket of the message. -/
theorem fd_ok {st : St} (hR : InvR st) {m : Msg} {i : Item} (hi : i ∈ live st) (hm : Match st m i) :
    st.fdt i.fd = some m.sock := by
  obtain ⟨o, k, h1, h2, h3, h4, h5, _⟩ := hm
  obtain ⟨o', g1, g2⟩ := live_obj hR hi
  rw [h1] at g1; cases g1
  refine (hR.1.fdt _ _).mpr ⟨k, h3, ?_, h4⟩
  have hr := hR.1.refs _ k h3
  rcases h5 with h5 | h5
  · have := tot_ge (hold m.sock) st.objs _ o h1
    have h6 : 0 < hold m.sock o := by
      simp only [hold]
      rw [if_neg (by omega)]
      exact List.count_pos_iff.mpr h5
    simp only [holds] at hr; omega
  · have := hR.1.pin _ k h3 h5
    omega

theorem attempts_snoc (m : Msg) (rs : List Res) (r : Res) :
    attempts m (rs ++ [r]) = attempts m rs ++ [⟨some m.sock, m.data, m.to, r⟩] := by
  simp [attempts]

theorem count_snoc (rs : List Res) (r x : Res) : (rs ++ [r]).count x = rs.count x + if r = x then 1 else 0 := by
  rw [List.count_append]
  congr 1
  simp only [List.count_cons, List.count_nil]
  cases r <;> cases x <;> rfl

/-- One attempt more. -/
theorem after_ok {c : Cur} {n : Nat} {rs : List Res} (r : Res) (h1 : Going n rs) (h2 : c.ncopies + rs.count .ok = n)
    (h3 : c.nretry = rs.count .soft) :
    ((after c r).over = true ∧ Done n (rs ++ [r])) ∨ ((after c r).over = false ∧ Going n (rs ++ [r]) ∧
      (after c r).ncopies + (rs ++ [r]).count .ok = n ∧ (after c r).nretry = (rs ++ [r]).count .soft) := by
  have h1' := h1
  obtain ⟨g1, g2, g3⟩ := h1
  cases r with
  | ok =>
    simp only [after, count_snoc, Done, Going]
    by_cases h : c.ncopies - 1 > 0
    · right
      refine ⟨by simp [h], ⟨?_, ?_, ?_⟩, ?_, ?_⟩ <;> simp <;> omega
    · left
      refine ⟨by simp [h], .inl ⟨?_, ?_, ?_⟩⟩ <;> simp <;> omega
  | soft =>
    simp only [after]
    by_cases h : c.nretry < maxRetry
    · right
      have h' : c.nretry < 3 := h
      rw [if_pos h]
      refine ⟨by simp; omega, ⟨?_, ?_, ?_⟩, ?_, ?_⟩ <;> simp only [count_snoc] <;> simp <;> omega
    · left
      have h' : ¬ c.nretry < 3 := h
      rw [if_neg h]
      exact ⟨rfl, .inr (.inr ⟨rs, rfl, h1', by omega⟩)⟩
  | hard =>
    left
    exact ⟨rfl, .inr (.inl ⟨rs, rfl, h1'⟩)⟩

theorem after_it (c : Cur) (r : Res) : (after c r).it = c.it := by
  cases r <;> simp only [after]
  split <;> rfl

theorem hist_snoc (d : Bool) (es : List Ev) (e : Ev) : hist d (es ++ [e]) = (hist d es).step d e := by
  simp [hist]

theorem step_ord {d : Bool} {st st' : St} {h : Hist} {e : Ev} (hR : InvR st) (ho : Ord d st h)
    (hs : step st e = some (.ok st')) : Ord d st' (h.step d e) := by
  cases e with
  | sopen fd pin =>
    simp only [step] at hs
    split at hs
    · cases hs
      refine ord_fix (st := st) (h := h) ⟨rfl, rfl, rfl, rfl, rfl, rfl, rfl, rfl, rfl, rfl, ⟨(Grow.refl st).objs, ?_⟩⟩ ho
      intro s k hk
      exact ⟨k, by simp only; rw [List.getElem?_append_left (get_lt hk)]; exact hk, rfl, rfl⟩
    · cases hs
  | sget s =>
    simp only [step] at hs
    split at hs
    · cases hs
    next k hk =>
      split at hs
      · cases hs
      · cases hs; exact ord_fix (fix_sock (f := st.fdt) hk rfl rfl) ho
  | sput s =>
    simp only [step] at hs
    split at hs
    · cases hs
    next k hk =>
      split at hs
      · cases hs
      · exact ord_fix ((fix_sock (k' := { k with ext := k.ext - 1 }) (f := st.fdt) hk rfl rfl).trans (decSock_fix (Option.some.inj hs))) ho
  | onew dt =>
    cases hs
    have hg : Grow st { st with objs := st.objs ++ [⟨dt, 1, 1, []⟩] } := by
      refine ⟨?_, (Grow.refl st).socks⟩
      intro p o hp
      exact ⟨o, by simp only; rw [List.getElem?_append_left (get_lt hp)]; exact hp, rfl, fun _ h => h⟩
    refine ⟨ho.dmode, ho.addrs, by simp only [Hist.step]; rw [ho.data]; simp, ?_, ho.fin⟩
    intro hout
    obtain ⟨dn, pd, L, h1, h2, h3⟩ := ho.run hout
    exact ⟨dn, pd, L, h1, h2.mono (fun _ _ => Match.grow hg), h3⟩
  | oget p =>
    simp only [step] at hs
    split at hs
    · cases hs
    next o hp =>
      split at hs
      · cases hs
      · cases hs; exact ord_fix (fix_obj hp rfl (fun _ h => h)) ho
  | oput p =>
    simp only [step] at hs
    split at hs
    · cases hs
    next o hp =>
      split at hs
      · cases hs
      · exact ord_fix ((fix_obj (o' := { o with ext := o.ext - 1 }) hp rfl (fun _ h => h)).trans (decObj_fix (Option.some.inj hs))) ho
  | addr a v =>
    cases hs
    refine ⟨ho.dmode, ?_, ho.data, ho.run, ho.fin⟩
    simp only [Hist.step]
    funext x
    simp only [upd]
    rw [ho.addrs]
  | hand s p a ok =>
    simp only [step] at hs
    split at hs
    next k o hk hp =>
      split at hs
      · cases hs
      · replace hs := Option.some.inj hs
        simp only [hand] at hs
        split at hs
        next hok =>
          subst hok
          exact ord_fix ((fix_obj (o' := { o with ext := o.ext - 1 }) hp rfl (fun _ h => h)).trans (decObj_fix hs)) ho
        next hok =>
          have hok : ok = true := by simpa using hok
          subst hok
          cases hs
          have hg : Grow st { st with
                  objs := st.objs.set p { o with ext := o.ext - 1, held := o.held ++ [s] }
                  socks := st.socks.set s { k with refs := k.refs + 1 }
                  queue := st.queue ++ [.pkt ⟨p, k.fd, st.addrs a, nsend st.dmode o.data.length⟩] } :=
            ⟨fun _ _ hu => grow_obj (o' := { o with ext := o.ext - 1, held := o.held ++ [s] }) hp rfl
              (fun _ h => List.mem_append_left _ h) hu,
             fun _ _ hj => grow_sock (k' := { k with refs := k.refs + 1 }) hk rfl rfl hj⟩
          refine ord_put (m := ⟨s, h.data.getD p [], h.addrs a,
            if d = true ∧ (h.data.getD p []).length < 128 then 2 else 1⟩) ho rfl rfl (data_set hp rfl) hg rfl rfl rfl rfl rfl rfl
            ?_ rfl rfl rfl rfl
          have hdat : h.data.getD p [] = o.data := by rw [ho.data]; exact getD_data hp
          refine ⟨{ o with ext := o.ext - 1, held := o.held ++ [s] }, { k with refs := k.refs + 1 },
            by simp only [set_get hp, if_pos], hdat.symm, by simp only [set_get hk, if_pos], rfl, .inl (by simp), ?_, ?_⟩
          · simp only; rw [ho.addrs]
          · refine ⟨?_, by simp only; split <;> omega, by simp only; split <;> omega⟩
            show (if st.dmode = true ∧ o.data.length < 128 then 2 else 1) = _
            rw [hdat, ho.dmode]
    · cases hs
  | reply s p v ok =>
    simp only [step] at hs
    split at hs
    next k o hk hp =>
      split at hs
      · cases hs
      next h0 =>
        replace hs := Option.some.inj hs
        simp only [reply] at hs
        split at hs
        next hok =>
          subst hok
          exact ord_fix ((fix_obj (o' := { o with ext := o.ext - 1 }) hp rfl (fun _ h => h)).trans (decObj_fix hs)) ho
        next hok =>
          have hok : ok = true := by simpa using hok
          subst hok
          have hkp : k.pinned = true := by
            cases hh : k.pinned with
            | true => rfl
            | false => exact absurd (.inr (.inl hh)) h0
          cases hs
          have hg : Grow st { st with
                  objs := st.objs.set p { o with ext := o.ext - 1 }
                  queue := st.queue ++ [.pkt ⟨p, k.fd, v, 1⟩] } :=
            ⟨fun _ _ hu => grow_obj (o' := { o with ext := o.ext - 1 }) hp rfl (fun _ h => h) hu, (Grow.refl st).socks⟩
          refine ord_put (m := ⟨s, h.data.getD p [], v, 1⟩) ho rfl rfl (data_set hp rfl) hg rfl rfl rfl rfl rfl rfl
            ?_ rfl rfl rfl rfl
          have hdat : h.data.getD p [] = o.data := by rw [ho.data]; exact getD_data hp
          exact ⟨{ o with ext := o.ext - 1 }, k, by simp only [set_get hp, if_pos], hdat.symm, hk, rfl, .inr hkp, rfl, rfl, Nat.one_pos, by simp⟩
    · cases hs
  | stop =>
    simp only [step] at hs
    split at hs
    · cases hs
    next hsig =>
      cases hs
      refine ⟨ho.dmode, ho.addrs, ho.data, ?_, ?_⟩
      · intro hout
        obtain ⟨dn, pd, L, h1, h2, h3, h4, h5⟩ := ho.run hout
        refine ⟨dn, pd, L, h1, ?_, h3, h4, ?_⟩
        · have : pend { st with sig := true, queue := st.queue ++ [.term] } = pend st := by
            simp [pend, items_append, items]
          rw [this]; exact h2
        · simp only [TermOk] at h5 ⊢
          rw [if_neg hsig] at h5
          rw [if_pos trivial]
          refine ⟨st.batch ++ st.queue, [], by simp, h5.2, by simp, ?_⟩
          simp only [Hist.step]
          have := h2.len
          simp only [pend, List.length_append] at this
          rw [h1, items_append]
          simp only [List.length_append]
          congr 1; omega
      · intro hout
        exact absurd (ho.fin hout).1 hsig
  | take =>
    simp only [step] at hs
    split at hs
    · cases hs
    next h0 =>
      have hb : st.batch = [] := Classical.byContradiction fun hh => h0 (.inr (.inl hh))
      have hout : st.out = false := by
        cases hh : st.out with
        | false => rfl
        | true => exact absurd (.inl hh) h0
      cases hs
      refine ⟨ho.dmode, ho.addrs, ho.data, ?_, fun e => by rw [hout] at e; cases e⟩
      intro _
      obtain ⟨dn, pd, L, h1, h2, h3, h4, h5⟩ := ho.run hout
      refine ⟨dn, pd, L, h1, ?_, h3, h4, ?_⟩
      · have : pend { st with batch := st.queue.take batchLen, queue := st.queue.drop batchLen } = pend st := by
          simp only [pend, hb, items, List.append_assoc]
          congr 1
          simp only [List.nil_append]
          rw [← items_append, List.take_append_drop]
        rw [this]; exact h2
      · simp only [List.take_append_drop]
        rw [hb] at h5; exact h5
  | go r =>
    simp only [step] at hs
    split at hs
    · cases hs
    next hout =>
      have hout : st.out = false := by simpa using hout
      obtain ⟨dn, pd, L, h1, h2, h3, h4, h5⟩ := ho.run hout
      have hnf : ∀ {P : Prop}, st.out = true → P := fun e => by rw [hout] at e; cases e
      simp only [go] at hs
      split at hs
      next c hc =>
        rw [hc] at h4
        cases pd with
        | nil => exact h4.elim
        | cons m pd =>
        obtain ⟨rs, hl, h4⟩ := h4
        split at hs
        next hov =>
          have hf := decObj_fix (Option.some.inj hs)
          rcases h4 with ⟨_, hd⟩ | ⟨h, _⟩
          · refine ord_fix hf ⟨ho.dmode, ho.addrs, ho.data, ?_, hnf⟩
            intro _
            refine ⟨dn ++ [m], pd, L ++ attempts m rs, by simp only [Hist.step]; rw [h1]; simp, ?_, .snoc h3 hd, hl, ?_⟩
            · simp only [pend, hc, curItems] at h2
              exact h2.2
            · rw [hc] at h5
              simp only [curItems, List.length_cons, List.length_nil, List.length_append] at h5 ⊢
              exact h5
          · rw [hov] at h; cases h
        next hov =>
          have hov : c.over = false := by simpa using hov
          rcases h4 with ⟨h, _⟩ | ⟨_, hg1, hg2, hg3⟩
          · rw [hov] at h; cases h
          have hm : Match st m c.it := by
            simp only [pend, hc, curItems] at h2
            exact h2.1
          have hfd := fd_ok hR (cur_live hc) hm
          have hm' := hm
          obtain ⟨o, k, f1, f2, f3, f4, f5, f6, f7, _⟩ := hm'
          obtain ⟨o', g1, g2⟩ := live_obj hR (cur_live hc)
          rw [f1] at g1; cases g1
          simp only [sendto, f1] at hs
          rw [if_neg (by omega)] at hs
          simp only [hfd, Option.isNone_some, Bool.false_eq_true, if_false] at hs
          cases hs
          refine ⟨ho.dmode, ho.addrs, ho.data, ?_, hnf⟩
          intro _
          refine ⟨dn, m :: pd, L, h1, ?_, h3, ?_, ?_⟩
          · simp only [pend, hc, curItems, after_it] at h2 ⊢
            exact h2.mono (fun _ _ => Match.grow ⟨(Grow.refl st).objs, (Grow.refl st).socks⟩)
          · refine ⟨rs ++ [r], ?_, after_ok r hg1 hg2 hg3⟩
            simp only
            rw [attempts_snoc, ← List.append_assoc, ← hl, f2, f6]
          · simp only [hc, curItems] at h5 ⊢
            exact h5
      next hc =>
        rw [hc] at h4
        split at hs
        · cases hs
        next b hb =>
          cases hs
          refine ⟨ho.dmode, ho.addrs, ho.data, nofun, ?_⟩
          intro _
          have hsig : st.sig = true := by
            cases hh : st.sig with
            | true => rfl
            | false =>
              simp only [TermOk, hh, hb] at h5
              simp at h5
          refine ⟨hsig, dn, pd, h1, ?_, ?_⟩
          · have : st.log = L := h4
            simp only; rw [this]; exact h3
          · simp only [TermOk, hsig, if_true, hb, hc, curItems] at h5
            obtain ⟨l1, l2, g1, g2, g3, g4⟩ := h5
            cases l1 with
            | nil => simp only [Hist.step]; simpa [items] using g4
            | cons w l1 =>
              simp only [List.cons_append, List.cons.injEq] at g1
              rw [← g1.1] at g2
              simp at g2
        next i b hb =>
          cases hs
          refine ⟨ho.dmode, ho.addrs, ho.data, ?_, hnf⟩
          intro _
          have h2' := h2
          simp only [pend, hc, hb, curItems, items, List.nil_append, List.cons_append] at h2'
          cases pd with
          | nil => exact h2'.elim
          | cons m pd =>
          refine ⟨dn, m :: pd, L, h1, ?_, h3, ?_, ?_⟩
          · simp only [pend, curItems, List.cons_append, List.nil_append]
            exact h2'
          · refine ⟨[], ?_, .inr ⟨rfl, ⟨?_, by simp, by simp⟩, ?_, rfl⟩⟩
            · have : st.log = L := h4
              simp [attempts, this]
            · obtain ⟨_, _, _, _, _, _, _, _, f7, f8, _⟩ := h2'.1
              simpa using f8
            · obtain ⟨_, _, _, _, _, _, _, _, f7, _⟩ := h2'.1
              simpa using f7
          · simp only [TermOk, hb, hc, curItems] at h5 ⊢
            split
            next hsig =>
              rw [if_pos hsig] at h5
              obtain ⟨l1, l2, g1, g2, g3, g4⟩ := h5
              cases l1 with
              | nil => simp at g1
              | cons w l1 =>
                simp only [List.cons_append, List.cons.injEq] at g1
                refine ⟨l1, l2, g1.2, fun hh => g2 (List.mem_cons_of_mem _ hh), g3, ?_⟩
                simp only [Hist.step]
                rw [g4, ← g1.1]
                simp only [items, List.length_cons, List.length_nil]
                congr 1; omega
            next hsig =>
              rw [if_neg hsig] at h5
              exact ⟨h5.1, fun hh => h5.2 (List.mem_cons_of_mem _ hh)⟩
  | destroy =>
    simp only [step] at hs
    split at hs
    · cases hs
    next h0 =>
      have hout : st.out = true := by
        cases hh : st.out with
        | true => rfl
        | false => exact absurd (.inl hh) h0
      replace hs := Option.some.inj hs
      have hE := ho.fin hout
      have key : ∀ (q : List Work) (g : Bool), Ord d { st with queue := q, gone := g } h := by
        intro q g
        exact ⟨ho.dmode, ho.addrs, ho.data, (fun e => by simp only at e; rw [hout] at e; cases e), fun _ => hE⟩
      simp only [destroy] at hs
      split at hs
      · cases hs; exact key _ _
      · exact ord_fix (decObj_fix hs) (key _ _)
      · cases hs; exact key _ _

end Verif.Netio
