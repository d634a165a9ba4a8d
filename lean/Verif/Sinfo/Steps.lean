import Verif.Sinfo.Inv

/-!
# Every step keeps the invariant
-/

namespace Verif.Sinfo

theorem change_keys {t t' : List (Nat × Nat)} {e : Ent} (h : change t e = some t') (n : (t.map (·.1)).Nodup) : (t'.map (·.1)).Nodup := by
  obtain ⟨op, u, so⟩ := e
  unfold change at h
  cases op <;> cases so <;> simp only at h
  · cases h
  · split at h
    · cases h
    · rename_i hn
      cases h
      rw [List.map_append]
      exact List.Nodup.append n (List.nodup_singleton _) (by simpa using hn)
  · split at h
    · cases h
      exact n.sublist (List.Sublist.map _ List.filter_sublist)
    · cases h
  · cases h
  · cases h
  · split at h
    · cases h
      rw [List.map_map]
      have : ((fun x : Nat × Nat => x.1) ∘ fun x => if x.1 = u then (x.1, ‹Nat›) else x) = fun x => x.1 := by
        funext x
        simp only [Function.comp_apply]
        split <;> rfl
      rw [this]
      exact n
    · cases h

theorem changes_keys {t t' : List (Nat × Nat)} {es : List Ent} (h : changes t es = some t') (n : (t.map (·.1)).Nodup) :
    (t'.map (·.1)).Nodup := by
  induction es generalizing t with
  | nil => cases h; exact n
  | cons e es ih =>
    simp only [changes] at h
    cases h' : change t e with
    | none => rw [h'] at h; cases h
    | some t1 => rw [h'] at h; exact ih h (change_keys h' n)

/-- The sockets after a change are those of before and the new one. -/
theorem change_socks {t t' : List (Nat × Nat)} {e : Ent} (h : change t e = some t') (n : (t.map (·.1)).Nodup) (m : (t.map (·.2)).Nodup)
    (hn : ∀ s, e.s = some s → s ∉ t.map (·.2)) :
    (t'.map (·.2)).Nodup ∧ ∀ s ∈ t'.map (·.2), s ∈ t.map (·.2) ∨ e.s = some s := by
  obtain ⟨op, u, so⟩ := e
  unfold change at h
  cases op <;> cases so <;> simp only at h
  · cases h
  · rename_i s
    split at h
    · cases h
    · cases h
      rw [List.map_append]
      refine ⟨List.Nodup.append m (List.nodup_singleton _) (by simpa using hn s rfl), ?_⟩
      intro x hx
      rw [List.mem_append] at hx
      rcases hx with h | h
      · exact Or.inl h
      · simp only [List.map_cons, List.map_nil, List.mem_singleton] at h
        exact Or.inr (by rw [h])
  · split at h
    · cases h
      refine ⟨m.sublist (List.Sublist.map _ List.filter_sublist), ?_⟩
      intro x hx
      exact Or.inl ((List.Sublist.map _ List.filter_sublist).subset hx)
    · cases h
  · cases h
  · cases h
  · rename_i s
    split at h
    · cases h
      have key : ∀ l : List (Nat × Nat), (l.map (·.1)).Nodup → (l.map (·.2)).Nodup → s ∉ l.map (·.2) →
          ((l.map fun x => if x.1 = u then (x.1, s) else x).map (·.2)).Nodup ∧
          (∀ y ∈ (l.map fun x => if x.1 = u then (x.1, s) else x).map (·.2), y ∈ l.map (·.2) ∨ (y = s ∧ u ∈ l.map (·.1))) := by
        intro l
        induction l with
        | nil => intro _ _ _; exact ⟨List.nodup_nil, fun y hy => by cases hy⟩
        | cons a as ih =>
          intro h1 h2 h3
          simp only [List.map_cons, List.nodup_cons, List.mem_cons, not_or] at h1 h2 h3
          obtain ⟨i1, i2⟩ := ih h1.2 h2.2 h3.2
          constructor
          · rw [List.map_cons, List.map_cons, List.nodup_cons]
            refine ⟨?_, i1⟩
            intro hmem
            rcases i2 _ hmem with hh | ⟨hh, hk⟩
            · by_cases e : a.1 = u
              · rw [if_pos e] at hh; exact h3.2 hh
              · rw [if_neg e] at hh; exact h2.1 hh
            · by_cases e : a.1 = u
              · exact h1.1 (e ▸ hk)
              · rw [if_neg e] at hh; exact h3.1 hh.symm
          · intro y hy
            rw [List.map_cons, List.map_cons, List.mem_cons] at hy
            rcases hy with hy | hy
            · by_cases e : a.1 = u
              · rw [if_pos e] at hy
                exact Or.inr ⟨hy, by rw [List.map_cons, e]; exact List.mem_cons_self⟩
              · rw [if_neg e] at hy
                exact Or.inl (by rw [hy]; exact List.mem_cons_self)
            · rcases i2 y hy with h | ⟨h, k⟩
              · exact Or.inl (List.mem_cons_of_mem _ h)
              · exact Or.inr ⟨h, List.mem_cons_of_mem _ k⟩
      obtain ⟨k1, k2⟩ := key t n m (hn s rfl)
      refine ⟨k1, fun y hy => ?_⟩
      rcases k2 y hy with h | ⟨h, _⟩
      · exact Or.inl h
      · exact Or.inr (by rw [h])
    · cases h

theorem turn_inv {p : Pipe} (h : PInv p) :
    ∃ p', turn p = .ok p' ∧ PInv p' ∧ p'.main = p.main ∧ p'.ulen = p.ulen ∧ p'.fds = p.fds ∧
      changes p'.table p'.taken = changes p.table p.taken := by
  unfold turn
  cases hb : p.busy with
  | none => exact ⟨p, rfl, h, rfl, rfl, rfl, rfl⟩
  | some q =>
    obtain ⟨i, n⟩ := q
    obtain ⟨b1, b2, b3⟩ := h.bz i n hb
    obtain ⟨e, he, ht⟩ := taken_length h hb
    simp only
    rw [if_pos b1, he]
    simp only
    obtain ⟨t, ho, htn, hof⟩ := h.out
    have ho' := ho
    rw [ht, List.cons_append, changes] at ho'
    cases hc : change p.table e with
    | none => rw [hc] at ho'; cases ho'
    | some t1 =>
      rw [hc] at ho'
      simp only [Option.bind_some] at ho'
      have hfr := h.fresh
      unfold Pipe.socks at hfr
      rw [ht, List.cons_append] at hfr
      have hnew : ∀ s, e.s = some s → s ∉ p.table.map (·.2) := by
        intro s hs hm
        rw [List.filterMap_cons_some (show sockOf e = some s from hs)] at hfr
        rw [List.nodup_append] at hfr
        exact hfr.2.2 s hm s List.mem_cons_self rfl
      have hts : (p.table.map (·.2)).Nodup := (List.nodup_append.1 hfr).1
      obtain ⟨p', a1, a2, a3, a4, a5, a6, a7, a8⟩ := apply_spec h.cl h.uniq hts h.ep e hc hnew (by omega)
      rw [a1]
      simp only
      refine ⟨_, rfl, ?_⟩
      have hmain : p'.main = p.main := by rw [a6]; rfl
      have hsh : p'.shadow = p.shadow := by rw [a6]; rfl
      have htwo : p'.si ≠ p'.mi := by rw [a6]; exact h.two
      have hul : p'.ulen = p.ulen := by rw [a6]
      have hil : p'.ilen = p.ilen := by rw [a6]
      have hfd : p'.fds = p.fds := by rw [a6]
      have hlog : p'.logged = p.logged := by unfold Pipe.logged; rw [hmain, hul]
      have htk : ({ p' with busy := if i + 1 < n then some (i + 1, n) else none } : Pipe).taken = (p.shadow.take n).drop (i + 1) := by
        unfold Pipe.taken
        simp only
        by_cases hi : i + 1 < n
        · rw [if_pos hi]
          show List.drop (i + 1) (p'.shadow.take n) = _
          rw [hsh]
        · rw [if_neg hi]
          simp only
          rw [List.drop_eq_nil_of_le]
          rw [List.length_take]; omega
      have hch : changes ({ p' with busy := if i + 1 < n then some (i + 1, n) else none } : Pipe).table
          ({ p' with busy := if i + 1 < n then some (i + 1, n) else none } : Pipe).taken = changes p.table p.taken := by
        rw [htk, ht]
        show changes p'.table _ = _
        rw [a2, changes, hc]
        rfl
      obtain ⟨s1, s2⟩ := change_socks hc h.uniq hts hnew
      refine ⟨?_, hmain, hul, hfd, hch⟩
      exact {
        two := htwo
        ul := by show p'.ulen ≤ p'.main.length; rw [hmain, hul]; exact h.ul
        il := by show 0 < p'.ilen; rw [hil]; exact h.il
        cl := a5
        bz := by
          intro i' n' hq
          simp only at hq
          show i' < n' ∧ n' ≤ p'.shadow.length ∧ p'.curlen + (n' - i') ≤ p'.mds.length
          by_cases hi : i + 1 < n
          · rw [if_pos hi] at hq
            cases hq
            rw [hsh, a3]
            refine ⟨hi, b2, by omega⟩
          · rw [if_neg hi] at hq; cases hq
        uniq := by show (p'.table.map (·.1)).Nodup; rw [a2]; exact change_keys hc h.uniq
        fresh := by
          show (p'.table.map (·.2) ++ (({ p' with busy := if i + 1 < n then some (i + 1, n) else none } : Pipe).taken ++ p'.logged).filterMap sockOf).Nodup
          rw [htk, hlog, a2]
          rw [List.nodup_append] at hfr ⊢
          obtain ⟨f1, f2, f3⟩ := hfr
          cases hs : e.s with
          | none =>
            rw [List.filterMap_cons_none (show sockOf e = none from hs)] at f2 f3
            refine ⟨s1, f2, ?_⟩
            intro a ha b hb
            rcases s2 a ha with h' | h'
            · exact f3 a h' b hb
            · rw [hs] at h'; cases h'
          | some s =>
            rw [List.filterMap_cons_some (show sockOf e = some s from hs)] at f2 f3
            rw [List.nodup_cons] at f2
            refine ⟨s1, f2.2, ?_⟩
            intro a ha b hb
            rcases s2 a ha with h' | h'
            · exact f3 a h' b (List.mem_cons_of_mem _ hb)
            · rw [hs] at h'; cases h'
              intro e; exact f2.1 (e ▸ hb)
        fdu := by show (p'.fds.map (·.1)).Nodup; rw [hfd]; exact h.fdu
        out := by
          refine ⟨t, ?_, htn, ?_⟩
          · rw [changes_append, hch]
            show (changes p.table p.taken).bind (fun t' => changes t' p'.logged) = some t
            rw [hlog, ← changes_append]
            exact ho
          · show ∀ x, x ∈ t ↔ x ∈ p'.fds
            rw [hfd]; exact hof
        ep := a7
        refs := by
          intro s
          show p'.refs s = (((p'.fds.map (·.2)).count s + ((({ p' with busy := if i + 1 < n then some (i + 1, n) else none } : Pipe).taken ++
            p'.logged).filterMap sockOf).count s + (p'.table.map (·.2)).count s : Nat) : Int)
          rw [htk, hlog, a2, hfd, a8 s, h.refs s]
          unfold Pipe.held
          rw [ht]
          cases hs : e.s with
          | none =>
            rw [List.cons_append, List.filterMap_cons_none (show sockOf e = none from hs)]
            simp only [Option.toList, List.count_nil]
            omega
          | some x =>
            rw [List.cons_append, List.filterMap_cons_some (show sockOf e = some x from hs)]
            simp only [Option.toList, List.count_cons, List.count_nil]
            omega }

theorem begin_inv {p : Pipe} (h : PInv p) :
    PInv (begin p true) ∧ (begin p true).fds = p.fds ∧
      (p.busy = none → (begin p true).table = p.table ∧ (begin p true).taken = p.logged ∧ (begin p true).ulen = 0) := by
  unfold begin
  cases hb : p.busy with
  | some q => exact ⟨h, rfl, fun h => by cases h⟩
  | none =>
    simp only
    by_cases hz : p.ulen = 0
    · rw [if_pos hz]
      refine ⟨h, rfl, fun _ => ⟨rfl, ?_, hz⟩⟩
      unfold Pipe.taken Pipe.logged
      rw [hb, hz]; rfl
    · rw [if_neg hz, if_neg (by simp)]
      have htb : ((if p.mds.length - p.curlen < p.ulen then (p.mds ++ List.replicate (p.ulen + p.curlen) (0, 0)).take (p.ulen + p.curlen) else p.mds)).take p.curlen
          = p.table := by
        split
        · rw [List.take_take, Nat.min_eq_left (by omega), List.take_append_of_le_length h.cl]; rfl
        · rfl
      have hml : p.ulen + p.curlen ≤ (if p.mds.length - p.curlen < p.ulen then (p.mds ++ List.replicate (p.ulen + p.curlen) (0, 0)).take (p.ulen + p.curlen) else p.mds).length := by
        have := h.cl
        split
        · rw [List.length_take, List.length_append, List.length_replicate]; omega
        · omega
      generalize hg : (if p.mds.length - p.curlen < p.ulen then (p.mds ++ List.replicate (p.ulen + p.curlen) (0, 0)).take (p.ulen + p.curlen) else p.mds) = mds at htb hml
      have e0 : p.taken = [] := by unfold Pipe.taken; rw [hb]
      obtain ⟨t, ho, htn, hof⟩ := h.out
      refine ⟨?_, rfl, fun _ => ⟨htb, rfl, rfl⟩⟩
      exact {
        two := fun e => h.two e.symm
        ul := Nat.zero_le _
        il := h.il
        cl := by show p.curlen ≤ mds.length; omega
        bz := by
          intro i n hq
          simp only at hq
          cases hq
          refine ⟨by omega, h.ul, ?_⟩
          show p.curlen + (p.ulen - 0) ≤ mds.length
          omega
        uniq := by show ((mds.take p.curlen).map (·.1)).Nodup; rw [htb]; exact h.uniq
        fresh := by
          show ((mds.take p.curlen).map (·.2) ++ (p.logged ++ []).filterMap sockOf).Nodup
          rw [htb, List.append_nil]
          have := h.fresh
          unfold Pipe.socks at this
          rw [e0] at this
          exact this
        fdu := h.fdu
        out := by
          refine ⟨t, ?_, htn, hof⟩
          show changes (mds.take p.curlen) (p.logged ++ []) = some t
          rw [htb, List.append_nil]
          rw [e0] at ho
          exact ho
        ep := by
          show p.ep.Nodup ∧ ∀ s, s ∈ p.ep ↔ s ∈ (mds.take p.curlen).map (·.2)
          rw [htb]; exact h.ep
        refs := by
          intro s
          rw [show _ = p.refs s from rfl, h.refs s]
          show ((p.held s : Nat) : Int) = (((p.fds.map (·.2)).count s + ((p.logged ++ []).filterMap sockOf).count s +
            ((mds.take p.curlen).map (·.2)).count s : Nat) : Int)
          unfold Pipe.held
          rw [htb, e0, List.append_nil, List.nil_append] }

theorem write_taken {p : Pipe} (h : p.si ≠ p.mi) (l : List Ent) : (p.write l).taken = p.taken := by
  unfold Pipe.taken
  rw [write_shadow h]
  rfl

theorem room_inv {p p' : Pipe} {m : Bool} (h : PInv p) (hr : room m p = some p') :
    PInv p' ∧ p'.ulen < p'.main.length ∧ p'.fds = p.fds ∧ p'.refs = p.refs ∧ p'.table = p.table ∧ p'.taken = p.taken ∧ p'.logged = p.logged
      ∧ p'.busy = p.busy := by
  unfold room at hr
  split at hr
  · rename_i hf
    split at hr
    · cases hr
      generalize hX : p.main ++ List.replicate p.ilen (⟨.add, 0, none⟩ : Ent) = X
      have hXl : p.ulen < X.length := by
        have := h.il
        rw [← hX, List.length_append, List.length_replicate]; omega
      have hl : (p.write X).logged = p.logged := by
        show (p.write X).main.take p.ulen = _
        rw [write_main, ← hX, List.take_append_of_le_length (by omega)]; rfl
      have htk := write_taken h.two X
      refine ⟨?_, ?_, rfl, rfl, rfl, htk, hl, rfl⟩
      · exact {
          two := h.two
          ul := by show p.ulen ≤ (p.write X).main.length; rw [write_main]; omega
          il := h.il
          cl := h.cl
          bz := by
            intro i n b
            rw [write_shadow h.two]
            exact h.bz i n b
          uniq := h.uniq
          fresh := by
            show (p.table.map (·.2) ++ ((p.write X).taken ++ (p.write X).logged).filterMap sockOf).Nodup
            rw [htk, hl]; exact h.fresh
          fdu := h.fdu
          out := by
            obtain ⟨t, ho, h2⟩ := h.out
            refine ⟨t, ?_, h2⟩
            rw [htk, hl]; exact ho
          ep := h.ep
          refs := by
            intro s
            show p.refs s = (((p.fds.map (·.2)).count s + (((p.write X).taken ++ (p.write X).logged).filterMap sockOf).count s
              + (p.table.map (·.2)).count s : Nat) : Int)
            rw [htk, hl]; exact h.refs s }
      · rw [write_main]; exact hXl
    · cases hr
  · rename_i hf
    cases hr
    exact ⟨h, Nat.lt_of_le_of_ne h.ul hf, rfl, rfl, rfl, rfl, rfl, rfl⟩

/-- An entry is added to the log and the sockets of the streams change in the same way. -/
theorem log_inv {p : Pipe} (h : PInv p) (hr : p.ulen < p.main.length) (e : Ent) (fds : List (Nat × Nat)) (refs : Nat → Int)
    (hfd : (fds.map (·.1)).Nodup)
    (hch : ∀ t, (∀ x, x ∈ t ↔ x ∈ p.fds) → ∃ t', change t e = some t' ∧ ∀ x, x ∈ t' ↔ x ∈ fds)
    (hnew : ∀ s, e.s = some s → s ∉ p.socks)
    (href : ∀ s, refs s = p.refs s - (p.fds.map (·.2)).count s + (fds.map (·.2)).count s + (e.s.toList).count s) :
    PInv { p.write (p.main.set p.ulen e) with ulen := p.ulen + 1, fds := fds, refs := refs } := by
  have hl : ({ p.write (p.main.set p.ulen e) with ulen := p.ulen + 1, fds := fds, refs := refs } : Pipe).logged = p.logged ++ [e] := by
    show (p.write (p.main.set p.ulen e)).main.take (p.ulen + 1) = _
    rw [write_main, List.take_succ_eq_append_getElem (by rw [List.length_set]; exact hr), List.getElem_set_self, List.take_set_of_le (Nat.le_refl _)]
    rfl
  obtain ⟨t, ho, htn, hof⟩ := h.out
  obtain ⟨t', c1, c2⟩ := hch t hof
  have htk : ({ p.write (p.main.set p.ulen e) with ulen := p.ulen + 1, fds := fds, refs := refs } : Pipe).taken = p.taken :=
    write_taken h.two _
  have hfm : (p.taken ++ (p.logged ++ [e])).filterMap sockOf = (p.taken ++ p.logged).filterMap sockOf ++ e.s.toList := by
    rw [← List.append_assoc, List.filterMap_append]
    congr 1
  exact {
    two := h.two
    ul := by show p.ulen + 1 ≤ (p.write (p.main.set p.ulen e)).main.length; rw [write_main, List.length_set]; exact hr
    il := h.il
    cl := h.cl
    bz := by
      intro i n b
      show i < n ∧ n ≤ (p.write (p.main.set p.ulen e)).shadow.length ∧ _
      rw [write_shadow h.two]
      exact h.bz i n b
    uniq := h.uniq
    fresh := by
      show (p.table.map (·.2) ++ (({ p.write (p.main.set p.ulen e) with ulen := p.ulen + 1, fds := fds, refs := refs } : Pipe).taken ++
        ({ p.write (p.main.set p.ulen e) with ulen := p.ulen + 1, fds := fds, refs := refs } : Pipe).logged).filterMap sockOf).Nodup
      rw [htk, hl, hfm, ← List.append_assoc]
      refine List.Nodup.append h.fresh ?_ ?_
      · cases e.s with
        | none => exact List.nodup_nil
        | some s => exact List.nodup_singleton s
      · cases hs : e.s with
        | none => intro a _ hb; cases hb
        | some s =>
          intro a ha hb
          simp only [Option.toList, List.mem_singleton] at hb
          subst hb
          exact hnew a hs ha
    fdu := hfd
    out := by
      refine ⟨t', ?_, change_keys c1 htn, c2⟩
      show changes p.table _ = some t'
      rw [htk, hl, ← List.append_assoc, changes_append, ho]
      show (change t e).bind _ = _
      rw [c1]; rfl
    ep := h.ep
    refs := by
      intro s
      show refs s = (((fds.map (·.2)).count s + ((({ p.write (p.main.set p.ulen e) with ulen := p.ulen + 1, fds := fds, refs := refs } : Pipe).taken ++
        ({ p.write (p.main.set p.ulen e) with ulen := p.ulen + 1, fds := fds, refs := refs } : Pipe).logged).filterMap sockOf).count s
        + (p.table.map (·.2)).count s : Nat) : Int)
      rw [htk, hl, hfm, href s, h.refs s, List.count_append]
      unfold Pipe.held
      omega }

theorem mem_socks_of_refs {p : Pipe} (h : PInv p) {s : Nat} (z : p.refs s = 0) : s ∉ p.socks := by
  have := h.refs s
  rw [z] at this
  have hz : p.held s = 0 := by omega
  unfold Pipe.held at hz
  unfold Pipe.socks
  rw [List.mem_append, not_or]
  exact ⟨List.count_eq_zero.1 (by omega), List.count_eq_zero.1 (by omega)⟩

theorem filter_none {l : List (Nat × Nat)} {u : Nat} (h : u ∉ l.map (·.1)) : l.filter (fun x => x.1 != u) = l := by
  rw [List.filter_eq_self]
  intro x hx
  rw [bne_iff_ne]
  intro e
  exact h (e ▸ List.mem_map_of_mem hx)

theorem filter_count {l : List (Nat × Nat)} {u o : Nat} (h : (l.map (·.1)).Nodup) (m : (u, o) ∈ l) (s : Nat) :
    ((l.filter fun x => x.1 != u).map (·.2)).count s + (if s = o then 1 else 0) = (l.map (·.2)).count s := by
  induction l with
  | nil => cases m
  | cons a as ih =>
    simp only [List.map_cons, List.nodup_cons] at h
    rw [List.mem_cons] at m
    rcases m with m | m
    · subst m
      rw [List.filter_cons_of_neg (by simp), filter_none h.1, List.map_cons, List.count_cons]
      by_cases e : s = o
      · subst e; simp
      · have e' : ¬ o = s := fun h => e h.symm
        simp [e, e']
    · have : a.1 ≠ u := by
        intro e
        apply h.1
        rw [e]
        exact List.mem_map_of_mem (f := (·.1)) m
      rw [List.filter_cons_of_pos (by simpa using this), List.map_cons, List.count_cons, List.map_cons, List.count_cons]
      have := ih h.2 m
      omega

theorem filter_keys {l : List (Nat × Nat)} (u : Nat) (h : (l.map (·.1)).Nodup) : ((l.filter fun x => x.1 != u).map (·.1)).Nodup :=
  h.sublist (List.Sublist.map _ List.filter_sublist)

theorem set_keys {l : List (Nat × Nat)} (u s : Nat) (h : (l.map (·.1)).Nodup) :
    (((l.filter fun x => x.1 != u) ++ [(u, s)]).map (·.1)).Nodup := by
  rw [List.map_append]
  refine List.Nodup.append (filter_keys u h) (List.nodup_singleton _) ?_
  intro a ha hb
  simp only [List.map_cons, List.map_nil, List.mem_singleton] at hb
  subst hb
  rw [List.mem_map] at ha
  obtain ⟨x, hx, e⟩ := ha
  rw [List.mem_filter] at hx
  simp [e] at hx

theorem keys_iff {t l : List (Nat × Nat)} (h : ∀ x, x ∈ t ↔ x ∈ l) (u : Nat) : u ∈ t.map (·.1) ↔ u ∈ l.map (·.1) := by
  simp only [List.mem_map, h]

/-- `append` and `update` for a pipe with room. -/
structure Kept (p q : Pipe) : Prop where
  inv : PInv q
  table : q.table = p.table
  taken : q.taken = p.taken
  busy : q.busy = p.busy

theorem pappend_inv {p : Pipe} (h : PInv p) (hr : p.ulen < p.main.length) {u s : Nat} (hn : fdOf p u = none) (hz : p.refs s = 0) :
    ∃ q, pappend p u s = .ok q ∧ Kept p q ∧ q.fds = p.fds ++ [(u, s)] := by
  rw [fdOf_none] at hn
  have hfil := filter_none hn
  have hr' : (setFd p u s).ulen < (setFd p u s).main.length := hr
  unfold pappend record
  rw [if_pos hr']
  refine ⟨_, rfl, ⟨?_, rfl, write_taken (p := setFd p u s) h.two _, rfl⟩, by show p.fds.filter _ ++ _ = _; rw [hfil]⟩
  have := log_inv h hr ⟨.add, u, some s⟩ ((p.fds.filter fun x => x.1 != u) ++ [(u, s)]) (bump (bump p.refs s 1) s 1) (set_keys u s h.fdu)
    ?_ ?_ ?_
  · exact this
  · intro t ht
    refine ⟨t ++ [(u, s)], ?_, ?_⟩
    · unfold change
      simp only
      rw [if_neg (by rw [keys_iff ht]; exact hn)]
    · intro x
      rw [hfil, List.mem_append, List.mem_append, ht]
  · intro x hx
    cases hx
    exact mem_socks_of_refs h hz
  · intro x
    rw [hfil, List.map_append, List.count_append]
    unfold bump
    simp only [Option.toList, List.map_cons, List.map_nil, List.count_cons, List.count_nil, beq_iff_eq]
    by_cases e : x = s
    · subst e
      rw [if_pos rfl, if_pos rfl, if_pos rfl]
      omega
    · have e' : ¬ s = x := fun h => e h.symm
      rw [if_neg e, if_neg e, if_neg e']
      omega

theorem pupdate_inv {p : Pipe} (h : PInv p) (hr : p.ulen < p.main.length) {u s : Nat} (hz : p.refs s = 0) :
    ∃ q, pupdate p u s = .ok q ∧ Kept p q ∧ q.fds = (p.fds.filter fun x => x.1 != u) ++ [(u, s)] := by
  unfold pupdate
  cases ho : fdOf p u with
  | none =>
    obtain ⟨q, h1, h2, h3⟩ := pappend_inv h hr ho hz
    refine ⟨q, h1, h2, ?_⟩
    rw [fdOf_none] at ho
    rw [h3, filter_none ho]
  | some o =>
    have hm := (fdOf_iff h.fdu u o).1 ho
    have hr' : (setFd p u s).ulen < (setFd p u s).main.length := hr
    simp only
    unfold record
    rw [if_pos hr']
    simp only
    refine ⟨_, rfl, ⟨?_, rfl, write_taken (p := setFd p u s) h.two _, rfl⟩, rfl⟩
    have := log_inv h hr ⟨.upd, u, some s⟩ ((p.fds.filter fun x => x.1 != u) ++ [(u, s)]) (bump (bump (bump p.refs s 1) s 1) o (-1)) (set_keys u s h.fdu)
      ?_ ?_ ?_
    · exact this
    · intro t ht
      have hk : u ∈ t.map (·.1) := by
        rw [keys_iff ht, List.mem_map]; exact ⟨_, hm, rfl⟩
      refine ⟨t.map fun x => if x.1 = u then (x.1, s) else x, ?_, ?_⟩
      · unfold change
        simp only
        rw [if_pos hk]
      · intro x
        rw [List.mem_append, List.mem_filter, List.mem_map, List.mem_singleton]
        constructor
        · rintro ⟨y, hy, rfl⟩
          by_cases e : y.1 = u
          · rw [if_pos e, e]; exact Or.inr rfl
          · rw [if_neg e]; exact Or.inl ⟨(ht y).1 hy, by simpa using e⟩
        · rintro (⟨h1, h2⟩ | rfl)
          · have : x.1 ≠ u := by simpa using h2
            exact ⟨x, (ht x).2 h1, by rw [if_neg this]⟩
          · exact ⟨(u, o), (ht _).2 hm, by rw [if_pos rfl]⟩
    · intro x hx
      cases hx
      exact mem_socks_of_refs h hz
    · intro x
      have hc := filter_count h.fdu hm x
      rw [List.map_append, List.count_append]
      unfold bump
      simp only [Option.toList, List.map_cons, List.map_nil, List.count_cons, List.count_nil, beq_iff_eq]
      by_cases e : x = s
      · subst e
        by_cases e2 : x = o
        · subst e2
          rw [if_pos rfl] at hc
          rw [if_pos rfl, if_pos rfl, if_pos rfl, if_pos rfl]
          omega
        · rw [if_neg e2] at hc
          rw [if_pos rfl, if_neg e2, if_pos rfl, if_pos rfl]
          omega
      · have e' : ¬ s = x := fun h => e h.symm
        rw [if_neg e, if_neg e, if_neg e']
        by_cases e2 : x = o
        · rw [if_pos e2] at hc
          rw [if_pos e2]
          omega
        · rw [if_neg e2] at hc
          rw [if_neg e2]
          omega

theorem clear_record {p : Pipe} {u : Nat} {q : Pipe} (h : record p ⟨.del, u, none⟩ = .ok q) : q.fds = p.fds ∧ q.refs = p.refs := by
  unfold record at h
  split at h
  · cases h; exact ⟨rfl, rfl⟩
  · cases h

/-- `remove` for a pipe, with the loss of the socket. -/
theorem premove_inv {p : Pipe} (h : PInv p) {u : Nat} (hr : fdOf p u ≠ none → p.ulen < p.main.length) :
    ∃ q, premove p u = .ok q ∧ Kept p (clear q u) ∧ (clear q u).fds = p.fds.filter fun x => x.1 != u := by
  unfold premove
  cases ho : fdOf p u with
  | none =>
    refine ⟨p, rfl, ?_, ?_⟩
    · unfold clear
      rw [ho]
      exact ⟨h, rfl, rfl, rfl⟩
    · unfold clear
      rw [ho]
      rw [fdOf_none] at ho
      exact (filter_none ho).symm
  | some o =>
    have hr' := hr (by rw [ho]; simp)
    have hm := (fdOf_iff h.fdu u o).1 ho
    simp only
    unfold record
    rw [if_pos hr']
    have ho' : fdOf { p.write (p.main.set p.ulen ⟨.del, u, none⟩) with ulen := p.ulen + 1, refs := p.refs } u = some o := ho
    refine ⟨_, rfl, ?_, ?_⟩
    · unfold clear
      simp only
      rw [ho']
      simp only
      refine ⟨?_, rfl, write_taken h.two _, rfl⟩
      have := log_inv h hr' ⟨.del, u, none⟩ (p.fds.filter fun x => x.1 != u) (bump p.refs o (-1)) (filter_keys u h.fdu) ?_ ?_ ?_
      · exact this
      · intro t ht
        have hk : u ∈ t.map (·.1) := by
          rw [keys_iff ht, List.mem_map]; exact ⟨_, hm, rfl⟩
        refine ⟨t.filter fun x => x.1 != u, ?_, ?_⟩
        · unfold change
          simp only
          rw [if_pos hk]
        · intro x
          rw [List.mem_filter, List.mem_filter, ht]
      · intro x hx; cases hx
      · intro x
        have hc := filter_count h.fdu hm x
        unfold bump
        simp only [Option.toList, List.count_nil]
        by_cases e : x = o
        · rw [if_pos e] at hc
          rw [if_pos e]
          omega
        · rw [if_neg e] at hc
          rw [if_neg e]
          omega
    · unfold clear
      simp only
      rw [ho']
      rfl

end Verif.Sinfo
