import Verif.Tset.Step

/-!
# C64: names of notification targets

For every list of names given at start, every sequence of commands that name targets, every resolver and every answer
of the allocator.  False without restriction: see `Cases.lean`.
-/

namespace Verif.Tset

variable {lib : Bool} {res : Bytes → Option Nat}

/-- **C64**: a documented name is accepted if there is room for it, and one entry is added, after the others, that is
what the name says.  A name that is refused leaves the set as it was. -/
theorem C64_accepted {s : Bytes} {m : Meaning} (hm : Means lib res s m) (t : St) :
    (∀ d, m = .to d → t.tps.length < 64 →
      append lib res true true s t = ({ t with tps := t.tps ++ [⟨some (canon lib s), d, none⟩] }, true)) ∧
    (∀ p, m = .self p → t.wps.length < 2 →
      append lib res true true s t = ({ t with wps := t.wps ++ [⟨s, p⟩] }, true)) := by
  refine ⟨fun d e hl => ?_, fun p e hl => ?_⟩ <;> subst e <;> unfold append <;> rw [parse_means hm] <;>
    simp [entry] <;> omega

theorem C64_refused (m1 m2 : Bool) (s : Bytes) (t : St) (h : (append lib res m1 m2 s t).2 = false) :
    (append lib res m1 m2 s t).1 = t := by
  unfold append at h ⊢
  split
  · rfl
  · rename_i e
    rw [e] at h
    revert h
    simp only
    (repeat' split) <;> simp
  · rename_i e
    rw [e] at h
    revert h
    simp only
    (repeat' split) <;> simp

/-- **C64**: no history of options and commands makes the code abort or read outside a name; there are never more than
64 targets and two wildcards. -/
theorem C64_safe (evs : List Ev) :
    ∃ t as, run lib res {} evs = .ok (t, as) ∧ t.tps.length ≤ 64 ∧ t.wps.length ≤ 2 := by
  obtain ⟨t, as, e, h, -⟩ := run_inv (Inv.zero lib res) evs
  exact ⟨t, as, e, h.l64, h.l2⟩

theorem inv_of_run {evs : List Ev} {t : St} {as : List Ans} (hr : run lib res {} evs = .ok (t, as)) :
    Inv lib res (accepted evs as) t := by
  obtain ⟨t', as', e, h, -⟩ := run_inv (Inv.zero lib res) evs
  rw [hr] at e
  injection e with e
  injection e with e1 e2
  subst e1 e2
  simpa using h

/-- **C64**: a target stays what it is, and where it is, whatever happens later. -/
theorem C64_stable {evs evs' : List Ev} {t t' : St} {as as' : List Ans} (hr : run lib res {} evs = .ok (t, as))
    (hr' : run lib res t evs' = .ok (t', as')) (h : Nat) (x : Target) (hx : t.tps[h]? = some x) :
    t'.tps[h]? = some x := by
  obtain ⟨t'', as'', e, -, hp⟩ := run_inv (inv_of_run hr) evs'
  rw [hr'] at e
  injection e with e
  injection e with e1 e2
  subst e1
  obtain ⟨l, hl⟩ := hp
  rw [← hl, List.getElem?_append_left (List.getElem?_eq_some_iff.1 hx).1]
  exact hx

/-- **C64** (names): among the names accepted so far let `c` be the first one with its full form.  Then every name with
the same full form selects what `c` stands for, and nothing changes.  Missing: names with a colon but
no prefix (`C64_colon_counterexample`). -/
theorem C64_named_partial {evs : List Ev} {t : St} {as : List Ans} (hr : run lib res {} evs = .ok (t, as))
    {pre post : List Bytes} {c : Bytes} {d : Dest} (hacc : accepted evs as = pre ++ c :: post)
    (hfirst : ∀ c' ∈ pre, canon lib c' ≠ canon lib c) (hm : Means lib res c (.to d))
    {n : Bytes} (hn : canon lib n = canon lib c) (hp : Prefixed lib n ∨ 58 ∉ n)
    (cc la : Option Sa) (m1 m2 : Bool) :
    ∃ h, lookup n cc la m1 m2 t = .ok (t, some h) ∧ t.tps[h]? = some ⟨some (canon lib c), d, none⟩ := by
  have hi := inv_of_run hr
  rw [hacc] at hi
  have hpc : parse lib res c = .target (canon lib c) d := parse_means hm
  have hac : asTarget lib res c = some (canon lib c, d) := by unfold asTarget; rw [hpc]
  have hfind : (named t.tps).find? (fun y => decide (y.1 = canon lib c)) = some (canon lib c, d) := by
    rw [hi.tps, List.filterMap_append, List.filterMap_cons, hac, List.find?_append, Option.or_eq_some_iff]
    refine .inr ⟨?_, by simp⟩
    rw [List.find?_eq_none]
    intro y hy
    obtain ⟨c', hc', e⟩ := List.mem_filterMap.1 hy
    unfold asTarget at e
    split at e
    · rename_i n' d' hp'
      injection e with e
      subst e
      rw [(parse_target hp').1]
      simpa using hfirst c' hc'
    · cases e
  have hname : ∃ h, findName (canon lib c) t.tps 0 = some h ∧ t.tps[h]? = some ⟨some (canon lib c), d, none⟩ := by
    cases hf : findName (canon lib c) t.tps 0 with
    | none =>
      have := findName_none.1 hf (canon lib c, d) (List.mem_of_find?_eq_some hfind)
      exact absurd rfl this
    | some h =>
      obtain ⟨k, x, e1, e2, e3, e4⟩ := findName_some hf
      rw [hfind] at e4
      injection e4 with e4
      injection e4 with _ e5
      have hk : k = h := by omega
      subst hk
      refine ⟨k, rfl, ?_⟩
      rw [e2]
      have := hi.src x (List.mem_of_getElem? e2) (by rw [e3]; simp)
      cases x
      simp only at e3 e5 this
      rw [e3, e5, this]
  obtain ⟨h, h1, h2⟩ := hname
  refine ⟨h, ?_, h2⟩
  by_cases hpn : Prefixed lib n
  · rw [canon_pre hpn] at hn
    rw [← hn] at h1
    exact lookup_named h1
  · have hc : (58 : UInt8) ∉ n := hp.resolve_left hpn
    have h0 : findName n t.tps 0 = none := by
      refine findName_none.2 (fun y hy e => hpn ?_)
      rw [hi.tps] at hy
      obtain ⟨c', -, e'⟩ := List.mem_filterMap.1 hy
      unfold asTarget at e'
      split at e'
      · rename_i n' d' hp'
        injection e' with e'
        subst e'
        rw [← e, (parse_target hp').1]
        exact canon_prefixed lib c'
      · cases e'
    rw [canon_bare hpn] at hn
    unfold lookup
    rw [h0]
    simp only
    rw [if_pos (by simpa using hc), hi.bare, hn, h1]

/-- **C64** (other names): a name that was not accepted at start in any form selects nothing, and nothing changes. -/
theorem C64_unknown {evs : List Ev} {t : St} {as : List Ans} (hr : run lib res {} evs = .ok (t, as))
    {n : Bytes} (hn : ∀ c ∈ accepted evs as, canon lib c ≠ canon lib n) (cc la : Option Sa) (m1 m2 : Bool) :
    lookup n cc la m1 m2 t = .ok (t, none) := by
  have hi := inv_of_run hr
  have hno : ∀ m, canon lib m = canon lib n → Prefixed lib m → findName m t.tps 0 = none := by
    intro m hm hpm
    refine findName_none.2 (fun y hy e => ?_)
    rw [hi.tps] at hy
    obtain ⟨c', hc', e'⟩ := List.mem_filterMap.1 hy
    unfold asTarget at e'
    split at e'
    · rename_i n' d' hp'
      injection e' with e'
      subst e'
      simp only at e
      refine hn c' hc' ?_
      rw [← hm, ← e, (parse_target hp').1, canon_canon]
    · cases e'
  have h0 : findName n t.tps 0 = none := by
    by_cases hp : Prefixed lib n
    · exact hno n rfl hp
    · refine findName_none.2 (fun y hy e => hp ?_)
      rw [hi.tps] at hy
      obtain ⟨c', -, e'⟩ := List.mem_filterMap.1 hy
      unfold asTarget at e'
      split at e'
      · rename_i n' d' hp'
        injection e' with e'
        subst e'
        rw [← e, (parse_target hp').1]
        exact canon_prefixed lib c'
      · cases e'
  by_cases hc : (58 : UInt8) ∈ n
  · by_cases hf : fdP <+: n
    · unfold lookup
      rw [h0]
      simp only
      rw [if_neg (by simpa using hc), if_pos ((isPrefixOf_iff _ _).2 hf)]
    · rw [lookup_wild h0 (by simpa using hc) hf]
      refine byWild_none (fun w hw e => ?_)
      exact hn w.name (hi.wild hw).1 (by rw [e])
  · have hp : ¬ Prefixed lib n := by
      rintro (⟨a, rfl⟩ | ⟨a, rfl⟩ | ⟨-, a, rfl⟩)
      · simp [unixP] at hc
      · simp [tcpP] at hc
      · simp [fdP] at hc
    unfold lookup
    rw [h0]
    simp only
    rw [if_pos (by simpa using hc), hi.bare,
      hno (unixP ++ n) (by rw [← canon_bare hp, canon_canon]) (.inl ⟨n, rfl⟩)]

/-- **C64** (the host of the controller): the name `tcp:%%CC_SELF%%:port` selects an automatic target with the host of the
command and that port.  If there is none it is made, with the address the command was received at as its own; it is missing only if
all 64 are in use. -/
theorem C64_self {evs : List Ev} {t : St} {as : List Ans} (hr : run lib res {} evs = .ok (t, as))
    {c : Bytes} {port : Nat} (hc : c ∈ accepted evs as) (hm : Means lib res c (.self port)) (cc la : Option Sa) :
    (∃ h x, lookup c cc la true true t = .ok (t, some h) ∧ t.tps[h]? = some x ∧ x.name = none ∧
      x.dest = .inet (from4 cc) port) ∨
    ((∀ x ∈ t.tps, x.name = none → x.dest ≠ .inet (from4 cc) port) ∧ t.tps.length < 64 ∧
      lookup c cc la true true t =
        .ok ({ t with tps := t.tps ++ [⟨none, .inet (from4 cc) port, at4 la⟩] }, some t.tps.length)) ∨
    ((∀ x ∈ t.tps, x.name = none → x.dest ≠ .inet (from4 cc) port) ∧ t.tps.length = 64 ∧
      lookup c cc la true true t = .ok (t, none)) := by
  have hi := inv_of_run hr
  have hpc : parse lib res c = .wild c port := parse_means hm
  have ht : tcpP <+: c := (parse_wild hpc).2.1
  have h0 : findName c t.tps 0 = none := by
    refine findName_none.2 (fun y hy e => ?_)
    rw [hi.tps] at hy
    obtain ⟨c', -, e'⟩ := List.mem_filterMap.1 hy
    unfold asTarget at e'
    split at e'
    · rename_i n' d' hp'
      injection e' with e'
      subst e'
      simp only at e
      have e2 := (parse_target hp').1
      rw [e] at e2
      have : c' = c := by
        by_cases hp : Prefixed lib c'
        · rw [canon_pre hp] at e2; exact e2.symm
        · rw [canon_bare hp] at e2
          exact absurd ⟨c', e2.symm⟩ (not_unix_tcp ht)
      rw [this, hpc] at hp'
      cases hp'
    · cases e'
  have hcol : c.contains 58 = true := by
    obtain ⟨a, rfl⟩ := ht
    simp [tcpP]
  have hfd : ¬ fdP <+: c := fun h => not_tcp_fd h ht
  rw [lookup_wild h0 hcol hfd]
  have hw : ∃ w ∈ t.wps, w.name = c := by
    refine ⟨⟨c, port⟩, ?_, rfl⟩
    rw [hi.wps]
    exact List.mem_filterMap.2 ⟨c, hc, by unfold asWild; rw [hpc]⟩
  obtain ⟨w, hw1, hw2⟩ := hw
  obtain ⟨w', hw1', hw2', e⟩ := byWild_some (cc := cc) (la := la) (m1 := true) (m2 := true) hw1 hw2
  have hport : w'.port = port := by
    have := (hi.wild hw1').2.1
    rw [hw2', hpc] at this
    injection this with _ e
    exact e.symm
  have hfrom : ccHost cc = from4 cc := by
    unfold ccHost from4 loopback
    rcases cc with _ | ⟨_ | _ | _⟩ <;> rfl
  obtain ⟨t', r, e', g⟩ := getTp4wp_got (cc := cc) (la := la) (m1 := true) (m2 := true) (hi.wild hw1').2.2.2 hi.l64
  rw [e, e']
  have hnot : Dest.inet (ccHost cc) w'.port ∉ autos t.tps →
      ∀ x ∈ t.tps, x.name = none → x.dest ≠ .inet (from4 cc) port := by
    intro h x hx hn hd
    refine h (List.mem_map.2 ⟨x, List.mem_filter.2 ⟨hx, by rw [hn]; rfl⟩, ?_⟩)
    rw [hd, hfrom, hport]
  cases g with
  | old h hn hd => exact .inl ⟨_, _, rfl, h, hn, by rw [hd, hfrom, hport]⟩
  | no h hr' =>
    rcases hr' with h64 | h | h
    · exact .inr (.inr ⟨hnot h, h64, rfl⟩)
    · cases h
    · cases h
  | new src hs h hl =>
    refine .inr (.inl ⟨hnot h, hl, ?_⟩)
    rw [hfrom, hport, hs]

/-- **C64** (the host of the controller): however many commands and however far apart, two of them get the same target exactly
if they come from the same host and name the same port. -/
theorem C64_distinct {evs evs' : List Ev} {t t1 t2 t3 : St} {as as' : List Ans}
    (hr : run lib res {} evs = .ok (t, as)) {c1 c2 : Bytes} {p1 p2 h1 h2 : Nat}
    (hc1 : c1 ∈ accepted evs as) (hm1 : Means lib res c1 (.self p1))
    (hc2 : c2 ∈ accepted evs as) (hm2 : Means lib res c2 (.self p2))
    (cc1 la1 cc2 la2 : Option Sa)
    (hl1 : lookup c1 cc1 la1 true true t = .ok (t1, some h1))
    (hr' : run lib res t1 evs' = .ok (t2, as'))
    (hl2 : lookup c2 cc2 la2 true true t2 = .ok (t3, some h2)) :
    h1 = h2 ↔ (from4 cc1 = from4 cc2 ∧ p1 = p2) := by
  -- what the first command got
  have hg1 : ∃ x, t1.tps[h1]? = some x ∧ x.name = none ∧ x.dest = .inet (from4 cc1) p1 := by
    rcases C64_self hr hc1 hm1 cc1 la1 with ⟨h, x, e, a, b, c⟩ | ⟨-, -, e⟩ | ⟨-, -, e⟩ <;> rw [hl1] at e
    · injection e with e; injection e with e1 e2; injection e2 with e2; subst e1 e2; exact ⟨x, a, b, c⟩
    · injection e with e; injection e with e1 e2; injection e2 with e2; subst e1 e2
      exact ⟨⟨none, .inet (from4 cc1) p1, at4 la1⟩, by simp, rfl, rfl⟩
    · injection e with e; injection e with _ e2; cases e2
  -- the history up to the second command
  have hall : ∃ as2, run lib res {} (evs ++ .ask c1 cc1 la1 true true :: evs') = .ok (t2, as2) ∧
      ∀ c ∈ accepted evs as, c ∈ accepted (evs ++ .ask c1 cc1 la1 true true :: evs') as2 := by
    have key : ∀ (evs : List Ev) (s : St) (as : List Ans), run lib res s evs = .ok (t, as) →
        ∃ as2, run lib res s (evs ++ .ask c1 cc1 la1 true true :: evs') = .ok (t2, as2) ∧
          ∀ c ∈ accepted evs as, c ∈ accepted (evs ++ .ask c1 cc1 la1 true true :: evs') as2 := by
      intro evs
      induction evs with
      | nil =>
        intro s as h
        unfold run at h
        injection h with h
        injection h with e1 e2
        subst e1 e2
        refine ⟨.found (some h1) :: as', ?_, by simp [accepted]⟩
        rw [List.nil_append]
        unfold run step
        simp only
        rw [hl1]
        simp only
        rw [hr']
      | cons e es ih =>
        intro s as h
        unfold run at h
        cases hs : step lib res s e with
        | error f => rw [hs] at h; cases h
        | ok p =>
          rw [hs] at h
          simp only at h
          cases hs2 : run lib res p.1 es with
          | error f => rw [hs2] at h; cases h
          | ok q =>
            rw [hs2] at h
            injection h with h
            injection h with e1 e2
            subst e1 e2
            obtain ⟨as2, e3, e4⟩ := ih p.1 q.2 hs2
            refine ⟨p.2 :: as2, ?_, ?_⟩
            · rw [List.cons_append]
              unfold run
              rw [hs]
              simp only
              rw [e3]
            · intro c hc
              rw [List.cons_append]
              cases e with
              | ask n cc la m1 m2 => simp only [accepted] at hc ⊢; exact e4 c hc
              | conf s' m1 m2 =>
                cases hp2 : p.2 with
                | found r => rw [hp2] at hc; simp only [accepted] at hc ⊢; exact e4 c hc
                | took b =>
                  rw [hp2] at hc
                  cases b with
                  | false => simp only [accepted] at hc ⊢; exact e4 c hc
                  | true =>
                    simp only [accepted, List.mem_cons] at hc ⊢
                    exact hc.imp_right (e4 c)
    exact key evs {} as hr
  obtain ⟨as2, hrun2, hsub⟩ := hall
  have hi2 := inv_of_run hrun2
  have hst : ∃ x, t3.tps[h1]? = some x ∧ x.name = none ∧ x.dest = .inet (from4 cc1) p1 := by
    obtain ⟨x, a, b⟩ := hg1
    have hi1 : Inv lib res (accepted evs as) t1 := by
      obtain ⟨t', r, e, h, -⟩ := lookup_inv (inv_of_run hr) c1 cc1 la1 true true
      rw [hl1] at e; injection e with e; injection e with e1 _; subst e1; exact h
    obtain ⟨t', as3, e, -, p1⟩ := run_inv hi1 evs'
    rw [hr'] at e; injection e with e; injection e with e1 _; subst e1
    obtain ⟨t'', r, e, -, p2⟩ := lookup_inv hi2 c2 cc2 la2 true true
    rw [hl2] at e; injection e with e; injection e with e1 _; subst e1
    obtain ⟨l, hl⟩ := p1.trans p2
    exact ⟨x, by rw [← hl, List.getElem?_append_left (List.getElem?_eq_some_iff.1 a).1]; exact a, b⟩
  have hg2 : ∃ x, t3.tps[h2]? = some x ∧ x.name = none ∧ x.dest = .inet (from4 cc2) p2 := by
    rcases C64_self hrun2 (hsub c2 hc2) hm2 cc2 la2 with ⟨h, x, e, a, b, c⟩ | ⟨-, -, e⟩ | ⟨-, -, e⟩ <;> rw [hl2] at e
    · injection e with e; injection e with e1 e2; injection e2 with e2; subst e1 e2; exact ⟨x, a, b, c⟩
    · injection e with e; injection e with e1 e2; injection e2 with e2; subst e1 e2
      exact ⟨⟨none, .inet (from4 cc2) p2, at4 la2⟩, by simp, rfl, rfl⟩
    · injection e with e; injection e with _ e2; cases e2
  have hi3 : Inv lib res (accepted (evs ++ .ask c1 cc1 la1 true true :: evs') as2) t3 := by
    obtain ⟨t', r, e, h, -⟩ := lookup_inv hi2 c2 cc2 la2 true true
    rw [hl2] at e; injection e with e; injection e with e1 _; subst e1; exact h
  obtain ⟨x1, a1, b1, d1⟩ := hst
  obtain ⟨x2, a2, b2, d2⟩ := hg2
  constructor
  · intro e
    subst e
    rw [a1] at a2
    injection a2 with a2
    subst a2
    rw [d1] at d2
    injection d2 with e1 e2
    exact ⟨e1, e2⟩
  · rintro ⟨e1, e2⟩
    have hd : x1.dest = x2.dest := by rw [d1, d2, e1, e2]
    exact autos_inj hi3.once a1 a2 b1 b2 hd

/-- **C64**: notifications count as permitted (commands may name a target) exactly if some name was accepted. -/
theorem C64_enabled {evs : List Ev} {t : St} {as : List Ans} (hr : run lib res {} evs = .ok (t, as)) :
    isEnabled t = true ↔ accepted evs as ≠ [] := by
  have hi := inv_of_run hr
  unfold isEnabled
  simp only [decide_eq_true_eq, gt_iff_lt]
  constructor
  · rintro h e
    have hw : t.wps = [] := by rw [hi.wps, e]; rfl
    have hn : named t.tps = [] := by rw [hi.tps, e]; rfl
    rcases h with h | h
    · rw [hw] at h; simp at h
    · obtain ⟨x, hx⟩ := List.exists_mem_of_length_pos h
      cases hxn : x.name with
      | none => exact hi.frm x hx hxn hw
      | some n =>
        have : (n, x.dest) ∈ named t.tps := List.mem_filterMap.2 ⟨x, hx, by rw [hxn]; rfl⟩
        rw [hn] at this
        cases this
  · intro h
    obtain ⟨c, hc⟩ := List.exists_mem_of_ne_nil _ h
    have hb := hi.ok c hc
    cases hp : parse lib res c with
    | bad => exact absurd hp hb
    | target n d =>
      refine .inr ?_
      have : (n, d) ∈ named t.tps := by
        rw [hi.tps]
        exact List.mem_filterMap.2 ⟨c, hc, by unfold asTarget; rw [hp]⟩
      obtain ⟨x, hx, -⟩ := List.mem_filterMap.1 this
      exact List.length_pos_of_mem hx
    | wild n p =>
      refine .inl ?_
      have : (⟨n, p⟩ : Wild) ∈ t.wps := by
        rw [hi.wps]
        exact List.mem_filterMap.2 ⟨c, hc, by unfold asWild; rw [hp]⟩
      exact List.length_pos_of_mem this

end Verif.Tset
