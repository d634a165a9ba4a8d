import Verif.Analyze.Props

/-!
# C12: jitter bookkeeping is bounded and keyed by SSRC
-/

namespace Verif.Analyze
variable {J : Type}

/-- A packet on its way to the records of jitter: the hint comes from the sequence numbers. -/
abbrev Arr := Pkt × Hint

/-- What a packet does to the record it is given to. -/
def app (fl : Fl J) (d : Jdata J) (x : Arr) : Jdata J := if x.1.rated then updateJ fl d x.1 x.2 else d

/-- What a packet does to the list of records. -/
def jstep (fl : Fl J) (jp : Jit J) (x : Arr) : Except Fault (Jit J) :=
  match bySsrc fl jp x.1.ssrc x.1.oom with
  | .error e => .error e
  | .ok (jp, none) => .ok jp
  | .ok (jp, some i) => .ok { jp with list := jp.list.modify i (app fl · x) }

def jrun (fl : Fl J) : Jit J → List Arr → Except Fault (Jit J)
  | jp, [] => .ok jp
  | jp, x :: xs =>
    match jstep fl jp x with
    | .error e => .error e
    | .ok jp => jrun fl jp xs

/-- The analyzer does with the records what `jstep` does, for the hint it computes. -/
theorem analyze_jit (fl : Fl J) (a a' : An J) (p : Pkt) (h : analyze fl a (some p) = .ok a') :
    jstep fl a.jit (p, (updateSeq a.stat p).2.2) = .ok a'.jit := by
  simp only [analyze, update] at h
  unfold jstep
  cases hb : bySsrc fl a.jit p.ssrc p.oom with
  | error e => simp [hb] at h
  | ok x =>
    obtain ⟨jp, o⟩ := x
    rw [hb] at h
    cases o with
    | none => simp only at h ⊢; cases h; rfl
    | some i =>
      simp only at h ⊢
      have hj : (if p.rated then { jp with list := jp.list.modify i (fun d => updateJ fl d p (updateSeq a.stat p).2.2) } else jp) =
          { jp with list := jp.list.modify i (app fl · (p, (updateSeq a.stat p).2.2)) } := by
        cases hr : p.rated with
        | true => simp [app, hr]
        | false =>
          have : (fun d => app fl d (p, (updateSeq a.stat p).2.2)) = id := by funext d; simp [app, hr]
          simp only [Bool.false_eq_true, if_false]
          rw [this]
          simp
      rw [hj] at h
      cases hv : (updateSeq a.stat p).2.1 <;> rw [hv] at h <;> cases h <;> rfl

/-- A whole stream: the records are those of the parsed packets, each with some hint. -/
theorem run_jit (fl : Fl J) : ∀ (ps : List (Option Pkt)) (a a' : An J), run fl a ps = .ok a' →
    ∃ xs : List Arr, xs.map (·.1) = ps.filterMap id ∧ jrun fl a.jit xs = .ok a'.jit
  | [], a, a', h => by cases h; exact ⟨[], rfl, rfl⟩
  | none :: ps, a, a', h => by
    simp only [run, analyze] at h
    obtain ⟨xs, h1, h2⟩ := run_jit fl ps _ a' h
    exact ⟨xs, by simpa using h1, h2⟩
  | some p :: ps, a, a', h => by
    rw [run] at h
    cases ha : analyze fl a (some p) with
    | error e => rw [ha] at h; cases h
    | ok a1 =>
      rw [ha] at h
      obtain ⟨xs, h1, h2⟩ := run_jit fl ps a1 a' h
      refine ⟨(p, (updateSeq a.stat p).2.2) :: xs, by simp [h1], ?_⟩
      rw [jrun, analyze_jit fl a a1 p ha]
      exact h2

/-! ## The list of records -/

@[simp] theorem updateJ_ssrc (fl : Fl J) (d : Jdata J) (p : Pkt) (h : Hint) : (updateJ fl d p h).ssrc = d.ssrc := by
  unfold updateJ
  split
  · rfl
  · split
    · rfl
    · split
      · rfl
      · simp only
        split
        · rfl
        · split <;> rfl

@[simp] theorem app_ssrc (fl : Fl J) (d : Jdata J) (x : Arr) : (app fl d x).ssrc = d.ssrc := by
  unfold app; split <;> simp

/-- A new record of a source. -/
def fresh (fl : Fl J) (s : Nat) : Jdata J := { (Jdata.new fl) with ssrc := some s }

/-- The packets of a source. -/
def Of (s : Nat) (xs : List Arr) : List Arr := xs.filter (fun x => x.1.ssrc == s)

/-- The record holds the packets of its source since some moment, in order, and nothing else. -/
def Holds (fl : Fl J) (done : List Arr) (d : Jdata J) : Prop :=
  ∃ s pre suf, done = pre ++ suf ∧ d = (Of s suf).foldl (app fl) (fresh fl s)

theorem foldl_app_ssrc (fl : Fl J) : ∀ (xs : List Arr) (d : Jdata J), (xs.foldl (app fl) d).ssrc = d.ssrc
  | [], _ => rfl
  | x :: xs, d => by rw [List.foldl_cons, foldl_app_ssrc fl xs]; simp

structure JInv (fl : Fl J) (done : List Arr) (jp : Jit J) : Prop where
  ne : jp.list ≠ []
  len : jp.jdlen = jp.list.length
  max : jp.list.length ≤ 10
  nodup : (jp.list.map (·.ssrc)).Nodup
  holds : (jp.list = [Jdata.new fl] ∧ done = []) ∨ ∀ d ∈ jp.list, Holds fl done d

theorem Holds.ssrc {fl : Fl J} {done : List Arr} {d : Jdata J} (h : Holds fl done d) : ∃ s, d.ssrc = some s := by
  obtain ⟨s, pre, suf, -, rfl⟩ := h
  exact ⟨s, by rw [foldl_app_ssrc]; rfl⟩

/-- A packet of another source does not change the record. -/
theorem Holds.other {fl : Fl J} {done : List Arr} {d : Jdata J} (h : Holds fl done d) {x : Arr} (hs : d.ssrc ≠ some x.1.ssrc) :
    Holds fl (done ++ [x]) d := by
  obtain ⟨s, pre, suf, rfl, rfl⟩ := h
  rw [foldl_app_ssrc] at hs
  refine ⟨s, pre, suf ++ [x], by simp, ?_⟩
  have hne : x.1.ssrc ≠ s := fun h => hs (by rw [h]; rfl)
  simp [Of, List.filter_append, hne]

/-- A packet of the source is entered. -/
theorem Holds.own {fl : Fl J} {done : List Arr} {d : Jdata J} (h : Holds fl done d) {x : Arr} (hs : d.ssrc = some x.1.ssrc) :
    Holds fl (done ++ [x]) (app fl d x) := by
  obtain ⟨s, pre, suf, rfl, rfl⟩ := h
  rw [foldl_app_ssrc] at hs
  have hxs : x.1.ssrc = s := by cases hs; rfl
  refine ⟨s, pre, suf ++ [x], by simp, ?_⟩
  simp [Of, List.filter_append, hxs, List.foldl_append]

theorem holds_fresh (fl : Fl J) (done : List Arr) (s : Nat) : Holds fl done (fresh fl s) :=
  ⟨s, done, [], by simp, rfl⟩

theorem modify_map {α β : Type} (f : α → β) (g : α → α) (hg : ∀ a, f (g a) = f a) : ∀ (l : List α) (i : Nat),
    (l.modify i g).map f = l.map f
  | [], i => by simp
  | a :: l, 0 => by simp [hg]
  | a :: l, i + 1 => by simp [modify_map f g hg l i]

theorem mem_modify {α : Type} {g : α → α} : ∀ {l : List α} {i : Nat} {a : α}, a ∈ l.modify i g →
    (∃ b, l[i]? = some b ∧ a = g b) ∨ ∃ j, j ≠ i ∧ l[j]? = some a
  | [], i, a, h => by simp at h
  | b :: l, 0, a, h => by
    rw [List.modify_zero_cons] at h
    rcases List.mem_cons.1 h with rfl | h
    · exact .inl ⟨b, by simp, rfl⟩
    · obtain ⟨j, hj, he⟩ := List.mem_iff_getElem.1 h
      exact .inr ⟨j + 1, by omega, by rw [List.getElem?_cons_succ, List.getElem?_eq_getElem hj, he]⟩
  | b :: l, i + 1, a, h => by
    rw [List.modify_succ_cons] at h
    rcases List.mem_cons.1 h with rfl | h
    · exact .inr ⟨0, by omega, by simp⟩
    · rcases mem_modify h with ⟨c, hc, rfl⟩ | ⟨j, hj, he⟩
      · exact .inl ⟨c, by simpa using hc, rfl⟩
      · exact .inr ⟨j + 1, by omega, by simpa using he⟩

/-- The outcome of looking for the record of a source. -/
theorem bySsrc_spec (fl : Fl J) {done : List Arr} {jp : Jit J} (h : JInv fl done jp) (s : Nat) (oom : Bool) :
    ∃ jp' o, bySsrc fl jp s oom = .ok (jp', o) ∧ JInv fl done jp' ∧
      (∀ d ∈ jp'.list, Holds fl done d ∨ o = none) ∧
      (∀ i, o = some i → ∃ d, jp'.list[i]? = some d ∧ d.ssrc = some s) ∧ (o = none → jp' = jp ∧ oom = true ∧
        ∀ d ∈ jp.list, d.ssrc ≠ some s) := by
  obtain ⟨h1, h2, h3, h4, h5⟩ := h
  unfold bySsrc
  cases hl : jp.list with
  | nil => exact absurd hl h1
  | cons first rest =>
    simp only
    rcases h5 with ⟨h5, h6⟩ | h5
    · rw [hl] at h5
      obtain ⟨rfl, rfl⟩ : first = Jdata.new fl ∧ rest = [] := by simpa using h5
      rw [if_pos (show (Jdata.new fl).ssrc = none from rfl)]
      have hf : ({ (Jdata.new fl) with ssrc := some s } : Jdata J) = fresh fl s := rfl
      refine ⟨_, _, rfl, ⟨by simp, ?_, by simp, by simp, ?_⟩, ?_, ?_, by simp⟩
      · simp only [h2, hl]; rfl
      · right; intro d hd; simp only [List.mem_singleton] at hd; subst hd; exact holds_fresh fl _ s
      · intro d hd; simp only [List.mem_singleton] at hd; subst hd; exact .inl (holds_fresh fl _ s)
      · intro i hi; cases hi; exact ⟨_, rfl, rfl⟩
    · obtain ⟨s1, hs1⟩ := (h5 first (by simp [hl])).ssrc
      rw [if_neg (by simp [hs1])]
      cases hf : (first :: rest).findIdx? (fun d => d.ssrc == some s) with
      | some i =>
        simp only
        refine ⟨jp, some i, rfl, ⟨h1, h2, h3, h4, .inr h5⟩, fun d hd => .inl (h5 d hd), ?_, by simp⟩
        intro j hj
        cases hj
        rw [List.findIdx?_eq_some_iff_getElem] at hf
        obtain ⟨hlt, hp, -⟩ := hf
        exact ⟨(first :: rest)[i], by rw [hl, List.getElem?_eq_getElem hlt], by simpa using hp⟩
      | none =>
        simp only
        have hno : ∀ d ∈ jp.list, d.ssrc ≠ some s := by
          intro d hd
          rw [hl] at hd
          rw [List.findIdx?_eq_none_iff] at hf
          simpa using hf d hd
        split
        · rename_i hten
          cases hg : (first :: rest).getLast? with
          | none => simp at hg
          | some last =>
            have hlast : last ∈ jp.list := by rw [hl]; exact List.mem_of_getLast? hg
            have hlist : (recycle fl jp last s).list = fresh fl s :: jp.list.dropLast := by
              unfold recycle
              simp only
              split <;> rfl
            have hlen : (recycle fl jp last s).jdlen = jp.jdlen := by
              unfold recycle
              simp only
              split <;> rfl
            have hlpos : 0 < jp.list.length := by rw [hl]; simp
            refine ⟨_, _, rfl, ⟨?_, ?_, ?_, ?_, ?_⟩, ?_, ?_, by simp⟩
            · rw [hlist]; simp
            · rw [hlist, hlen, h2]
              simp only [List.length_cons, List.length_dropLast]; omega
            · rw [hlist]
              simp only [List.length_cons, List.length_dropLast]; omega
            · rw [hlist]
              simp only [List.map_cons, List.nodup_cons]
              constructor
              · intro hm
                obtain ⟨d, hd, he⟩ := List.mem_map.1 hm
                exact hno d (List.mem_of_mem_dropLast hd) (by rw [he]; rfl)
              · exact List.Nodup.sublist ((List.dropLast_sublist _).map _) h4
            · right
              intro d hd
              rw [hlist] at hd
              rcases List.mem_cons.1 hd with rfl | hd
              · exact holds_fresh fl _ s
              · exact h5 d (List.mem_of_mem_dropLast hd)
            · intro d hd
              rw [hlist] at hd
              rcases List.mem_cons.1 hd with rfl | hd
              · exact .inl (holds_fresh fl _ s)
              · exact .inl (h5 d (List.mem_of_mem_dropLast hd))
            · intro i hi; cases hi; exact ⟨fresh fl s, by rw [hlist]; rfl, rfl⟩
        · rename_i hten
          split
          · rename_i ho
            exact ⟨jp, none, rfl, ⟨h1, h2, h3, h4, .inr h5⟩, fun d hd => .inl (h5 d hd), by simp, fun _ => ⟨rfl, ho, by rw [← hl]; exact hno⟩⟩
          · have hf' : ({ (Jdata.new fl) with ssrc := some s } : Jdata J) = fresh fl s := rfl
            rw [hf', ← hl]
            refine ⟨_, _, rfl, ⟨by simp, ?_, ?_, ?_, ?_⟩, ?_, ?_, by simp⟩
            · simp only [List.length_cons]; omega
            · simp only [List.length_cons]; omega
            · simp only [List.map_cons, List.nodup_cons]
              refine ⟨?_, h4⟩
              intro hm
              obtain ⟨d, hd, he⟩ := List.mem_map.1 hm
              exact hno d hd (by rw [he]; rfl)
            · right
              intro d hd
              rcases List.mem_cons.1 hd with rfl | hd
              · exact holds_fresh fl _ s
              · exact h5 d hd
            · intro d hd
              rcases List.mem_cons.1 hd with rfl | hd
              · exact .inl (holds_fresh fl _ s)
              · exact .inl (h5 d hd)
            · intro i hi; cases hi; exact ⟨fresh fl s, rfl, rfl⟩

theorem jstep_inv (fl : Fl J) {done : List Arr} {jp : Jit J} (h : JInv fl done jp) (x : Arr) :
    ∃ jp', jstep fl jp x = .ok jp' ∧ JInv fl (done ++ [x]) jp' ∧
      (x.1.oom = false → ∃ d ∈ jp'.list, d.ssrc = some x.1.ssrc) := by
  obtain ⟨jp', o, hb, hi, hh, hs, hn⟩ := bySsrc_spec fl h x.1.ssrc x.1.oom
  unfold jstep
  rw [hb]
  cases o with
  | none =>
    obtain ⟨rfl, ho, hno⟩ := hn rfl
    refine ⟨_, rfl, ⟨h.ne, h.len, h.max, h.nodup, ?_⟩, by rw [ho]; simp⟩
    rcases h.holds with ⟨hl, hd⟩ | hd
    · -- the very first packet always finds the initial record
      exfalso
      unfold bySsrc at hb
      rw [hl] at hb
      simp [Jdata.new] at hb
    · right
      intro d hm
      exact (hd d hm).other (hno d hm)
  | some i =>
    obtain ⟨d0, hd0, hs0⟩ := hs i rfl
    have hsame : (jp'.list.modify i (app fl · x)).map (·.ssrc) = jp'.list.map (·.ssrc) :=
      modify_map _ _ (fun a => app_ssrc fl a x) _ _
    have hinj := hi.nodup
    refine ⟨_, rfl, ⟨?_, ?_, ?_, ?_, ?_⟩, ?_⟩
    · intro h0
      have := congrArg List.length h0
      simp only [List.length_modify, List.length_nil, List.length_eq_zero_iff] at this
      exact hi.ne this
    · simp only [List.length_modify]; exact hi.len
    · simp only [List.length_modify]; exact hi.max
    · simp only; rw [hsame]; exact hinj
    · right
      intro d hd
      simp only at hd
      rcases mem_modify hd with ⟨b, hb', rfl⟩ | ⟨j, hj, he⟩
      · rw [hd0] at hb'
        cases hb'
        rcases hh d0 (List.mem_of_getElem? hd0) with hq | hq
        · exact hq.own hs0
        · cases hq
      · rcases hh d (List.mem_of_getElem? he) with hq | hq
        · refine hq.other ?_
          intro heq
          have e1 : (jp'.list.map (·.ssrc))[j]? = some (some x.1.ssrc) := by simp [he, heq]
          have e2 : (jp'.list.map (·.ssrc))[i]? = some (some x.1.ssrc) := by simp [hd0, hs0]
          have hlt : j < (jp'.list.map (·.ssrc)).length := by
            rcases Nat.lt_or_ge j (jp'.list.map (·.ssrc)).length with hlt | hlt
            · exact hlt
            · rw [List.getElem?_eq_none hlt] at e1; cases e1
          exact hj ((List.getElem?_inj hlt hinj).1 (e1.trans e2.symm))
        · cases hq
    · intro _
      refine ⟨app fl d0 x, ?_, by rw [app_ssrc]; exact hs0⟩
      simp only
      apply List.mem_of_getElem? (i := i)
      simp [hd0]

theorem jrun_inv (fl : Fl J) : ∀ (xs done : List Arr) (jp : Jit J), JInv fl done jp →
    ∃ jp', jrun fl jp xs = .ok jp' ∧ JInv fl (done ++ xs) jp'
  | [], done, jp, h => ⟨jp, rfl, by simpa using h⟩
  | x :: xs, done, jp, h => by
    obtain ⟨jp1, h1, h2, -⟩ := jstep_inv fl h x
    obtain ⟨jp2, k1, k2⟩ := jrun_inv fl xs (done ++ [x]) jp1 h2
    exact ⟨jp2, by simp [jrun, h1, k1], by simpa using k2⟩

theorem jinit (fl : Fl J) : JInv fl [] (.init fl) :=
  ⟨by simp [Jit.init], rfl, by simp [Jit.init], by simp [Jit.init], .inl ⟨rfl, rfl⟩⟩

/-! ## C12 -/

/-- At most ten sources are tracked, none twice, whatever arrives. -/
theorem C12_bounded (fl : Fl J) (ps : List (Option Pkt)) (a : An J) (h : run fl (.init fl) ps = .ok a) :
    a.jit.list.length ≤ 10 ∧ (a.jit.list.map (·.ssrc)).Nodup := by
  obtain ⟨xs, -, hx⟩ := run_jit fl ps _ a h
  obtain ⟨jp, h1, h2⟩ := jrun_inv fl xs [] _ (jinit fl)
  have : jp = a.jit := by
    have hx' : jrun fl (.init fl) xs = .ok a.jit := hx
    rw [h1] at hx'; cases hx'; rfl
  subst this
  exact ⟨h2.max, h2.nodup⟩

/-- The record of a source is made of the packets of that source since some moment, all of them in order, and of no
others: nothing is recorded under a foreign SSRC. -/
theorem C12_own (fl : Fl J) (ps : List (Option Pkt)) (a : An J) (h : run fl (.init fl) ps = .ok a) (d : Jdata J)
    (hd : d ∈ a.jit.list) (s : Nat) (hs : d.ssrc = some s) :
    ∃ xs suf : List Arr, xs.map (·.1) = ps.filterMap id ∧ suf <:+ xs ∧ d = (Of s suf).foldl (app fl) (fresh fl s) := by
  obtain ⟨xs, hm, hx⟩ := run_jit fl ps _ a h
  obtain ⟨jp, h1, h2⟩ := jrun_inv fl xs [] _ (jinit fl)
  have : jp = a.jit := by
    have hx' : jrun fl (.init fl) xs = .ok a.jit := hx
    rw [h1] at hx'; cases hx'; rfl
  subst this
  rcases h2.holds with ⟨hl, -⟩ | hh
  · rw [hl] at hd
    simp only [List.mem_singleton] at hd
    subst hd; cases hs
  · obtain ⟨t, pre, suf, he, hdd⟩ := hh d hd
    have hts : t = s := by
      rw [hdd, foldl_app_ssrc] at hs
      cases hs; rfl
    subst hts
    exact ⟨xs, suf, hm, ⟨pre, by simpa using he.symm⟩, hdd⟩

/-- Each packet with a clock rate is counted once in its record: for the jitter, as a repeated time stamp, or as a reset
or jump. -/
def Jss.events (j : Jss J) : Nat := j.pcount + j.dcount + j.rcount + j.tsr + j.tsj

theorem updateJ_events (fl : Fl J) (d : Jdata J) (p : Pkt) (h : Hint) : (updateJ fl d p h).jss.events = d.jss.events + 1 := by
  unfold updateJ Jss.events
  split
  · simp only; split <;> simp only <;> omega
  · split
    · simp only [save]; omega
    · split
      · simp only [save]; omega
      · simp only
        split
        · simp only [save]; omega
        · split <;> simp only [save] <;> omega

theorem C12_each_once (fl : Fl J) (xs : List Arr) (s : Nat) :
    ((Of s xs).foldl (app fl) (fresh fl s)).jss.events = ((Of s xs).filter (·.1.rated)).length := by
  suffices h : ∀ (ys : List Arr) (d : Jdata J), (ys.foldl (app fl) d).jss.events = d.jss.events + (ys.filter (·.1.rated)).length by
    rw [h]; simp [fresh, Jdata.new, Jss.zero, Jss.events]
  intro ys
  induction ys with
  | nil => intro d; simp
  | cons y ys ih =>
    intro d
    rw [List.foldl_cons, ih]
    unfold app
    cases hr : y.1.rated with
    | true => simp [hr, updateJ_events]; omega
    | false => simp [hr]

/-- The source of the packet just processed is tracked, if there was memory. -/
theorem C12_last_tracked (fl : Fl J) (ps : List (Option Pkt)) (p : Pkt) (ho : p.oom = false) (a : An J)
    (h : run fl (.init fl) (ps ++ [some p]) = .ok a) : ∃ d ∈ a.jit.list, d.ssrc = some p.ssrc := by
  have hsplit : ∀ (ps : List (Option Pkt)) (b : An J), run fl b (ps ++ [some p]) = .ok a →
      ∃ c, run fl b ps = .ok c ∧ analyze fl c (some p) = .ok a := by
    intro ps
    induction ps with
    | nil =>
      intro b hb
      simp only [List.nil_append, run] at hb
      refine ⟨b, rfl, ?_⟩
      cases hc : analyze fl b (some p) with
      | error e => rw [hc] at hb; cases hb
      | ok c => rw [hc] at hb; cases hb; rfl
    | cons q ps ih =>
      intro b hb
      simp only [List.cons_append, run] at hb ⊢
      cases hc : analyze fl b q with
      | error e => rw [hc] at hb; cases hb
      | ok c => rw [hc] at hb; exact ih c hb
  obtain ⟨c, h1, h2⟩ := hsplit ps _ h
  obtain ⟨xs, -, hx⟩ := run_jit fl ps _ c h1
  obtain ⟨jp, k1, k2⟩ := jrun_inv fl xs [] _ (jinit fl)
  have hx' : jrun fl (.init fl) xs = .ok c.jit := hx
  rw [k1] at hx'
  cases hx'
  have hj := analyze_jit fl c a p h2
  obtain ⟨jp', m1, -, m3⟩ := jstep_inv fl k2 (p, (updateSeq c.stat p).2.2)
  rw [hj] at m1
  cases m1
  exact m3 ho

/-! ### Up to ten sources -/

/-- The ways of `jdata_by_ssrc`. -/
theorem bySsrc_cases (fl : Fl J) {done : List Arr} {jp : Jit J} (h : JInv fl done jp) (s : Nat) (oom : Bool) :
    (jp.list = [Jdata.new fl] ∧ done = [] ∧ bySsrc fl jp s oom = .ok ({ jp with list := [fresh fl s] }, some 0)) ∨
    (∃ i d, jp.list[i]? = some d ∧ d.ssrc = some s ∧ bySsrc fl jp s oom = .ok (jp, some i)) ∨
    ((∀ d ∈ jp.list, d.ssrc ≠ some s ∧ ∃ t, d.ssrc = some t) ∧
      ((jp.list.length = 10 ∧ ∃ last, jp.list.getLast? = some last ∧ bySsrc fl jp s oom = .ok (recycle fl jp last s, some 0)) ∨
       (oom = true ∧ bySsrc fl jp s oom = .ok (jp, none)) ∨
       (oom = false ∧ bySsrc fl jp s oom = .ok ({ jp with list := fresh fl s :: jp.list, jdlen := jp.jdlen + 1 }, some 0)))) := by
  obtain ⟨h1, h2, h3, h4, h5⟩ := h
  unfold bySsrc
  cases hl : jp.list with
  | nil => exact absurd hl h1
  | cons first rest =>
    simp only
    rcases h5 with ⟨h5, h6⟩ | h5
    · rw [hl] at h5
      obtain ⟨rfl, rfl⟩ : first = Jdata.new fl ∧ rest = [] := by simpa using h5
      rw [if_pos (show (Jdata.new fl).ssrc = none from rfl)]
      exact .inl ⟨rfl, h6, rfl⟩
    · right
      obtain ⟨s1, hs1⟩ := (h5 first (by simp [hl])).ssrc
      rw [if_neg (by simp [hs1])]
      cases hf : (first :: rest).findIdx? (fun d => d.ssrc == some s) with
      | some i =>
        left
        rw [List.findIdx?_eq_some_iff_getElem] at hf
        obtain ⟨hlt, hp, -⟩ := hf
        exact ⟨i, (first :: rest)[i], by rw [List.getElem?_eq_getElem hlt], by simpa using hp, rfl⟩
      | none =>
        right
        rw [List.findIdx?_eq_none_iff] at hf
        refine ⟨fun d hd => ⟨by simpa using hf d hd, (h5 d (by rw [hl]; exact hd)).ssrc⟩, ?_⟩
        by_cases hten : jp.jdlen = 10
        · left
          rw [hl] at h2
          refine ⟨by omega, ?_⟩
          cases hg : (first :: rest).getLast? with
          | none => simp at hg
          | some last => exact ⟨last, rfl, by simp [hten]⟩
        · right
          cases oom
          · right; exact ⟨rfl, by simp [hten, fresh]⟩
          · left; exact ⟨rfl, by simp [hten]⟩

/-- Every source seen has a record, and the record holds all of its packets. -/
def Full (fl : Fl J) (done : List Arr) (jp : Jit J) : Prop :=
  (jp.list = [Jdata.new fl] ∧ done = []) ∨
  ((∀ d ∈ jp.list, ∃ s, s ∈ done.map (·.1.ssrc) ∧ d = (Of s done).foldl (app fl) (fresh fl s)) ∧
    ∀ x ∈ done, ∃ d ∈ jp.list, d.ssrc = some x.1.ssrc)

theorem jstep_full (fl : Fl J) {done : List Arr} {jp jp' : Jit J} (h : JInv fl done jp) (hf : Full fl done jp) (x : Arr)
    (ho : x.1.oom = false) (hc : ((done ++ [x]).map (·.1.ssrc)).toFinset.card ≤ 10) (hs : jstep fl jp x = .ok jp') :
    Full fl (done ++ [x]) jp' := by
  have hlast : ∀ s, Of s (done ++ [x]) = Of s done ++ (if x.1.ssrc = s then [x] else []) := by
    intro s
    simp only [Of, List.filter_append]
    congr 1
    by_cases hx : x.1.ssrc = s <;> simp [hx]
  unfold jstep at hs
  right
  rcases bySsrc_cases fl h x.1.ssrc x.1.oom with ⟨hl, rfl, hb⟩ | ⟨i, d0, hi, hd0, hb⟩ | ⟨hno, hcase⟩
  · rw [hb] at hs
    cases hs
    simp only [List.modify_zero_cons, List.mem_singleton, List.nil_append, List.map_cons, List.map_nil]
    refine ⟨?_, ?_⟩
    · rintro d rfl
      exact ⟨x.1.ssrc, rfl, by simp [Of]⟩
    · rintro y rfl
      exact ⟨_, rfl, by rw [app_ssrc]; rfl⟩
  · rw [hb] at hs
    cases hs
    have hnd := h.nodup
    have hne : ¬ (jp.list = [Jdata.new fl]) := by
      intro hl
      have hm := List.mem_of_getElem? hi
      rw [hl] at hm
      simp only [List.mem_singleton] at hm
      subst hm; cases hd0
    rcases hf with ⟨hl, -⟩ | ⟨f1, f2⟩
    · exact absurd hl hne
    · constructor
      · intro d hd
        simp only at hd
        rcases mem_modify hd with ⟨b, hb', rfl⟩ | ⟨j, hj, he⟩
        · rw [hi] at hb'
          cases hb'
          obtain ⟨s, hs1, hs2⟩ := f1 d0 (List.mem_of_getElem? hi)
          have hss : x.1.ssrc = s := by
            rw [hs2, foldl_app_ssrc] at hd0
            cases hd0; rfl
          refine ⟨s, by simp [hs1], ?_⟩
          rw [hlast, if_pos hss, List.foldl_append, ← hs2]
          rfl
        · obtain ⟨s, hs1, hs2⟩ := f1 d (List.mem_of_getElem? he)
          refine ⟨s, by simp [hs1], ?_⟩
          have hds : d.ssrc = some s := by rw [hs2, foldl_app_ssrc]; rfl
          have hne : x.1.ssrc ≠ s := by
            intro heq
            have e1 : (jp.list.map (·.ssrc))[j]? = some (some x.1.ssrc) := by simp [he, hds, heq]
            have e2 : (jp.list.map (·.ssrc))[i]? = some (some x.1.ssrc) := by simp [hi, hd0]
            have hlt : j < (jp.list.map (·.ssrc)).length := by
              rcases Nat.lt_or_ge j (jp.list.map (·.ssrc)).length with hlt | hlt
              · exact hlt
              · rw [List.getElem?_eq_none hlt] at e1; cases e1
            exact hj ((List.getElem?_inj hlt hnd).1 (e1.trans e2.symm))
          rw [hlast, if_neg hne, List.append_nil]
          exact hs2
      · intro y hy
        have hmem : ∀ t : Option Nat, (∃ d ∈ jp.list, d.ssrc = t) → ∃ d ∈ jp.list.modify i (app fl · x), d.ssrc = t := by
          rintro t ⟨d, hd, rfl⟩
          have : d.ssrc ∈ (jp.list.modify i (app fl · x)).map (·.ssrc) := by
            rw [modify_map _ _ (fun a => app_ssrc fl a x)]
            exact List.mem_map_of_mem hd
          obtain ⟨d', h1, h2⟩ := List.mem_map.1 this
          exact ⟨d', h1, h2⟩
        rcases List.mem_append.1 hy with hy | hy
        · exact hmem _ (f2 y hy)
        · simp only [List.mem_singleton] at hy
          subst hy
          exact hmem _ ⟨d0, List.mem_of_getElem? hi, hd0⟩
  · have hne : ¬ (jp.list = [Jdata.new fl]) := by
      intro hl
      obtain ⟨-, t, ht⟩ := hno (Jdata.new fl) (by simp [hl])
      cases ht
    rcases hf with ⟨hl, -⟩ | ⟨f1, f2⟩
    · exact absurd hl hne
    · rcases hcase with ⟨hten, -⟩ | ⟨ho', -⟩ | ⟨-, hb⟩
      · -- ten records and an eleventh source
        exfalso
        have hsub : (jp.list.map (·.ssrc)).toFinset ⊆ ((done.map (·.1.ssrc)).toFinset.image some) := by
          intro o ho'
          simp only [List.mem_toFinset, List.mem_map] at ho'
          obtain ⟨d, hd, rfl⟩ := ho'
          obtain ⟨s, hs1, hs2⟩ := f1 d hd
          rw [Finset.mem_image]
          exact ⟨s, List.mem_toFinset.2 hs1, by rw [hs2, foldl_app_ssrc]; rfl⟩
        have hc1 := Finset.card_le_card hsub
        rw [List.toFinset_card_of_nodup h.nodup, List.length_map, hten,
          Finset.card_image_of_injective _ (Option.some_injective _)] at hc1
        have hnew : x.1.ssrc ∉ (done.map (·.1.ssrc)).toFinset := by
          intro hm
          obtain ⟨y, hy, he⟩ := List.mem_map.1 (List.mem_toFinset.1 hm)
          obtain ⟨d, hd, hds⟩ := f2 y hy
          exact (hno d hd).1 (by rw [hds, he])
        have he : ((done ++ [x]).map (·.1.ssrc)).toFinset = insert x.1.ssrc (done.map (·.1.ssrc)).toFinset := by
          ext t; simp
        rw [he, Finset.card_insert_of_notMem hnew] at hc
        omega
      · rw [ho] at ho'; cases ho'
      · rw [hb] at hs
        cases hs
        have hnone : Of x.1.ssrc done = [] := by
          rw [Of, List.filter_eq_nil_iff]
          intro y hy he
          obtain ⟨d, hd, hds⟩ := f2 y hy
          exact (hno d hd).1 (by rw [hds]; simpa using he)
        simp only [List.modify_zero_cons]
        constructor
        · intro d hd
          rcases List.mem_cons.1 hd with rfl | hd
          · refine ⟨x.1.ssrc, by simp, ?_⟩
            rw [hlast, if_pos rfl, hnone]
            rfl
          · obtain ⟨s, hs1, hs2⟩ := f1 d hd
            refine ⟨s, by simp [hs1], ?_⟩
            have hne : x.1.ssrc ≠ s := by
              intro heq
              exact (hno d hd).1 (by rw [hs2, foldl_app_ssrc, heq]; rfl)
            rw [hlast, if_neg hne, List.append_nil]
            exact hs2
        · intro y hy
          rcases List.mem_append.1 hy with hy | hy
          · obtain ⟨d, hd, hds⟩ := f2 y hy
            exact ⟨d, List.mem_cons_of_mem _ hd, hds⟩
          · simp only [List.mem_singleton] at hy
            subst hy
            exact ⟨_, List.mem_cons_self, by rw [app_ssrc]; rfl⟩

theorem jrun_full (fl : Fl J) : ∀ (xs done : List Arr) (jp jp' : Jit J), JInv fl done jp → Full fl done jp →
    (∀ x ∈ xs, x.1.oom = false) → ((done ++ xs).map (·.1.ssrc)).toFinset.card ≤ 10 → jrun fl jp xs = .ok jp' →
    Full fl (done ++ xs) jp'
  | [], done, jp, jp', _, hf, _, _, h => by cases h; simpa using hf
  | x :: xs, done, jp, jp', hi, hf, ho, hc, h => by
    obtain ⟨jp1, h1, h2, -⟩ := jstep_inv fl hi x
    have hle : ((done ++ [x]).map (·.1.ssrc)).toFinset.card ≤ 10 := by
      refine Nat.le_trans (Finset.card_le_card ?_) hc
      intro t ht
      simp only [List.mem_toFinset, List.mem_map, List.mem_append, List.mem_cons, List.not_mem_nil, or_false] at ht ⊢
      obtain ⟨y, hy, rfl⟩ := ht
      exact ⟨y, by rcases hy with hy | hy <;> simp [hy], rfl⟩
    have h3 := jstep_full fl hi hf x (ho x (by simp)) hle h1
    rw [jrun, h1] at h
    have := jrun_full fl xs (done ++ [x]) jp1 jp' h2 h3 (fun y hy => ho y (by simp [hy])) (by simpa using hc) h
    simpa using this

/-- As long as no more than ten sources have been seen every one of them has a record, which holds all of its packets. -/
theorem C12_complete (fl : Fl J) (ps : List (Option Pkt)) (a : An J) (h : run fl (.init fl) ps = .ok a)
    (ho : ∀ p, some p ∈ ps → p.oom = false) (hc : ((ps.filterMap id).map (·.ssrc)).toFinset.card ≤ 10) :
    ∃ xs : List Arr, xs.map (·.1) = ps.filterMap id ∧ ∀ p, some p ∈ ps →
      (Of p.ssrc xs).foldl (app fl) (fresh fl p.ssrc) ∈ a.jit.list := by
  obtain ⟨xs, hm, hx⟩ := run_jit fl ps _ a h
  have hm' : xs.map (·.1.ssrc) = (ps.filterMap id).map (·.ssrc) := by rw [← hm]; simp
  have hox : ∀ x ∈ xs, x.1.oom = false := by
    intro x hx
    have : x.1 ∈ ps.filterMap id := by rw [← hm]; exact List.mem_map_of_mem hx
    simp only [List.mem_filterMap, id_eq, exists_eq_right] at this
    exact ho _ this
  have hf := jrun_full fl xs [] _ a.jit (jinit fl) (.inl ⟨rfl, rfl⟩) hox (by simpa [hm'] using hc) hx
  refine ⟨xs, hm, ?_⟩
  intro p hp
  have hpx : p ∈ xs.map (·.1) := by rw [hm]; simpa using hp
  obtain ⟨x, hx1, rfl⟩ := List.mem_map.1 hpx
  simp only [List.nil_append] at hf
  rcases hf with ⟨-, h0⟩ | ⟨f1, f2⟩
  · rw [h0] at hx1; cases hx1
  · obtain ⟨d, hd, hds⟩ := f2 x hx1
    obtain ⟨s, -, hs2⟩ := f1 d hd
    have : s = x.1.ssrc := by
      rw [hs2, foldl_app_ssrc] at hds
      cases hds; rfl
    subst this
    rw [← hs2]; exact hd

/-! ### The report -/

def pcs (l : List (Jdata J)) : Nat := (l.map (fun d => d.jss.pcount)).sum

structure RInv (jp : Jit J) (n : Nat) : Prop where
  acc : jp.jvacc + jp.facc.length = jp.pacc
  tot : jp.pacc + pcs jp.list ≤ n

theorem updateJ_pcount (fl : Fl J) (d : Jdata J) (p : Pkt) (h : Hint) : (updateJ fl d p h).jss.pcount ≤ d.jss.pcount + 1 := by
  unfold updateJ
  split
  · simp only; split <;> simp only <;> omega
  · split
    · simp only [save]; omega
    · split
      · simp only [save]; omega
      · simp only
        split
        · simp only [save]; omega
        · split <;> simp only [save] <;> omega

theorem pcs_modify (fl : Fl J) (x : Arr) : ∀ (l : List (Jdata J)) (i : Nat),
    pcs (l.modify i (app fl · x)) ≤ pcs l + (if x.1.rated then 1 else 0)
  | [], i => by simp [pcs]
  | d :: l, 0 => by
    simp only [pcs, List.modify_zero_cons, List.map_cons, List.sum_cons]
    unfold app
    have := updateJ_pcount fl d x.1 x.2
    split <;> omega
  | d :: l, i + 1 => by
    have := pcs_modify fl x l i
    simp only [pcs, List.modify_succ_cons, List.map_cons, List.sum_cons] at this ⊢
    omega

theorem pcs_dropLast : ∀ (l : List (Jdata J)) (d : Jdata J), l.getLast? = some d → pcs l = pcs l.dropLast + d.jss.pcount
  | [], d, h => by simp at h
  | [a], d, h => by simp at h; subst h; simp [pcs]
  | a :: b :: l, d, h => by
    have := pcs_dropLast (b :: l) d (by simpa using h)
    simp only [pcs, List.dropLast_cons_cons, List.map_cons, List.sum_cons] at this ⊢
    omega

theorem jstep_rinv (fl : Fl J) {done : List Arr} {jp jp' : Jit J} {n : Nat} (h : JInv fl done jp) (hr : RInv jp n) (x : Arr)
    (hs : jstep fl jp x = .ok jp') : RInv jp' (n + (if x.1.rated then 1 else 0)) := by
  obtain ⟨r1, r2⟩ := hr
  unfold jstep at hs
  rcases bySsrc_cases fl h x.1.ssrc x.1.oom with ⟨hl, rfl, hb⟩ | ⟨i, d0, hi, hd0, hb⟩ | ⟨hno, ⟨hten, last, hlast, hb⟩ | ⟨ho', hb⟩ | ⟨-, hb⟩⟩
  · rw [hb] at hs
    cases hs
    refine ⟨r1, ?_⟩
    have := pcs_modify fl x [fresh fl x.1.ssrc] 0
    have h0 : pcs [fresh fl x.1.ssrc] = 0 := by simp [pcs, fresh, Jdata.new, Jss.zero]
    rw [hl] at r2
    simp only
    omega
  · rw [hb] at hs
    cases hs
    refine ⟨r1, ?_⟩
    have := pcs_modify fl x jp.list i
    simp only
    omega
  · rw [hb] at hs
    cases hs
    have hd := pcs_dropLast jp.list last hlast
    have hm := pcs_modify fl x (fresh fl x.1.ssrc :: jp.list.dropLast) 0
    have h0 : pcs (fresh fl x.1.ssrc :: jp.list.dropLast) = pcs jp.list.dropLast := by
      simp [pcs, fresh, Jdata.new, Jss.zero]
    unfold recycle
    simp only
    split
    · refine ⟨?_, ?_⟩
      · simp only [List.length_cons]; omega
      · have : ({ last with ssrc := some x.1.ssrc, jss := Jss.zero fl, dedup := [] } : Jdata J) = fresh fl x.1.ssrc := rfl
        simp only [this]
        omega
    · refine ⟨r1, ?_⟩
      have : ({ last with ssrc := some x.1.ssrc, jss := Jss.zero fl, dedup := [] } : Jdata J) = fresh fl x.1.ssrc := rfl
      simp only [this]
      omega
  · rw [hb] at hs
    cases hs
    exact ⟨r1, by omega⟩
  · rw [hb] at hs
    cases hs
    refine ⟨r1, ?_⟩
    have hm := pcs_modify fl x (fresh fl x.1.ssrc :: jp.list) 0
    have h0 : pcs (fresh fl x.1.ssrc :: jp.list) = pcs jp.list := by
      simp [pcs, fresh, Jdata.new, Jss.zero]
    simp only
    omega

theorem jrun_rinv (fl : Fl J) : ∀ (xs done : List Arr) (jp jp' : Jit J) (n : Nat), JInv fl done jp → RInv jp n →
    jrun fl jp xs = .ok jp' → RInv jp' (n + (xs.filter (·.1.rated)).length)
  | [], done, jp, jp', n, _, hr, h => by cases h; simpa using hr
  | x :: xs, done, jp, jp', n, hi, hr, h => by
    obtain ⟨jp1, h1, h2, -⟩ := jstep_inv fl hi x
    have h3 := jstep_rinv fl hi hr x h1
    rw [jrun, h1] at h
    have := jrun_rinv fl xs (done ++ [x]) jp1 jp' _ h2 h3 h
    have he : n + (if x.1.rated then 1 else 0) + (xs.filter (·.1.rated)).length = n + ((x :: xs).filter (·.1.rated)).length := by
      rw [List.filter_cons]
      cases x.1.rated <;> (simp; try omega)
    rw [← he]; exact this

theorem sums (l : List (Jdata J)) (h : ∀ d ∈ l, 2 ≤ d.jss.pcount) :
    (l.map (fun d => d.jss.pcount - 1)).sum + l.length = pcs l := by
  induction l with
  | nil => rfl
  | cons d l ih =>
    have h1 := h d (by simp)
    have h2 := ih (fun x hx => h x (by simp [hx]))
    simp only [pcs, List.map_cons, List.sum_cons, List.length_cons] at h2 ⊢
    omega

theorem pcs_sublist {l m : List (Jdata J)} (h : l.Sublist m) : pcs l ≤ pcs m := by
  induction h with
  | slnil => exact Nat.le_refl _
  | cons a _ ih => simp only [pcs, List.map_cons, List.sum_cons] at ih ⊢; omega
  | cons_cons a _ ih => simp only [pcs, List.map_cons, List.sum_cons] at ih ⊢; omega

/-- The report of jitter: never more packets than were received with a clock rate, and each series of `k` packets gives
`k - 1` deviations (the number of series is the length of the list of jitter values). -/
theorem C12_report (fl : Fl J) (ps : List (Option Pkt)) (a : An J) (h : run fl (.init fl) ps = .ok a) :
    (jstats a.jit).2.2.1 ≤ ((ps.filterMap id).filter (·.rated)).length ∧
    (jstats a.jit).2.1 + (jstats a.jit).2.2.2.length = (jstats a.jit).2.2.1 := by
  obtain ⟨xs, hm, hx⟩ := run_jit fl ps _ a h
  have h0 : RInv (Jit.init fl) 0 := ⟨rfl, by simp [Jit.init, pcs, Jdata.new, Jss.zero]⟩
  have hr := jrun_rinv fl xs [] _ a.jit 0 (jinit fl) h0 hx
  have hlen : (xs.filter (·.1.rated)).length = ((ps.filterMap id).filter (·.rated)).length := by
    rw [← hm, List.filter_map, List.length_map]; rfl
  rw [Nat.zero_add, hlen] at hr
  obtain ⟨r1, r2⟩ := hr
  unfold jstats
  simp only
  have hsub : ((a.jit.list.takeWhile (fun d => d.ssrc.isSome)).filter (fun d => 2 ≤ d.jss.pcount)).Sublist a.jit.list :=
    List.filter_sublist.trans (List.takeWhile_sublist _)
  have h1 := pcs_sublist hsub
  have h2 := sums ((a.jit.list.takeWhile (fun d => d.ssrc.isSome)).filter (fun d => 2 ≤ d.jss.pcount))
    (fun d hd => by simpa using (List.mem_filter.1 hd).2)
  split
  · simp
  · simp only [List.length_append, List.length_map]
    unfold pcs at h1 h2 r2
    omega

/-- Eleven sources, the first of them is forgotten: two packets each. -/
example : ((run fl0 (.init fl0) ((List.range 22).map (fun i => some ⟨i, i / 2, 160 * i, false, true, true, 100 + 160 * i, false⟩))).toOption.map
    (fun a => (a.jit.list.map (·.ssrc), (jstats a.jit).1, (jstats a.jit).2.1, (jstats a.jit).2.2.1))) =
    some ([some 10, some 9, some 8, some 7, some 6, some 5, some 4, some 3, some 2, some 1], 10, 11, 22) := by decide +kernel

/-- The sums kept for forgotten sources are reported only along with a source that has two packets: ten sources of two
packets and then ten of one packet each give an empty report. -/
theorem C12_forgotten_counterexample :
    ∃ ps : List (Option Pkt), ps.length = 30 ∧ (∀ p, some p ∈ ps → p.rated = true ∧ p.oom = false) ∧
      ((run fl0 (.init fl0) ps).toOption.map (fun a => (a.jit.pacc, (jstats a.jit).1, (jstats a.jit).2.2.1))) = some (20, 0, 0) :=
  ⟨(List.range 20).map (fun i => some ⟨i, i / 2, 160 * i, false, true, true, 100 + 160 * i, false⟩) ++
    (List.range 10).map (fun i => some ⟨i, 100 + i, 160 * i, false, true, true, 9000 + 160 * i, false⟩),
    by simp, by
      intro p hp
      simp only [List.mem_append, List.mem_map, Option.some.injEq] at hp
      rcases hp with ⟨_, -, rfl⟩ | ⟨_, -, rfl⟩ <;> exact ⟨rfl, rfl⟩, by decide +kernel⟩

/-- No stream of packets leads to an access through a NULL pointer in the lookup of the record. -/
theorem C12_no_fault (fl : Fl J) (ps : List (Option Pkt)) : ∃ a, run fl (.init fl) ps = .ok a := by
  suffices h : ∀ (ps : List (Option Pkt)) (a : An J) (done : List Arr), JInv fl done a.jit → ∃ a', run fl a ps = .ok a' from
    h ps _ [] (jinit fl)
  intro ps
  induction ps with
  | nil => exact fun a _ _ => ⟨a, rfl⟩
  | cons p ps ih =>
    intro a done hi
    cases p with
    | none =>
      simp only [run, analyze]
      exact ih { a with pecount := a.pecount + 1 } done hi
    | some p =>
      obtain ⟨jp1, h1, h2, -⟩ := jstep_inv fl hi (p, (updateSeq a.stat p).2.2)
      have hid : ∀ (l : List (Jdata J)) (i : Nat), l.modify i (fun x => x) = l := fun l i => List.modify_id i l
      have key : ∃ a', analyze fl a (some p) = .ok a' ∧ a'.jit = jp1 := by
        unfold jstep at h1
        unfold analyze update
        simp only at h1 ⊢
        cases hb : bySsrc fl a.jit p.ssrc p.oom with
        | error e => rw [hb] at h1; cases h1
        | ok r =>
          obtain ⟨jit, i⟩ := r
          rw [hb] at h1
          cases i with
          | none =>
            simp only at h1 ⊢
            cases h1
            exact ⟨_, rfl, rfl⟩
          | some i =>
            simp only at h1 ⊢
            cases h1
            cases hr : (updateSeq a.stat p).2.1 <;> refine ⟨_, rfl, ?_⟩ <;> simp only [app] <;>
              cases p.rated <;> simp [hid]
      obtain ⟨a', ha, hj⟩ := key
      rw [run, ha]
      exact ih a' _ (by rw [hj]; exact h2)

end Verif.Analyze
