import Verif.Modman.Rank
import Verif.Modman.Logs
import Mathlib.Data.List.Induction

/-! The properties of the delivery of records. -/

namespace Verif.Modman

open Verif.Util

theorem full_of {cs : List MCfg} {es : List Ev} {s : St} (h : run (St.init cs) es = some (.ok s)) : Full cs es s := by
  obtain ⟨s', h1, h2⟩ := full_run es [] _ (full_init cs) _ h
  cases h1
  exact h2

theorem mod_of {cs : List MCfg} {es : List Ev} {s : St} (h : Full cs es s) {j : Nat} {c : MCfg} (hc : cs[j]? = some c) :
    ∃ m, s.mods[j]? = some m ∧ m.cfg = c := by
  have := h.inv.cnt.cfg
  rw [← this, List.getElem?_map] at hc
  match hm : s.mods[j]?, hc with
  | some m, hc => exact ⟨m, rfl, by simpa using hc⟩

/-- **C73.** Whatever the order in which sessions end, packets arrive and modules are called, nothing that has been released is
used, and no count of references goes below zero. -/
theorem C73_no_fault (cs : List MCfg) (es : List Ev) (f : Fault) : run (St.init cs) es ≠ some (.error f) := by
  intro h
  obtain ⟨_, h1, _⟩ := full_run es [] _ (full_init cs) _ h
  cases h1

/-- **C73.** A module is called with the records offered to it, but those that a message tells have been dropped, in the
order in which they were offered, none of them twice. -/
theorem C73_order {cs : List MCfg} {es : List Ev} {s : St} (h : run (St.init cs) es = some (.ok s)) {j : Nat} {c : MCfg}
    (hc : cs[j]? = some c) :
    callsOf j s.out <+: (offered c j es).filter (fun r => !decide (r ∈ droppedOf j s.out)) ∧ (offered c j es).Nodup := by
  have hf := full_of h
  obtain ⟨m, hm, rfl⟩ := mod_of hf hc
  exact ⟨⟨jobs m, hf.calls.calls j m hm⟩, hf.calls.nodup j m hm⟩

theorem jobs_end {cs : List MCfg} {es : List Ev} {s : St} (hf : Full cs es s) {j : Nat} {m : Mod} (hm : s.mods[j]? = some m)
    (hb : m.built = false) : jobs m = [] ∧ ∀ i, s.strm i = 0 := by
  have hok := hf.inv.ok j m hm
  have hkn : s.kap ≠ .no := by
    intro hk
    rw [hk] at hok
    have : m.built = true := hok.2.1
    rw [hb] at this; cases this
  have hmain : s.main = .after ∨ s.main = .ended := by
    cases hmm : s.main with
    | after => exact .inl rfl
    | ended => exact .inr rfl
    | run => exact absurd (hf.inv.cnt.kapn (by rw [hmm]; nofun) (by rw [hmm]; nofun)) hkn
    | stop => exact absurd (hf.inv.cnt.kapn (by rw [hmm]; nofun) (by rw [hmm]; nofun)) hkn
    | rel => exact absurd (hf.inv.cnt.kapn (by rw [hmm]; nofun) (by rw [hmm]; nofun)) hkn
  refine ⟨?_, hf.inv.cnt.post (by rcases hmain with e | e <;> rw [e] <;> nofun) (by rcases hmain with e | e <;> rw [e] <;> nofun)⟩
  have hq : m.q = none := by
    match hp : phase s.kap j, hok with
    | .run, hok => have := hok.2.1; rw [hb] at this; cases this
    | .at .put, hok => have := hok.2.1; rw [hb] at this; cases this
    | .at .join, hok => have := hok.2.1; rw [hb] at this; cases this
    | .at .destroy, hok => have := hok.2.1; rw [hb] at this; cases this
    | .at .dtor, hok => exact hok.2.2.2
    | .at .rel, hok => exact hok.2.2.2
    | .dead, hok => exact hok.2.2.2
  simp [jobs, jobsOf, hq]

theorem not_built {cs : List MCfg} {es : List Ev} {s : St} (hf : Full cs es s) {j : Nat} {m : Mod} (hm : s.mods[j]? = some m)
    (hd : .dtor j ∈ s.out) : m.built = false := by
  have h1 := hf.order.dtor j m hm
  have h2 : 0 < s.out.count (.dtor j) := List.count_pos_iff.mpr hd
  cases hb : m.built with
  | false => rfl
  | true => rw [hb, if_pos rfl] at h1; omega

/-- **C73.** When the destructor of a module is called, the module has been called with all that was offered to it, but what
a message tells has been dropped. -/
theorem C73_all {cs : List MCfg} {es : List Ev} {s : St} (h : run (St.init cs) es = some (.ok s)) {j : Nat} {c : MCfg}
    (hc : cs[j]? = some c) (hd : .dtor j ∈ s.out) :
    callsOf j s.out = (offered c j es).filter (fun r => !decide (r ∈ droppedOf j s.out)) := by
  have hf := full_of h
  obtain ⟨m, hm, rfl⟩ := mod_of hf hc
  rw [← hf.calls.calls j m hm, (jobs_end hf hm (not_built hf hm hd)).1, List.append_nil]

theorem count_split {L D C : List Rec} (hL : L.Nodup) (hD : D.Nodup) (hs : ∀ r ∈ D, r ∈ L)
    (hC : C <+: L.filter (fun r => !decide (r ∈ D))) (r : Rec) : (C ++ D).count r ≤ 1 := by
  rw [List.count_append]
  have h1 : C.Nodup := (hC.sublist).nodup (hL.filter _)
  have h2 := List.nodup_iff_count.mp h1 r
  have h3 := List.nodup_iff_count.mp hD r
  by_cases hr : r ∈ D
  · have : r ∉ C := by
      intro hrc
      have := hC.subset hrc
      rw [List.mem_filter] at this
      simp [hr] at this
    rw [List.count_eq_zero.mpr this]; omega
  · rw [List.count_eq_zero.mpr hr]; omega

/-- **C73.** The end of a session is accounted for once: no module is called with it twice, or called with it and said to
have been left out; and a module that asks for the ends of sessions, before it is destroyed, has been called with each
session there was, or there is a message that it has not. -/
theorem C73_once {cs : List MCfg} {es : List Ev} {s : St} (h : run (St.init cs) es = some (.ok s)) {j : Nat} {c : MCfg}
    (hc : cs[j]? = some c) (i : Nat) :
    (callsOf j s.out ++ droppedOf j s.out).count (.sess i) ≤ 1 ∧
    (.dtor j ∈ s.out → c.aapi = true → c.acct = true → i < created es →
      (callsOf j s.out ++ droppedOf j s.out).count (.sess i) = 1) := by
  have hf := full_of h
  obtain ⟨hpre, hnd⟩ := C73_order h hc
  have hall := fun hd => C73_all h hc hd
  have hlen := sess_run es _ _ (inv_init cs) h
  obtain ⟨m, hm, rfl⟩ := mod_of hf hc
  have hle := count_split hnd (hf.calls.dropd j m hm) (hf.calls.drop j m hm) hpre (.sess i)
  refine ⟨hle, fun hd ha hb hi => ?_⟩
  have hi2 : i < s.sess.length := by
    have : (St.init cs).sess.length = 0 := rfl
    omega
  have hz := (jobs_end hf hm (not_built hf hm hd)).2
  have hg := hf.inv.cnt.all_gone hz (List.getElem?_eq_getElem hi2)
  have hoff := hf.seen i _ (List.getElem?_eq_getElem hi2) j m.cfg hc (by simp [MCfg.doAcct, ha, hb]) (by rw [hg]; trivial)
  have hpos : 0 < (callsOf j s.out ++ droppedOf j s.out).count (.sess i) := by
    rw [List.count_pos_iff, List.mem_append]
    by_cases hdr : .sess i ∈ droppedOf j s.out
    · exact .inr hdr
    · left
      rw [hall hd, List.mem_filter]
      exact ⟨hoff, by simp [hdr]⟩
  omega

/-- **C73.** A module that does not ask for a kind of record is not called with it, and is called with records made for it
only. -/
theorem C73_asked {cs : List MCfg} {es : List Ev} {s : St} (h : run (St.init cs) es = some (.ok s)) {j : Nat} {c : MCfg}
    (hc : cs[j]? = some c) {r : Rec} (hr : r ∈ callsOf j s.out) :
    c.aapi = true ∧ match r with
      | .sess i => c.acct = true ∧ i < created es
      | .pkt _ j' => c.rtcp = true ∧ j' = j := by
  have hf := full_of h
  obtain ⟨hpre, _⟩ := C73_order h hc
  have hoff := (List.mem_filter.mp (hpre.subset hr)).1
  have hlen := sess_run es _ _ (inv_init cs) h
  have h0 : (St.init cs).sess.length = 0 := rfl
  obtain ⟨m, hm, rfl⟩ := mod_of hf hc
  have hpast := hf.calls.past j m hm r hoff
  obtain ⟨e, he, ho⟩ := List.mem_filterMap.mp hoff
  cases e with
  | acct i j' b =>
    simp only [offer] at ho
    split at ho
    case isFalse => cases ho
    case isTrue hcond =>
      cases ho
      obtain ⟨pc, hpc, _⟩ := hpast
      have := (List.getElem?_eq_some_iff.mp hpc).1
      exact ⟨hcond.2.1, hcond.2.2, by omega⟩
  | pkt p j' md =>
    simp only [offer] at ho
    split at ho
    case isFalse => cases ho
    case isTrue hcond => cases ho; exact ⟨hcond.2.1, hcond.2.2.1, rfl⟩
  | _ => cases ho

/-- **C73.** No module is called with a record after the record has been freed, or after its own destructor has been called;
a record is not freed twice, and a module is not destroyed twice. -/
theorem C73_after {cs : List MCfg} {es : List Ev} {s : St} (h : run (St.init cs) es = some (.ok s)) :
    (s.out.Pairwise fun x y => ∀ j r, y = .call j r → x ≠ .free r ∧ x ≠ .dtor j) ∧
    (∀ r, s.out.count (.free r) ≤ 1) ∧ ∀ j, j < cs.length → s.out.count (.dtor j) ≤ 1 := by
  have hf := full_of h
  refine ⟨hf.order.pair, fun r => ?_, fun j hj => ?_⟩
  · have := hf.free.le r
    unfold bal at this
    omega
  · obtain ⟨m, hm, _⟩ := mod_of hf (List.getElem?_eq_getElem hj)
    rw [hf.order.dtor j m hm]
    split <;> omega

/-- **C73.** After the shutdown each module has been destroyed, the record of each session has been freed, and so have the
records of packets: nothing is left. -/
theorem C73_nothing_left {cs : List MCfg} {es : List Ev} {s : St} (h : run (St.init cs) es = some (.ok s))
    (he : s.main = .ended) :
    (∀ j, j < cs.length → s.out.count (.dtor j) = 1) ∧ (∀ i, i < created es → s.out.count (.free (.sess i)) = 1) ∧
    ∀ j c, cs[j]? = some c → ∀ r ∈ offered c j es, s.out.count (.free r) = 1 := by
  have hf := full_of h
  have hk := hf.inv.cnt.kapd he
  have hz := hf.inv.cnt.post (by rw [he]; nofun) (by rw [he]; nofun)
  have hdead : ∀ (j : Nat) (m : Mod), s.mods[j]? = some m → m.built = false ∧ m.thr.over ∧ m.q = none := by
    intro j m hm
    have := hf.inv.ok j m hm
    rw [hk] at this
    exact this.2
  have hlen := sess_run es _ _ (inv_init cs) h
  have h0 : (St.init cs).sess.length = 0 := rfl
  have hown : ∀ r, own s.sess r = 0 := by
    intro r
    cases r with
    | pkt => rfl
    | sess i =>
      match hi : s.sess[i]? with
      | none => simp [own, hi, optS]
      | some pc =>
        have := hf.inv.cnt.all_gone hz hi
        subst this
        simp [own, hi, optS, holdAcct]
  have hrefs : ∀ r, s.refs r = 0 := by
    intro r
    rw [hf.inv.refs r, hown r]
    rw [tot_zero]
    · rfl
    · intro m hm
      obtain ⟨j, hj⟩ := List.mem_iff_getElem?.mp hm
      obtain ⟨_, h1, h2⟩ := hdead j m hj
      unfold Mod.holds
      rw [h2]
      have : m.thr ≠ .busy r := by intro e; rw [e] at h1; exact h1
      simp [this]
  have hbal : ∀ r, born cs es s.sess.length r → s.out.count (.free r) = 1 := by
    intro r hb
    have := (hf.free r).1 hb
    unfold bal at this
    rw [hrefs r] at this
    simpa using this
  refine ⟨fun j hj => ?_, fun i hi => hbal _ (show i < s.sess.length by omega), fun j c hc r hr => ?_⟩
  · obtain ⟨m, hm, _⟩ := mod_of hf (List.getElem?_eq_getElem hj)
    rw [hf.order.dtor j m hm, (hdead j m hm).1]
    rfl
  · obtain ⟨m, hm, rfl⟩ := mod_of hf hc
    have hpast := hf.calls.past j m hm r hr
    apply hbal
    cases r with
    | sess i =>
      obtain ⟨pc, hpc, _⟩ := hpast
      exact (List.getElem?_eq_some_iff.mp hpc).1
    | pkt p j' =>
      have : j' = j := hpast.1
      subst this
      exact ⟨m.cfg, hc, hr⟩

/-- **C73.** A record is left out for want of room only when 128 others are waiting for the module, and for want of memory
only when there was none; and each message is about the record at hand. -/
theorem C73_full {cs : List MCfg} {es : List Ev} {e : Ev} {s s' : St} (h : run (St.init cs) es = some (.ok s))
    (hs : step s e = some (.ok s')) : ∃ t, s'.out = s.out ++ t ∧
    (∀ j c r, cs[j]? = some c → .full j r ∈ t →
      (callsOf j s.out).length + (droppedOf j s.out).length + 128 ≤ (offered c j es).length ∧ offer c j e = some r) ∧
    (∀ j r, .nomem j r ∈ t → (∃ i, e = .acct i j false ∧ r = .sess i) ∨ ∃ p, e = .pkt p j .noWi ∧ r = .pkt p j) := by
  have hf := full_of h
  obtain ⟨t, ht, hho⟩ := logs_step hf.inv hs
  refine ⟨t, ht, fun j c r hc hr => ?_, fun j r hr => (hho _ hr).2 j r rfl⟩
  obtain ⟨m, l, hm, hq, hl, hk, hoff⟩ := (hho _ hr).1 j r rfl
  have hcfg := cfg_get hf.inv.cnt hm
  rw [hcfg] at hc; cases hc
  have hok := hf.inv.ok j m hm
  rw [hk] at hok
  obtain ⟨_, _, _, _, l', hq', _, hno, _⟩ := hok
  rw [hq] at hq'; cases hq'
  have hjobs : (jobs m).length = l.length := by
    simp only [jobs, jobsOf, hq, Option.getD_some]
    rw [List.filterMap_length_eq_length]
    intro x hx
    cases x with
    | term => exact absurd rfl (hno _ hx)
    | job r => rfl
  have hlen := hf.calls.len j m hm
  rw [List.length_append, hjobs] at hlen
  exact ⟨by unfold qmax at hl; omega, hoff⟩

theorem run_snoc {e : Ev} : ∀ {es : List Ev} {s s' : St}, run s (es ++ [e]) = some (.ok s') →
    ∃ s1, run s es = some (.ok s1) ∧ step s1 e = some (.ok s')
  | [], s, s', h => by
    simp only [List.nil_append, run] at h
    split at h
    · cases h
    · cases h
    case h_3 s1 h1 => cases h; exact ⟨s, rfl, h1⟩
  | a :: es, s, s', h => by
    simp only [List.cons_append, run] at h
    split at h
    · cases h
    · cases h
    case h_3 s1 h1 =>
      obtain ⟨s2, h2, h3⟩ := run_snoc h
      refine ⟨s2, ?_, h3⟩
      simp only [run, h1]
      exact h2

/-- **C73.** When there has always been memory and no more than 128 records have been offered to a module, none is left out. -/
theorem C73_none_lost {cs : List MCfg} {es : List Ev} {s : St} (h : run (St.init cs) es = some (.ok s)) {j : Nat} {c : MCfg}
    (hc : cs[j]? = some c) (hmem : ∀ i j, .acct i j false ∉ es ∧ .pkt i j .noWi ∉ es) (hl : (offered c j es).length ≤ 128) :
    droppedOf j s.out = [] := by
  induction es using List.reverseRecOn generalizing s with
  | nil => cases h; rfl
  | append_singleton es e ih =>
    obtain ⟨s1, h1, h2⟩ := run_snoc h
    have hoa := offered_append c j es e
    rw [hoa, List.length_append] at hl
    have hold := ih h1 (fun i j => ⟨fun hx => (hmem i j).1 (List.mem_append_left _ hx),
      fun hx => (hmem i j).2 (List.mem_append_left _ hx)⟩) (by omega)
    obtain ⟨t, ht, hfull, hnomem⟩ := C73_full h1 h2
    have hdr : droppedOf j s.out = droppedOf j s1.out ++ droppedOf j t := by
      rw [ht]; exact List.filterMap_append
    rw [hdr, hold, List.nil_append, List.eq_nil_iff_forall_not_mem]
    intro r hr
    obtain ⟨o, ho, hor⟩ := List.mem_filterMap.mp hr
    cases o with
    | full j' r' =>
      simp only at hor
      split at hor
      case isFalse => cases hor
      case isTrue hj =>
        subst hj
        obtain ⟨h3, h4⟩ := hfull j' c r' hc ho
        rw [h4] at hl
        simp only [Option.toList, List.length_singleton] at hl
        omega
    | nomem j' r' =>
      rcases hnomem j' r' ho with ⟨i, rfl, _⟩ | ⟨p, rfl, _⟩
      · exact (hmem i j').1 (by simp)
      · exact (hmem p j').2 (by simp)
    | call => cases hor
    | dtor => cases hor
    | free => cases hor

/-- **C73.** The number of steps is bounded by the numbers of sessions and packets. -/
theorem C73_bound {cs : List MCfg} {es : List Ev} {s : St} (h : run (St.init cs) es = some (.ok s)) :
    es.length ≤ 7 * cs.length + 4 + (3 * cs.length + 6) * created es +
      (3 * cs.length + 2) * arrived es := by
  have h1 := rank_run es _ _ (inv_init cs) h
  rw [rank_init, costs_eq] at h1
  unfold created
  omega

/-- **C73.** The shutdown does not get stuck: until the end there is always a step of what is already there, whether a
session that ends, a packet that is handled, a module's thread or the main thread. -/
theorem C73_progress {cs : List MCfg} {es : List Ev} {s : St} (h : run (St.init cs) es = some (.ok s)) (hr : s.main ≠ .run)
    (he : s.main ≠ .ended) :
    ∃ e s', e ≠ .newSess ∧ (∀ i, e ≠ .newPkt i) ∧ step s e = some (.ok s') ∧ s'.main ≠ .run := by
  have hf := full_of h
  obtain ⟨e, h1, h2, h3⟩ := goes hf.inv hr he
  match hx : step s e with
  | none => exact absurd hx h3
  | some x =>
    obtain ⟨s', rfl, hf'⟩ := full_step hf e x hx
    refine ⟨e, s', h1, h2, hx, fun hm => hr ?_⟩
    exact main_run hf.inv hx hm

theorem run_append {s s1 : St} {x : Option (Except Fault St)} : ∀ {es es' : List Ev}, run s es = some (.ok s1) → run s1 es' = x →
    run s (es ++ es') = x := by
  intro es
  induction es generalizing s with
  | nil => intro es' h1 h2; cases h1; exact h2
  | cons e es ih =>
    intro es' h1 h2
    simp only [run, List.cons_append] at *
    split at h1
    · cases h1
    · cases h1
    case h_3 s2 h3 =>
      exact ih h1 h2

/-- **C73.** Once it has been started, the shutdown can always be brought to its end. -/
theorem C73_shutdown {cs : List MCfg} {es : List Ev} {s : St} (h : run (St.init cs) es = some (.ok s)) (hr : s.main ≠ .run) :
    ∃ es' s', run s es' = some (.ok s') ∧ s'.main = .ended ∧ created es' = 0 := by
  have key : ∀ (n : Nat) (es : List Ev) (s : St), rank s ≤ n → run (St.init cs) es = some (.ok s) → s.main ≠ .run →
      ∃ es' s', run s es' = some (.ok s') ∧ s'.main = .ended ∧ created es' = 0 := by
    intro n
    induction n with
    | zero =>
      intro es s hn h hr
      by_cases he : s.main = .ended
      · exact ⟨[], s, rfl, he, rfl⟩
      · exfalso
        obtain ⟨e, s', h1, h2, h3, h4⟩ := C73_progress h hr he
        have := rank_step (full_of h).inv h3
        have hc : cost cs.length e = 0 := by
          cases e with
          | newSess => exact absurd rfl h1
          | newPkt i => exact absurd rfl (h2 i)
          | _ => rfl
        omega
    | succ n ih =>
      intro es s hn h hr
      by_cases he : s.main = .ended
      · exact ⟨[], s, rfl, he, rfl⟩
      · obtain ⟨e, s1, h1, h2, h3, h4⟩ := C73_progress h hr he
        have := rank_step (full_of h).inv h3
        have hc : cost cs.length e = 0 := by
          cases e with
          | newSess => exact absurd rfl h1
          | newPkt i => exact absurd rfl (h2 i)
          | _ => rfl
        have hone : run s [e] = some (.ok s1) := by simp only [run, h3]
        obtain ⟨es', s', h5, h6, h7⟩ := ih (es ++ [e]) s1 (by omega) (run_append h hone) h4
        refine ⟨e :: es', s', by simp only [run, h3]; exact h5, h6, ?_⟩
        unfold created at *
        rw [List.count_cons, h7]
        simp [h1]
  exact key _ es s (Nat.le_refl _) h hr

end Verif.Modman
