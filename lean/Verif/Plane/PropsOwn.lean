import Verif.Plane.Own

/-! # C70: packets in the chains have one owner -/

namespace Verif.Plane

open Verif.Pproc (Act)
open Verif.Latch (Addr)

/-- **Every packet ends once.**  Whatever the chains and their processors are, a passage that does not fail has exactly
one of these ends: the packet was sent, put into the queue of a module, kept by a processor, or released and counted as
dropped. -/
theorem C70_one_end (v : View) (fuel : Nat) (m : Sid) (c : Ctx) (startat : Nat) (a : Act) (es : List Eff)
    (h : handleat v fuel m c startat = .ok (a, es)) : es.countP Eff.final = 1 :=
  handleat_fin fuel m c startat _ h

theorem pass_noabort {st : St} (h : InvM st) {now : Int} {chg ir dr : Bool} {m : Sid} {c : Ctx} {n : Nat} {f : Fault}
    (hp : pass st now chg ir dr m c n = .error f) : f = .ub := by
  simp only [pass] at hp
  split at hp
  next e he =>
    cases hp
    refine handleat_noabort h ir dr depth m c n _ ?_ he
    simp only [rank, depth]
    (repeat' split) <;> omega
  · cases hp

theorem ok1_error {r : Except Fault St} {f : Fault} (h : ok1 r = .error f) : r = .error f := by
  cases r with
  | error e => cases h; rfl
  | ok s => cases h

/-- **No abort.**  The chains of the modules never exceed the nesting that the code allows, and no command takes out a
processor that is not there. -/
theorem C70_no_abort (st : St) (e : Ev) (h : Reachable st) : step st e ≠ .error .abort := by
  have h := h.inv
  intro hs
  suffices H : ∀ f, step st e = .error f → f = .ub by exact absurd (H _ hs) (by simp)
  clear hs
  intro f hs
  cases e with
  | rx s now buf src chg peer ir dr =>
    have hs := ok1_error hs
    simp only [receive] at hs
    split at hs
    · cases hs
    · refine pass_noabort (invM_same h.toInvM ?_ ?_ ?_ ?_ ?_) hs <;> rfl
  | inject s now p cow rz chg dr => exact pass_noabort h.toInvM (ok1_error hs)
  | iceWork now fl rs => cases hs
  | dtlsWork now hk cr sends chg dr =>
    have hs := ok1_error hs
    simp only [dtlsWork] at hs
    split at hs
    · cases hs
    next it q hq =>
      have h0 := invM_q h.toInvM q
      split at hs
      · cases hs
      · split at hs
        · cases hs
        · split at hs
          · cases hs
          · split at hs
            · cases hs
            · exact pass_noabort h0 hs
        · split at hs
          · cases hs
          · split at hs
            · cases hs
            · split at hs
              · cases hs; rfl
              · exact pass_noabort h0 hs
  | iceStart j comp cand => simp only [step] at hs; split at hs <;> cases hs
  | iceAuth j ok => cases hs
  | iceOff j =>
    rcases iceOff_spec h.toInvM j with ⟨_, h1⟩ | ⟨x, l1, l3, hi, h1, _⟩ <;> simp only [step] at hs <;> rw [h1] at hs <;>
      cases hs
  | dtlsOn j sp b' => cases hs
  | dtlsOff j =>
    rcases dtlsOff_spec h.toInvM j with ⟨_, h1⟩ | ⟨m, c, l1, l2, hi, hc, h1, _⟩ <;> simp only [step] at hs <;>
      rw [h1] at hs <;> cases hs
  | reg s order n f => simp only [step] at hs; split at hs <;> cases hs
  | unreg s n => simp only [step] at hs; split at hs <;> cases hs
  | prefill s now x => cases hs
  | socket s x => cases hs

/-- What can be sent to stays so when something arrives. -/
theorem latchIn_sendable (st : St) (s : Sid) (now : Int) (p : Pkt) (x : Sid) (h : (st.strm x).rem.isSome = true) :
    ((latchIn st s now p).1 x).rem.isSome = true := by
  have hl : ∀ t : Latch.Strm, t.rem.isSome = true → (Latch.latchSync t now p.lat).rem.isSome = true := by
    intro t ht
    simp only [Latch.latchSync]
    (repeat' split) <;> exact ht
  have hr : (st.strm s).rem.isSome = true → (Latch.rx1 (st.strm s) now p.lat).1.rem.isSome = true := by
    intro h
    have hla : (Latch.latch (st.strm s) now p.lat).rem.isSome = true := by
      simp only [Latch.latch, Latch.fill1]
      (repeat' split) <;> first | rfl | exact h
    simp only [Latch.rx1]
    (repeat' split) <;> first | exact h | (refine hl _ ?_; first | rfl | exact h | exact hla)
  have hg : ∀ t : Latch.Strm, t.rem.isSome = true → (Latch.guess t p.lat).rem.isSome = true := by
    intro t ht
    simp only [Latch.guess, Latch.guess.guessSet]
    (repeat' split) <;> first | exact ht | rfl
  have h1 : ∀ y, (st.strm y).rem.isSome = true → (upd st.strm s (Latch.rx1 (st.strm s) now p.lat).1 y).rem.isSome = true := by
    intro y hy
    simp only [upd]
    split
    next e => subst e; exact hr hy
    · exact hy
  simp only [latchIn]
  split
  · rw [upd]
    split
    next e => subst e; exact hg _ (h1 _ h)
    · exact h1 _ h
  · exact h1 _ h

theorem pass_total {st : St} (h : InvM st) {now : Int} {chg ir dr : Bool} {m : Sid} {c : Ctx} {n : Nat}
    (hc : (c.pkt.isRtcp = false ∨ (∀ i, st.ice i = none) ∨ 11 ≤ n) ∨
      ((∀ s, st.sendable s = true) ∧ Passive st ∧ dr = true)) : ∃ st', pass st now chg ir dr m c n = .ok st' := by
  have : ∃ r, handleat (st.view ir dr) depth m c n = .ok r := by
    rcases hc with hc | ⟨h1, h2, rfl⟩
    · exact handleat_total h ir dr 14 m c n hc
    · exact handleat_open h h1 h2 ir 12 m c n
  obtain ⟨r, hr⟩ := this
  exact ⟨_, by simp only [pass]; rw [hr]⟩

/-- **No fault.**  Handling of whatever arrives and every command goes through in a session if what goes into the
chains is not RTCP, or ICE is off, or all streams can send, the queue of the DTLS module has room and the other
processors only look at packets.  Full claim: always, for all packets that fit their buffers after encryption.
Missing: RTCP that is multiplexed and then dropped is released twice (`C70_released_twice_counterexample`), and
encryption of a large packet writes past its buffer (`C70_protect_overflow_counterexample`). -/
theorem C70_no_fault_partial (st : St) (e : Ev) (h : Reachable st) (hl : Fits st e)
    (hc : NoRtcp st e ∨ (∀ i, st.ice i = none) ∨ ((∀ s, st.sendable s = true) ∧ Passive st ∧ Room e)) :
    ∃ st' b, step st e = .ok (st', b) := by
  have h := h.inv
  have hok : ∀ r : Except Fault St, (∃ st', r = .ok st') → ∃ st' b, ok1 r = .ok (st', b) := by
    rintro r ⟨s, rfl⟩
    exact ⟨s, true, rfl⟩
  cases e with
  | rx s now buf src chg peer ir dr =>
    refine hok _ ?_
    simp only [receive]
    split
    · exact ⟨_, rfl⟩
    · refine pass_total (invM_same h.toInvM ?_ ?_ ?_ ?_ ?_) ?_
      · rfl
      · rfl
      · rfl
      · rfl
      · rfl
      · rcases hc with hc | hc | ⟨h1, h2, h3⟩
        · exact Or.inl (Or.inl hc)
        · exact Or.inl (Or.inr (Or.inl hc))
        · refine Or.inr ⟨fun x => ?_, h2, h3⟩
          have := h1 x
          simp only [St.sendable, Bool.and_eq_true] at this ⊢
          exact ⟨this.1, latchIn_sendable _ _ _ _ _ this.2⟩
  | inject s now p cow rz chg dr =>
    refine hok _ (pass_total h.toInvM ?_)
    rcases hc with hc | hc | hc
    · exact Or.inl (Or.inl hc)
    · exact Or.inl (Or.inr (Or.inl hc))
    · exact Or.inr hc
  | iceWork now fl rs => exact ⟨_, _, rfl⟩
  | dtlsWork now hk cr sends chg dr =>
    refine hok _ ?_
    simp only [dtlsWork]
    split
    · exact ⟨_, rfl⟩
    next it q hq =>
      have h0 := invM_q h.toInvM q
      simp only [Fits, NoRtcp, hq, List.head?_cons, Option.mem_def, Option.some.injEq] at hl hc
      split
      · exact ⟨_, rfl⟩
      · split
        · exact ⟨_, rfl⟩
        next hd =>
          split
          · exact ⟨_, rfl⟩
          · split
            · exact ⟨_, rfl⟩
            · refine pass_total h0 ?_
              rcases hc with hc | hc | hc
              · exact Or.inl (Or.inl (hc it rfl hd _ rfl))
              · exact Or.inl (Or.inr (Or.inl hc))
              · exact Or.inr hc
        next hd =>
          split
          · exact ⟨_, rfl⟩
          · split
            · exact ⟨_, rfl⟩
            · split
              next hx => exact absurd (hl it rfl hd _ rfl) (by omega)
              · exact pass_total h0 (Or.inl (Or.inr (Or.inr (by decide))))
  | iceStart j comp cand => simp only [step]; split <;> exact ⟨_, _, rfl⟩
  | iceAuth j ok => exact ⟨_, _, rfl⟩
  | iceOff j =>
    rcases iceOff_spec h.toInvM j with ⟨_, h1⟩ | ⟨x, l1, l3, hi, h1, _⟩ <;> simp only [step] <;> rw [h1] <;>
      exact ⟨_, _, rfl⟩
  | dtlsOn j sp b' => exact ⟨_, _, rfl⟩
  | dtlsOff j =>
    rcases dtlsOff_spec h.toInvM j with ⟨_, h1⟩ | ⟨m, c, l1, l2, hi, hc, h1, _⟩ <;> simp only [step] <;>
      rw [h1] <;> exact ⟨_, _, rfl⟩
  | reg s order n f => simp only [step]; split <;> exact ⟨_, _, rfl⟩
  | unreg s n => simp only [step]; split <;> exact ⟨_, _, rfl⟩
  | prefill s now x => exact ⟨_, _, rfl⟩
  | socket s x => exact ⟨_, _, rfl⟩

end Verif.Plane
