import Verif.Eaud.Load

/-!
# The order of the channels (C47)
-/

namespace Verif.Eaud

variable {T : Type}

/-- The time of the first packet. -/
def Chan.begins (c : Chan T) (t : T) : Prop := ∃ p ps, c.pkts = p :: ps ∧ p.time = t

/-- No channel begins before one that precedes it. -/
def Ordered (k : Clock T) (l : List (Chan T)) : Prop :=
  l.Pairwise fun c d => ∀ t u, c.begins t → d.begins u → k.lt u t = false

theorem chanRev_ordered (k : Clock T) (hi : ∀ a, k.lt a a = false)
    (ht : ∀ a b c, k.lt a b = true → k.lt b c = true → k.lt a c = true) (new : Chan T) (t : T) (hn : new.begins t) :
    ∀ (l r : List (Chan T)), chanRev k new t l = .ok r →
      (l.Pairwise fun d c => ∀ t u, c.begins t → d.begins u → k.lt u t = false) →
      (r.Pairwise fun d c => ∀ t u, c.begins t → d.begins u → k.lt u t = false) ∧ r.Perm (new :: l)
  | [], r, h, _ => by cases h; exact ⟨List.pairwise_singleton _ _, .refl _⟩
  | c :: rest, r, h, hp => by
    obtain ⟨h1, h2⟩ := List.pairwise_cons.1 hp
    have uniq : ∀ {c : Chan T} {a b : T}, c.begins a → c.begins b → a = b := by
      rintro c a b ⟨p, ps, e, rfl⟩ ⟨q, qs, e', rfl⟩
      rw [e] at e'
      cases e'
      rfl
    unfold chanRev at h
    split at h
    · cases h
    rename_i p ps hpk
    have hc : c.begins p.time := ⟨p, ps, hpk, rfl⟩
    split at h
    · rename_i hlt
      cases h
      refine ⟨List.pairwise_cons.2 ⟨fun d hd a b ha hb => ?_, hp⟩, .refl _⟩
      rw [uniq hb hn]
      rcases List.mem_cons.1 hd with rfl | hd
      · rw [uniq ha hc]
        cases hh : k.lt t p.time with
        | false => rfl
        | true =>
          have h4 := ht _ _ _ hlt hh
          rw [hi] at h4
          cases h4
      · cases hh : k.lt t a with
        | false => rfl
        | true =>
          have h3 := h1 d hd a p.time ha hc
          rw [ht _ _ _ hlt hh] at h3
          cases h3
    · rename_i hlt
      split at h
      · cases h
      · rename_i r' hr
        cases h
        obtain ⟨q1, q2⟩ := chanRev_ordered k hi ht new t hn rest r' hr h2
        refine ⟨List.pairwise_cons.2 ⟨fun d hd a b ha hb => ?_, q1⟩, ?_⟩
        · rcases List.mem_cons.1 (q2.mem_iff.1 hd) with rfl | hd
          · rw [uniq ha hn, uniq hb hc]
            simpa using hlt
          · exact h1 d hd a b ha hb
        · exact (List.Perm.cons c q2).trans (List.Perm.swap new c rest)

/-- A new channel is put where it belongs by the time of its first packet: the order is kept and nothing is lost.  (That a
channel can get a new first packet afterwards, by one that was overtaken, is not reckoned with by the program either.) -/
theorem C47_channels (k : Clock T) (hi : ∀ a, k.lt a a = false) (ht : ∀ a b c, k.lt a b = true → k.lt b c = true → k.lt a c = true)
    (l : List (Chan T)) (hl : ∀ c ∈ l, c.pkts ≠ []) (ho : Ordered k l) (new : Chan T) (hn : new.pkts ≠ []) :
    ∃ r, chanInsert k l new = .ok r ∧ Ordered k r ∧ r.Perm (new :: l) := by
  obtain ⟨a, b, e, -⟩ := chanInsert_spec k hl hn
  refine ⟨_, e, ?_⟩
  unfold chanInsert at e
  split at e
  · cases e
  rename_i p ps hp
  cases hr : chanRev k new p.time l.reverse with
  | error f => rw [hr] at e; cases e
  | ok r' =>
    rw [hr] at e
    have e : r'.reverse = a ++ new :: b := Except.ok.inj e
    obtain ⟨q1, q2⟩ := chanRev_ordered k hi ht new p.time ⟨p, ps, hp, rfl⟩ l.reverse r' hr (List.pairwise_reverse.2 ho)
    rw [← e]
    exact ⟨List.pairwise_reverse.2 q1, (List.reverse_perm _).trans (q2.trans (List.Perm.cons new (List.reverse_perm _)))⟩

/-- Three channels that came at 5, 9 and 7. -/
example : (chanInsert (⟨fun _ => 0, fun _ _ => 0, fun a b => decide (a < b), fun _ t => t, fun _ => true, fun _ => true⟩ : Clock Nat)
    [⟨[⟨5, default, []⟩], .a⟩, ⟨[⟨9, default, []⟩], .b⟩] ⟨[⟨7, default, []⟩], .a⟩).toOption.map (·.map fun c => c.pkts.map (·.time)) = some [[5], [7], [9]] := by
  decide

end Verif.Eaud
