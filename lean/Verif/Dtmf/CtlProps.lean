import Verif.Dtmf.Ctl
import Verif.Str.NumProps
import Verif.Str.UrlProps

/-!
# C38: the subcommand

Full claim: after the subcommand telephone events of the payload type given are reported with the tag given, and packets
are kept from the other side exactly if asked for.  The tag is the one of the first subcommand for the stream
(`C38_retag_counterexample`), and packets are dropped when the queue of the worker is full (`C38_relay_partial`).
-/

namespace Verif.Dtmf.Ctl

open Str

theorem opts_spec : ∀ (o : List UInt8) (d e : Bool), opts o d = some e ↔
    (∀ c ∈ o, c = 104 ∨ c = 72) ∧ (e = true ↔ d = true ∨ o ≠ [])
  | [], d, e => by cases d <;> cases e <;> simp [opts]
  | c :: cs, d, e => by
    unfold opts
    by_cases hc : c = 104 ∨ c = 72
    · rw [if_pos hc, opts_spec cs true e]
      constructor
      · rintro ⟨h1, h2⟩
        refine ⟨fun x hx => ?_, by simp [h2.mpr (.inl rfl)]⟩
        rcases List.mem_cons.mp hx with rfl | hx
        · exact hc
        · exact h1 x hx
      · rintro ⟨h1, h2⟩
        exact ⟨fun x hx => h1 x (List.mem_cons_of_mem _ hx), by simp [h2.mpr (.inr (by simp))]⟩
    · rw [if_neg hc]
      constructor
      · intro h; cases h
      · rintro ⟨h1, _⟩; exact absurd (h1 c (by simp)) hc

theorem tagOf_spec (a : List UInt8) : (tagOf a = .ok none ∧ ¬ ∃ t, Decodes a t) ∨ ∃ t, tagOf a = .ok (some t) ∧ Decodes a t := by
  obtain ⟨r, o, h1, h2, h3, h4⟩ := (C13_unquote_decodes_partial a [] 0 (by decide)).1 (List.replicate (a.length + 1) 0) (by simp)
  unfold tagOf
  rw [h1]
  rcases h4 with ⟨rfl, h5⟩ | ⟨t, h5, rfl, h6⟩
  · exact .inl ⟨rfl, h5⟩
  · right
    have hl : t.length ≤ a.length := by
      clear h1 h2 h3 h6
      induction h5 with
      | nil => simp
      | plain => simp only [List.length_cons]; omega
      | plus => simp only [List.length_cons]; omega
      | esc => simp only [List.length_cons]; omega
    simp only [Int.toNat_natCast]
    rw [if_pos (by rw [h2]; simp; omega), h6]
    exact ⟨t, rfl, h5⟩

/-- The payload type asked for: 101 unless given. -/
def WantsPt (args : List (List UInt8)) (pt : Int) : Prop :=
  match args[2]? with
  | none => pt = 101
  | some a => atoiSaferange a 0 127 = .ok pt

/-- The modifiers are `h`, in either case. -/
def GoodOpts (args : List (List UInt8)) : Prop := ∀ o, args[3]? = some o → ∀ c ∈ o, c = 104 ∨ c = 72

/-- Some modifier is given. -/
def Hides (args : List (List UInt8)) : Prop := ∃ o, args[3]? = some o ∧ o ≠ []

theorem pars_spec (args : List (List UInt8)) (pt : Int) (d : Bool) : pars args = some (pt, d) ↔
    WantsPt args pt ∧ GoodOpts args ∧ (d = true ↔ Hides args) := by
  unfold pars WantsPt GoodOpts Hides
  rcases h2 : args[2]? with _ | a
  · have h3 : args[3]? = none := by
      rw [List.getElem?_eq_none_iff] at h2 ⊢; omega
    simp only [h3, Option.some.injEq, Prod.mk.injEq]
    constructor
    · rintro ⟨rfl, rfl⟩; simp
    · rintro ⟨rfl, _, h⟩
      refine ⟨rfl, ?_⟩
      cases d with
      | false => rfl
      | true => obtain ⟨o, h, _⟩ := h.mp rfl; cases h
  · simp only
    rcases ha : atoiSaferange a 0 127 with v | _ | _
    · rcases h3 : args[3]? with _ | o
      · simp only [Option.some.injEq, Prod.mk.injEq, Rv.ok.injEq]
        constructor
        · rintro ⟨rfl, rfl⟩; simp
        · rintro ⟨rfl, _, h⟩
          refine ⟨rfl, ?_⟩
          cases d with
          | false => rfl
          | true => obtain ⟨o, h, _⟩ := h.mp rfl; cases h
      · simp only [Option.map_eq_some_iff, Prod.mk.injEq, Rv.ok.injEq, Option.some.injEq]
        constructor
        · rintro ⟨e, h1, rfl, rfl⟩
          obtain ⟨g1, g2⟩ := (opts_spec o false e).mp h1
          refine ⟨rfl, ?_, ?_⟩
          · rintro o' rfl; exact g1
          · rw [g2]
            constructor
            · rintro (h | h)
              · cases h
              · exact ⟨o, rfl, h⟩
            · rintro ⟨o', rfl, h⟩; exact .inr h
        · rintro ⟨rfl, g1, g2⟩
          refine ⟨d, (opts_spec o false d).mpr ⟨g1 o rfl, ?_⟩, rfl, rfl⟩
          rw [g2]
          constructor
          · rintro ⟨o', rfl, h⟩; exact .inr h
          · rintro (h | h)
            · cases h
            · exact ⟨o, rfl, h⟩
    · simp
    · simp

/-- **C38.**  The subcommand is accepted exactly if notification is enabled, there are one to three arguments, the tag is well
encoded, the payload type is acceptable and the modifiers are known (and, the first time, memory is available); it then sets the payload type
and the action asked for, and the tag if it is the first one for the stream.  Otherwise it changes nothing. -/
theorem C38_command_partial (env : Env) (c : Option Cfg) (args : List (List UInt8)) :
    ∃ c' ok, handle env c args = .ok (c', ok) ∧
      (ok = false → c' = c) ∧
      (ok = true ↔ env.notify = true ∧ 2 ≤ args.length ∧ args.length ≤ 4 ∧ (∃ t, Decodes (args.getD 1 []) t) ∧
        (∃ pt, WantsPt args pt) ∧ GoodOpts args ∧ (c = none → env.mem = true ∧ env.reg = true)) ∧
      (ok = true → ∃ k, c' = some k ∧ WantsPt args k.pt ∧ (k.drop = true ↔ Hides args) ∧
        (c = none → Decodes (args.getD 1 []) k.tag) ∧ ∀ old, c = some old → k.tag = old.tag) := by
  unfold handle
  by_cases h1 : ¬ env.notify = true
  · rw [if_pos (by simpa using h1)]
    exact ⟨c, false, rfl, fun _ => rfl, ⟨(fun h => by cases h), fun h => absurd h.1 h1⟩, (fun h => by cases h)⟩
  replace h1 : env.notify = true := by simpa using h1
  rw [if_neg (by simp [h1])]
  by_cases h2 : args.length < 2
  · rw [if_pos h2]
    exact ⟨c, false, rfl, fun _ => rfl, ⟨(fun h => by cases h), fun h => (by have := h.2.1; omega)⟩, (fun h => by cases h)⟩
  rw [if_neg h2]
  by_cases h3 : args.length > 4
  · rw [if_pos h3]
    exact ⟨c, false, rfl, fun _ => rfl, ⟨(fun h => by cases h), fun h => (by have := h.2.2.1; omega)⟩, (fun h => by cases h)⟩
  rw [if_neg h3]
  rcases tagOf_spec (args.getD 1 []) with ⟨ht, hn⟩ | ⟨t, ht, hd⟩
  · rw [ht]
    exact ⟨c, false, rfl, fun _ => rfl, ⟨(fun h => by cases h), fun h => absurd h.2.2.2.1 hn⟩, (fun h => by cases h)⟩
  rw [ht]
  simp only
  rcases hp : pars args with _ | ⟨pt, d⟩
  · refine ⟨c, false, rfl, fun _ => rfl, ⟨(fun h => by cases h), fun h => ?_⟩, (fun h => by cases h)⟩
    exfalso
    obtain ⟨pt, hpt⟩ := h.2.2.2.2.1
    have hg := h.2.2.2.2.2.1
    by_cases hh : Hides args
    · have := (pars_spec args pt true).mpr ⟨hpt, hg, by simp [hh]⟩
      rw [hp] at this; cases this
    · have := (pars_spec args pt false).mpr ⟨hpt, hg, by simp [hh]⟩
      rw [hp] at this; cases this
  obtain ⟨g1, g2, g3⟩ := (pars_spec args pt d).mp hp
  simp only
  cases c with
  | some old =>
    refine ⟨_, true, rfl, (fun h => by cases h), ⟨fun _ => ⟨h1, by omega, by omega, ⟨t, hd⟩, ⟨pt, g1⟩, g2, (fun h => by cases h)⟩, fun _ => rfl⟩,
      fun _ => ⟨_, rfl, g1, g3, (fun h => by cases h), fun o ho => ?_⟩⟩
    cases ho; rfl
  | none =>
    simp only
    by_cases he : (env.mem && env.reg) = true
    · rw [if_pos he]
      refine ⟨_, true, rfl, (fun h => by cases h), ⟨fun _ => ⟨h1, by omega, by omega, ⟨t, hd⟩, ⟨pt, g1⟩, g2, (fun _ => by simpa using he)⟩, fun _ => rfl⟩,
        fun _ => ⟨_, rfl, g1, g3, (fun _ => hd), (fun o ho => by cases ho)⟩⟩
    · rw [if_neg he]
      refine ⟨_, false, rfl, fun _ => rfl, ⟨(fun h => by cases h), fun h => ?_⟩, (fun h => by cases h)⟩
      have := h.2.2.2.2.2.2 trivial
      rw [this.1, this.2] at he
      exact absurd rfl he

/-- `D tag 96 h` -/
example : (handle ⟨true, true, true⟩ none [[68], [116, 37, 50, 48], [57, 54], [104]]).toOption =
    some (some ⟨96, true, [116, 32]⟩, true) := by decide +kernel

/-- A second subcommand with another tag keeps the old tag. -/
theorem C38_retag_counterexample :
    (handle ⟨true, true, true⟩ (some ⟨101, false, [97]⟩) [[68], [98]]).toOption = some (some ⟨101, false, [97]⟩, true) := by decide +kernel

/-- **C38.**  Packets of the payload type reach the worker and are passed on to the other side unless hiding was asked for, as long as
memory and room in the queue of the worker are available; otherwise they are neither examined nor passed on. -/
theorem C38_relay_partial (c : Cfg) (mem room : Bool) :
    ((enqueue c mem room).1 = true ↔ mem = true ∧ room = true) ∧
    ((enqueue c mem room).2 = true ↔ c.drop = true ∨ ¬ (mem = true ∧ room = true)) := by
  unfold enqueue
  cases mem <;> cases room <;> cases c.drop <;> simp

/-- With no room in the queue the packet is lost although it is not to be hidden. -/
theorem C38_queue_counterexample : enqueue ⟨101, false, [97]⟩ true false = (false, true) := rfl

end Verif.Dtmf.Ctl
