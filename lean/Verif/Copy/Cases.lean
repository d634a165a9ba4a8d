import Verif.Copy.Counter

/-! Concrete cases for C66. -/

namespace Verif.Copy

/-- Copy number 0: session 0 to session 1, crosswise. -/
def cp01 : Cp := ⟨0, 0, false, 1, true⟩

def m0 : Mgrs := fun _ => base

theorem m0_acyclic : Acyclic (fun n => if n = 0 then 1 else 0) (installed m0 cp01) := by
  intro x p hp i o hk
  by_cases ha : x.sess = 0
  · obtain ⟨s, r, d⟩ := x
    have ha : s = 0 := ha
    subst ha
    cases r <;> cases d <;>
      (simp [installed, cp01, Cp.regs, regs, regAll, put, ins, m0, base, ordWitness, ordRelay,
        ordPlay] at hp
       rcases hp with e | e | e <;> subst e <;> simp at hk
       rw [← hk.1]; simp)
  · by_cases hb : x.sess = 1
    · obtain ⟨s, r, d⟩ := x
      have hb : s = 1 := hb
      subst hb
      cases r <;> cases d <;>
        (simp [installed, cp01, Cp.regs, regs, regAll, put, ins, m0, base, ordWitness, ordRelay,
          ordPlay] at hp
         rcases hp with e | e | e <;> subst e <;> simp at hk)
    · exfalso
      rw [inst_other (by exact ha) (by exact hb)] at hp
      simp only [m0, base, List.mem_cons, List.not_mem_nil, or_false] at hp
      rcases hp with e | e <;> subst e <;> simp at hk

/-- C66_terminates_partial. -/
example : ∃ res, ∀ d, 1 < d → handleat open_ (installed m0 cp01) d ⟨0, false, false⟩ ⟨0, false, true⟩ 0
    = some res :=
  C66_terminates_partial m0_acyclic ⟨0, false, false⟩ ⟨0, false, true⟩ 0

/-- C66_refs: the packet is sent to the party of the source and to that of the target. -/
example : ∃ l, handleat open_ (installed m0 cp01) 3 ⟨0, false, false⟩ ⟨0, false, true⟩ 0
    = some (.take, l) ∧ refs 1 l = some 0 ∧ (.sent ⟨0, false, true⟩) ∈ l ∧
      (.sent ⟨1, false, true⟩) ∈ l := by
  refine ⟨_, rfl, ?_⟩
  decide

/-- C66_copied_partial. -/
example : ∃ a e1 e2 aB eB,
    handleat open_ m0 5 ⟨0, false, false⟩ ⟨0, false, true⟩ 0 = some (a, e1 ++ e2) ∧
    handleat open_ m0 5 ⟨1, false, false⟩ ⟨1, false, true⟩ 8 = some (aB, eB) ∧
    handleat open_ (installed m0 cp01) 5 ⟨0, false, false⟩ ⟨0, false, true⟩ 0 =
      some (a, e1 ++ (.copied ⟨1, false, false⟩ :: eB) ++ e2) :=
  C66_copied_partial (x := cp01) (m := m0) (by decide) m0_acyclic (by decide) false false _
    (by decide) (by
      intro p hp h1 h2
      simp only [m0, base, List.mem_cons, List.not_mem_nil, or_false] at hp
      rcases hp with e | e <;> subst e
      · exact fun h => h rfl
      · simp [ordRelay] at h2)

/-- C66_early_partial: something of order 3 takes the packet. -/
def m3 : Mgrs := fun _ => ⟨3, .ext 5, .other 5⟩ :: base

def w5 : World := { snd := fun _ => true, oth := fun n _ => if n = 5 then .take else .pass }

example : Stops w5 ⟨0, false, false⟩ ⟨3, .ext 5, .other 5⟩ := by simp [Stops, w5]

example : Sorted m3 := by intro x; simp [m3, base, ordWitness, ordRelay]

example : handleat w5 (installed m3 cp01) 5 ⟨0, false, false⟩ ⟨0, false, true⟩ 0 =
    some (.take, [.seen 5 ⟨0, false, false⟩, .kept ⟨0, false, false⟩]) := by decide

/-- C66_heard. -/
example : ∃ e, handleat open_ m0 1 ⟨1, false, false⟩ ⟨1, false, true⟩ 8 =
    some (.take, e ++ [.sent ⟨1, false, true⟩]) :=
  C66_heard (m := m0) (d := 0) _ _ (l1 := [⟨ordWitness, .ext 0, .other 0⟩]) (l2 := [])
    (p := ⟨ordRelay, .ext 1, .relay⟩) rfl rfl (by decide) rfl (by
      intro q hq _
      have : q = ⟨ordWitness, .ext 0, .other 0⟩ := by simpa using hq
      subst this
      exact ⟨fun h => h rfl, fun _ _ h => by cases h⟩)

/-- C66_silenced: a processor of order 3 has seen the packet, and that is all. -/
def wpass : World := { snd := fun _ => true, oth := fun _ _ => .pass }

example : handleat wpass (installed m3 cp01) 5 ⟨1, false, true⟩ ⟨1, false, false⟩ 0 =
    some (.drop, [.seen 5 ⟨1, false, true⟩, .freed ⟨1, false, true⟩]) := by decide

example : Late m3 := by
  intro x p hp hk
  simp only [m3, base, List.mem_cons, List.not_mem_nil, or_false] at hp
  rcases hp with e | e | e <;> subst e <;> simp [ordPlay, ordRelay] at hk ⊢

/-- C66_safe_partial, C66_undone_partial: two copies to session 1, one of session 1, a player; memory
is short when session 2 is destroyed. -/
def sys : List Op :=
  [.copy ⟨0, 0, false, 1, false⟩ .no, .reg ⟨0, false, false⟩ 7 9 3, .copy ⟨1, 3, true, 1, true⟩ .no,
   .copy ⟨2, 1, false, 2, false⟩ .no, .unreg ⟨0, false, false⟩ 3, .copy ⟨3, 4, false, 5, true⟩ .last]

example : (run init (sys ++ [.kill 2 (fun _ n => n < 3), .kill 1 (fun _ _ => true)])).ab = false :=
  (C66_safe_partial (by
    intro o ho
    simp [sys] at ho
    rcases ho with e | e | e | e | e | e | e | e <;> subst e <;> trivial)).1

example : ((run init (sys ++ [.kill 2 (fun _ n => n < 3)])).m ⟨2, true, true⟩).length = 3 := by decide

def sysF : List Op :=
  [.copy ⟨0, 0, false, 1, false⟩ .no, .reg ⟨0, false, false⟩ 7 9 3, .copy ⟨1, 3, true, 1, true⟩ .no,
   .copy ⟨2, 1, false, 2, false⟩ .no, .unreg ⟨0, false, false⟩ 3, .kill 4 (fun _ _ => true)]

example : (run init (sysF ++ [.kill 1 (fun _ _ => true)])).m =
    (run init (sysF.filter (fun o => !o.copiesTo 1))).m :=
  C66_undone_partial (by
      intro o ho
      simp [sysF] at ho
      rcases ho with e | e | e | e | e | e <;> subst e <;> simp [Op.fine])
    (by
      intro o ho
      simp [sysF] at ho
      rcases ho with e | e | e | e | e | e <;> subst e <;> rfl)
    (by decide) (fun _ _ => rfl)

example : sysF.filter (fun o => !o.copiesTo 1) ≠ [] ∧
    ((run init sysF).m ⟨0, false, false⟩).length = 3 := by
  refine ⟨by simp [sysF, Op.copiesTo], by decide⟩

/-- C66_failed_partial, C66_failed_counterexample. -/
example : run init ([.copy cp01 .no] ++ [.copy ⟨7, 3, false, 1, false⟩ .last]) =
    run init [.copy cp01 .no] :=
  C66_failed_partial (by intro o ho; simp at ho; subst ho; trivial) _

example : (run init ([.copy cp01 .no] ++ [.copy ⟨7, 3, false, 1, false⟩ (.reg 5)])).ab = true :=
  C66_failed_counterexample (by intro o ho; simp at ho; subst ho; trivial) (by decide)
    (by decide) (by decide) (by decide) (by decide)

end Verif.Copy
