import Verif.Modman.Props
import Verif.Modman.LoadProps

/-! Concrete cases for the theorems about the modules. -/

namespace Verif.Modman

def ends (cs : List MCfg) (es : List Ev) (P : St → Bool) : Bool :=
  match run (St.init cs) es with
  | some (.ok s) => P s
  | _ => false

theorem ends_spec {cs : List MCfg} {es : List Ev} {P : St → Bool} (h : ends cs es P = true) :
    ∃ s, run (St.init cs) es = some (.ok s) ∧ P s = true := by
  unfold ends at h
  split at h
  case h_1 s hs => exact ⟨s, hs, h⟩
  · cases h

/-- A module that asks for everything, one that asks for nothing, one that asks for the ends of sessions. -/
def cs3 : List MCfg := [⟨true, true, true⟩, ⟨false, false, false⟩, ⟨true, true, false⟩]

/-- A session with a packet; there is no memory to hand its end to the last module. -/
def day : List Ev :=
  [.newSess, .newPkt 0, .pkt 0 0 .ok, .pkt 0 1 .ok, .pkt 0 2 .ok, .endPkt 0, .newSess, .endSess 0, .acct 0 0 true, .take 0,
   .acct 0 1 true, .acct 0 2 false, .acct 0 3 true, .relMm 0, .endSess 1, .acct 1 0 true, .relAcct 0, .ret 0, .acct 1 1 true,
   .relStrm 0, .acct 1 2 true, .take 2, .stop, .acct 1 3 true]

def night : List Ev :=
  [.relMm 1, .relAcct 1, .ret 2, .relStrm 1, .wait, .take 0, .rel, .kap, .ret 0, .take 0, .ret 0, .take 0, .kap, .kap, .kap, .kap,
   .kap, .kap, .kap, .kap, .kap, .take 2, .kap, .kap, .kap, .kap, .fin]

/-- The whole of it, for the theorems about the end. -/
theorem case_end : ∃ s, run (St.init cs3) (day ++ night) = some (.ok s) ∧
    (s.main = .ended ∧ callsOf 0 s.out = [.pkt 0 0, .sess 0, .sess 1] ∧ callsOf 1 s.out = [] ∧ callsOf 2 s.out = [.sess 1] ∧
      droppedOf 2 s.out = [.sess 0] ∧ droppedOf 0 s.out = [] ∧ .dtor 0 ∈ s.out ∧ .dtor 2 ∈ s.out) := by
  have h : ends cs3 (day ++ night) (fun s => decide (s.main = .ended ∧ callsOf 0 s.out = [.pkt 0 0, .sess 0, .sess 1] ∧
      callsOf 1 s.out = [] ∧ callsOf 2 s.out = [.sess 1] ∧ droppedOf 2 s.out = [.sess 0] ∧ droppedOf 0 s.out = [] ∧
      .dtor 0 ∈ s.out ∧ .dtor 2 ∈ s.out)) = true := by decide +kernel
  obtain ⟨s, h1, h2⟩ := ends_spec h
  exact ⟨s, h1, of_decide_eq_true h2⟩

/-- In the middle of the shutdown, for the theorems about its progress. -/
theorem case_stop : ∃ s, run (St.init cs3) day = some (.ok s) ∧ (s.main = .stop ∧ callsOf 0 s.out = [.pkt 0 0]) := by
  have h : ends cs3 day (fun s => decide (s.main = .stop ∧ callsOf 0 s.out = [.pkt 0 0])) = true := by decide +kernel
  obtain ⟨s, h1, h2⟩ := ends_spec h
  exact ⟨s, h1, of_decide_eq_true h2⟩

/-- Sessions that end while the module is not called. -/
def flood (n : Nat) : List Ev := ((List.range n).map fun i => [Ev.newSess, .endSess i, .acct i 0 true]).flatten

/-- The queue is full after 128: the next end is not handed over. -/
theorem case_full : ∃ s, run (St.init [⟨true, true, false⟩]) (flood 129) = some (.ok s) ∧
    (droppedOf 0 s.out = [.sess 128] ∧ callsOf 0 s.out = []) := by
  have h : ends [⟨true, true, false⟩] (flood 129) (fun s => decide (droppedOf 0 s.out = [.sess 128] ∧ callsOf 0 s.out = [])) =
      true := by decide +kernel
  obtain ⟨s, h1, h2⟩ := ends_spec h
  exact ⟨s, h1, of_decide_eq_true h2⟩

/-- Nothing is lost with 128. -/
theorem case_room : ∃ s, run (St.init [⟨true, true, false⟩]) (flood 128) = some (.ok s) ∧ droppedOf 0 s.out = [] := by
  have h : ends [⟨true, true, false⟩] (flood 128) (fun s => decide (droppedOf 0 s.out = [])) = true := by decide +kernel
  obtain ⟨s, h1, h2⟩ := ends_spec h
  exact ⟨s, h1, of_decide_eq_true h2⟩

/-- Modules 3, 5, 3, 3, the third of which handles no commands. -/
def mods4 : List Desc := [⟨3, true, true, true, true, true⟩, ⟨5, true, false, true, true, true⟩, ⟨3, false, true, true, true, true⟩,
  ⟨3, true, false, true, true, true⟩]

theorem case_load : ∃ m, parse .empty mods4 = .ok (m, true) ∧ m.getUl 3 1 = some 0 ∧ m.getUl 3 2 = none ∧ m.getUl 3 3 = some 3 ∧
    m.getUl 5 1 = some 1 ∧ m.getUl 5 2 = none ∧ m.getUl 3 0 = none ∧ m.sessAcct = 2 :=
  ⟨_, rfl, by decide, by decide, by decide, by decide, by decide, by decide, by decide⟩

end Verif.Modman
