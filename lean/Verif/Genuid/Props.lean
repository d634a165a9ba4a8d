import Verif.Basic
import Mathlib.Data.List.Nodup
import Mathlib.Data.List.Range

/-!
# C40: unique identifiers (`src/rtpp_genuid.c`)

A request is a single atomic addition, so an execution by any number of threads is the order in which the additions
happen; the memory order is irrelevant for one variable.
-/

namespace Verif.Genuid

/-- `rtpp_genuid_gen`, rtpp_genuid.c:72-80: the state is `lastuid`. -/
def gen (lastuid : UInt64) : UInt64 × UInt64 := (lastuid, lastuid + 1)

/-- `rtpp_genuid_ctor`, rtpp_genuid.c:50-70. -/
def init : UInt64 := 0

/-- The identifiers handed out, for any order of the requests of any threads (given by their numbers). -/
def run (st : UInt64) : List Nat → List (Nat × UInt64)
  | [] => []
  | th :: ths =>
    let (uid, st') := gen st
    (th, uid) :: run st' ths

theorem run_eq : ∀ (ths : List Nat) (st : UInt64),
    (run st ths).map (·.2.toNat) = (List.range ths.length).map fun i => (st.toNat + i) % 2 ^ 64
  | [], st => rfl
  | th :: ths, st => by
    simp only [run, gen, List.map_cons, List.length_cons, List.range_succ_eq_map]
    rw [run_eq ths (st + 1)]
    congr 1
    · have := st.toNat_lt
      rw [Nat.add_zero, Nat.mod_eq_of_lt this]
    · rw [List.map_map]
      refine List.map_congr_left ?_
      intro i _
      simp only [Function.comp_apply, UInt64.toNat_add]
      rw [show (1 : UInt64).toNat = 1 from rfl]
      omega

/-- **C40.**  Up to 2⁶⁴ requests, by whatever threads in whatever order, all get different identifiers. -/
theorem C40_distinct (ths : List Nat) (h : ths.length ≤ 2 ^ 64) : ((run init ths).map (·.2)).Nodup := by
  have hn : ((run init ths).map (·.2.toNat)).Nodup := by
    rw [run_eq]
    refine List.Nodup.map_on ?_ List.nodup_range
    intro x hx y hy e
    rw [List.mem_range] at hx hy
    have : init.toNat = 0 := rfl
    omega
  have e : (run init ths).map (·.2.toNat) = ((run init ths).map (·.2)).map UInt64.toNat := by rw [List.map_map]; rfl
  rw [e] at hn
  exact hn.of_map

/-- Every request is answered, to the thread that made it, in order. -/
theorem C40_answered : ∀ (ths : List Nat) (st : UInt64), (run st ths).map (·.1) = ths
  | [], _ => rfl
  | th :: ths, st => by simp only [run, gen, List.map_cons, C40_answered ths]

/-- The bound is sharp: one more request and the first identifier is repeated. -/
theorem C40_wraps (ths : List Nat) (h : ths.length = 2 ^ 64 + 1) : ¬ ((run init ths).map (·.2)).Nodup := by
  intro hn
  have hl : ((run init ths).map (·.2.toNat)).length = 2 ^ 64 + 1 := by rw [run_eq, List.length_map, List.length_range, h]
  have hl2 : ((run init ths).map (·.2)).length = 2 ^ 64 + 1 := by simpa using hl
  have e : (run init ths).map (·.2.toNat) = ((run init ths).map (·.2)).map UInt64.toNat := by rw [List.map_map]; rfl
  have g : ∀ i (hi : i < 2 ^ 64 + 1), (((run init ths).map fun p : Nat × UInt64 => p.2)[i]'(by omega)).toNat = i % 2 ^ 64 := by
    intro i hi
    have h1 : ((run init ths).map (·.2.toNat))[i]? = some (i % 2 ^ 64) := by
      rw [run_eq, List.getElem?_map, List.getElem?_range (by omega)]
      simp [init]
    rw [e, List.getElem?_map, List.getElem?_eq_getElem (by omega)] at h1
    simpa using h1
  have g0 := g 0 (by omega)
  have g1 := g (2 ^ 64) (by omega)
  have : ((run init ths).map fun p : Nat × UInt64 => p.2)[0]'(by omega) = ((run init ths).map fun p : Nat × UInt64 => p.2)[2 ^ 64]'(by omega) := by
    apply UInt64.toNat_inj.1
    omega
  have := (List.Nodup.getElem_inj_iff hn).1 this
  omega

/-- The first identifier is the reserved value `RTPP_UID_NONE` (rtpp_types.h:30), "no identifier". -/
theorem C40_first_is_none (th : Nat) (ths : List Nat) : (run init (th :: ths)).head? = some (th, 0) := rfl

/-- It is the only one to get it. -/
theorem C40_none_once (th : Nat) (ths : List Nat) (h : ths.length < 2 ^ 64) (p : Nat × UInt64) (hp : p ∈ (run init (th :: ths)).tail) :
    p.2 ≠ 0 := by
  have hn := C40_distinct (th :: ths) (by simp; omega)
  simp only [run, gen, List.map_cons, List.nodup_cons, List.tail_cons] at hn hp
  intro c
  exact hn.1 (List.mem_map.2 ⟨p, hp, c⟩)

example : run init [3, 1, 3, 2] = [(3, 0), (1, 1), (3, 2), (2, 3)] := by decide

end Verif.Genuid
