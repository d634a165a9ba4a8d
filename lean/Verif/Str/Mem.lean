import Verif.Basic

/-!
# Byte arrays with checked access

A C array is the list of its bytes.  Access outside of it is `Fault.ub`.
-/

namespace Verif.Str

/-- `a[i]` -/
def rd (a : List UInt8) (i : Nat) : Except Fault UInt8 :=
  match a[i]? with
  | none => .error .ub
  | some x => .ok x

/-- `a[i] = x` -/
def wr (a : List UInt8) (i : Nat) (x : UInt8) : Except Fault (List UInt8) :=
  if i < a.length then .ok (a.set i x) else .error .ub

theorem rd_ok {a : List UInt8} {i : Nat} {x : UInt8} (h : a[i]? = some x) : rd a i = .ok x := by
  unfold rd; rw [h]

theorem rd_append {a b : List UInt8} {x : UInt8} : rd (a ++ x :: b) a.length = .ok x :=
  rd_ok (by simp)

theorem rd_ub {a : List UInt8} {i : Nat} (h : a.length ≤ i) : rd a i = .error .ub := by
  unfold rd; rw [List.getElem?_eq_none h]

theorem wr_ok {a : List UInt8} {i : Nat} {x : UInt8} (h : i < a.length) : wr a i x = .ok (a.set i x) := by
  unfold wr; rw [if_pos h]

/-- Writing right after a prefix. -/
theorem wr_append {a b : List UInt8} {x y : UInt8} :
    wr (a ++ y :: b) a.length x = .ok (a ++ x :: b) := by
  rw [wr_ok (by simp)]
  simp

end Verif.Str
