import Verif.Basic

/-!
# Model of the loading of modules (`src/rtpp_modman.c`, `src/rtpp_module_if.c`, `src/rtpp_cfile.c`)

The section `modules` of the configuration file is read, the modules are loaded in that order, and the numbers they get are
those that the command `U` or `L` names them with.

Simplifications: what is in a shared object is known by what matters here; the reading of the file and the parameters of a
module are not modelled beyond whether they succeed.
-/

namespace Verif.Modman

/-- A module that is to be loaded: `descr.module_id`, whether `capi->ul_subc_handle` and `on_session_end` are there; whether
there is memory for the object, the loading succeeds, and the parameters are right. -/
structure Desc where
  id : Nat
  ul : Bool
  acct : Bool
  made : Bool := true
  loads : Bool := true
  conf : Bool := true
  deriving DecidableEq, Repr

/-- `struct rtpp_module_if`: `ids->instance_id`, `ids->module_idx`. -/
structure Lm where
  d : Desc
  inst : Nat
  idx : Nat
  deriving DecidableEq, Repr

/-- `struct rtpp_modman`. -/
structure Mgr where
  all : List Lm
  total : Nat
  sessAcct : Nat
  deriving DecidableEq, Repr

def Mgr.empty : Mgr := ⟨[], 0, 0⟩

/-- `rtpp_modman_get_next_id`, rtpp_modman.c:129-144. -/
def Mgr.nextId (m : Mgr) (id : Nat) : Nat := m.all.foldl (fun ri t => if t.d.id ≠ id then ri else ri + 1) 1

/-- `rtpp_modman_insert`, rtpp_modman.c:94-105. -/
def Mgr.insert (m : Mgr) (d : Desc) (inst : Nat) : Mgr :=
  ⟨m.all ++ [⟨d, inst, m.total⟩], m.total + 1, if d.acct then m.sessAcct + 1 else m.sessAcct⟩

/-- `rtpp_mif_load`, rtpp_module_if.c:234-330, gives the number; at the label `e1` the object is released, which frees it, and
used after that. `parse_modules`, rtpp_cfile.c:152-242. -/
def parse : Mgr → List Desc → Except Fault (Mgr × Bool)
  | m, [] => .ok (m, true)
  | m, d :: ds =>
    if !d.made then .ok (m, false)
    else if !d.loads then .error .ub
    else if !d.conf then .error .ub
    else parse (m.insert d (m.nextId d.id)) ds

/-- The loop of `rtpp_modman_get_ul_subc_h`, rtpp_modman.c:159-177; gives the number of the module. -/
def ulLoop (id inst : Nat) : List Lm → Option Nat
  | [] => none
  | t :: l =>
    if t.d.id ≠ id ∨ t.inst ≠ inst then ulLoop id inst l
    else if !t.d.ul then none
    else some t.idx

def Mgr.getUl (m : Mgr) (id inst : Nat) : Option Nat := ulLoop id inst m.all

end Verif.Modman
