/-!
# Common vocabulary

Outcomes of C code that are not ordinary results.
-/

namespace Verif

/-- Abnormal outcomes of modelled C code.
* `ub`     – undefined behaviour (out-of-bounds access, use of a dangling pointer, …)
* `abort`  – `abort()` or a failed `assert()`; the process terminates. -/
inductive Fault where
  | ub
  | abort
  deriving DecidableEq, Repr

end Verif
