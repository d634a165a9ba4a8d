import Verif.Basic

/-!
# Model of `src/rtpp_refcnt.c` — reference counted objects shared between threads

A transition system: any number of threads, each executing the C functions one shared
memory access at a time (sequentially consistent interleaving; weak-memory effects are not
modelled).  The debug-only assertions (`RTPP_DBG_ASSERT`) and tracing are left out: they
are compiled out of release builds.  `D` is the type of destructor records
(`struct dtor_pair`); a destructor that releases another counted object (`DTOR_RC_INIT`)
is one opaque record.  Running a destructor is one step; what the destructor does to other
objects is outside this model.
-/

namespace Verif.Refcnt

/-- rtpp_refcnt.h:32. -/
def maxDtors : Nat := 24

/-- Where a thread is inside one of the functions. -/
inductive Pc (D : Type) where
  /-- Not inside any of the functions. -/
  | idle
  /-- `incref`, `shared` was set: before the fetch_add, rtpp_refcnt.c:245. -/
  | incAdd
  /-- `incref`, `shared` was clear: before `shared = 1`, rtpp_refcnt.c:248. -/
  | incStore
  /-- `incref`: before the store of 1, rtpp_refcnt.c:249. -/
  | incStore2
  /-- `decref`, `shared` was set: before the fetch_sub, rtpp_refcnt.c:308. -/
  | decSub
  /-- `decref`, last reference gone: before reading `ulen`, rtpp_refcnt.c:331. -/
  | finRead
  /-- `decref`: destructors with index `< k` are still to be run, rtpp_refcnt.c:332-352. -/
  | fin (k : Nat)
  /-- `attach`: index reserved, slot not yet written, rtpp_refcnt.c:196. -/
  | attWrite (idx : Nat) (d : D)
  /-- `attach`: no room, before the fetch_sub, rtpp_refcnt.c:193. -/
  | attUndo
  /-- `tryincref`, `shared` was clear: before `shared = 1`, rtpp_refcnt.c:274. -/
  | tryStore
  /-- `tryincref`: before the store of 1, rtpp_refcnt.c:275. -/
  | tryStore2
  /-- `tryincref`, `shared` was set: before the fetch_add, rtpp_refcnt.c:278. -/
  | tryAdd
  /-- `tryincref`, count was negative: before the fetch_sub, rtpp_refcnt.c:280. -/
  | tryUndo
  deriving DecidableEq, Repr

/-- A thread: number of references it owns, position, and the results of the conditional
acquires it made (latest first). -/
structure Thr (D : Type) where
  held : Nat
  pc : Pc D
  res : List Bool
  deriving DecidableEq, Repr

/-- `struct rtpp_refcnt_priv`, rtpp_refcnt.c:75-87 (`n` is `ulen + 1`), plus the threads and
history variables: `att` – destructors successfully attached, in order; `log` – destructors
run, in order; `dead` – a release found the count at zero; `freed` – the record in slot 0,
which frees the memory, has run; `ub` – freed memory was accessed or an unset record was
run. -/
structure State (D : Type) where
  cnt : Int
  shared : Bool
  n : Nat
  slots : List (Option D)
  ths : List (Thr D)
  att : List D
  log : List D
  dead : Bool
  freed : Bool
  ub : Bool
  deriving DecidableEq, Repr

/-- What a thread does next. -/
inductive Act (D : Type) where
  | incref
  | decref
  | attach (d : D)
  | tryincref
  /-- Hand one owned reference over to thread `j` (no code: ownership only). -/
  | give (j : Nat)
  /-- Perform the next access of the function being executed. -/
  | cont
  deriving DecidableEq, Repr

variable {D : Type}

/-- `rtpp_refcnt_ctor`, rtpp_refcnt.c:131-161 (and `_pa`, 163-182): one reference, owned by
thread 0 of `k + 1` threads; `ds` are the initial records (one or two in `_ctor`). -/
def init (k : Nat) (ds : List D) : State D where
  cnt := 0
  shared := false
  n := ds.length
  slots := ds.map some ++ List.replicate (maxDtors - ds.length) none
  ths := ⟨1, .idle, []⟩ :: List.replicate k ⟨0, .idle, []⟩
  att := ds
  log := []
  dead := false
  freed := false
  ub := false

/-- Replace thread `i`, recording an access to the object's memory. -/
def acc (s : State D) (i : Nat) (t : Thr D) : State D :=
  { s with ths := s.ths.set i t, ub := s.ub || s.freed }

/-- One atomic step of thread `i`; `none` if the step is not possible.  A thread may call
`incref`, `decref`, `attach` or hand a reference over only while it owns one (the usage
discipline of the code base); `tryincref` may be called without owning one. -/
def step (s : State D) (i : Nat) (a : Act D) : Option (State D) :=
  match s.ths[i]? with
  | none => none
  | some t =>
    match t.pc, a with
    -- rtpp_refcnt_incref, rtpp_refcnt.c:231-264
    | .idle, .incref =>
      if t.held = 0 then none else
      some (acc s i { t with pc := if s.shared then .incAdd else .incStore })
    | .incAdd, .cont =>
      some { acc s i { t with pc := .idle, held := t.held + 1 } with cnt := s.cnt + 1 }
    | .incStore, .cont =>
      some { acc s i { t with pc := .incStore2 } with shared := true }
    | .incStore2, .cont =>
      some { acc s i { t with pc := .idle, held := t.held + 1 } with cnt := 1 }
    -- rtpp_refcnt_decref, rtpp_refcnt.c:287-355
    | .idle, .decref =>
      if t.held = 0 then none else
      if s.shared then some (acc s i { t with pc := .decSub })
      else some { acc s i { t with pc := .finRead, held := t.held - 1 } with dead := true }
    | .decSub, .cont =>
      if s.cnt = 0 then
        some { acc s i { t with pc := .finRead, held := t.held - 1 } with
          cnt := s.cnt - 1, dead := true }
      else
        some { acc s i { t with pc := .idle, held := t.held - 1 } with cnt := s.cnt - 1 }
    | .finRead, .cont => some (acc s i { t with pc := .fin s.n })
    | .fin 0, .cont => some { s with ths := s.ths.set i { t with pc := .idle } }
    | .fin (k + 1), .cont =>
      match s.slots[k]?.join with
      | none => some { acc s i { t with pc := .fin k } with ub := true }
      | some d =>
        some { acc s i { t with pc := .fin k } with log := s.log ++ [d], freed := k == 0 }
    -- rtpp_refcnt_attach, rtpp_refcnt.c:184-198 (attach_rc, 207-221, is the same)
    | .idle, .attach d =>
      if t.held = 0 then none else
      if maxDtors ≤ s.n then
        some { acc s i { t with pc := .attUndo } with n := s.n + 1 }
      else
        some { acc s i { t with pc := .attWrite s.n d } with n := s.n + 1, att := s.att ++ [d] }
    | .attWrite idx d, .cont =>
      some { acc s i { t with pc := .idle } with slots := s.slots.set idx (some d) }
    | .attUndo, .cont =>
      some { acc s i { t with pc := .idle } with n := s.n - 1 }
    -- rtpp_refcnt_tryincref, rtpp_refcnt.c:266-285
    | .idle, .tryincref =>
      some (acc s i { t with pc := if s.shared then .tryAdd else .tryStore })
    | .tryStore, .cont =>
      some { acc s i { t with pc := .tryStore2 } with shared := true }
    | .tryStore2, .cont =>
      some { acc s i { t with pc := .idle, held := t.held + 1, res := true :: t.res } with
        cnt := 1 }
    | .tryAdd, .cont =>
      if s.cnt < 0 then
        some { acc s i { t with pc := .tryUndo } with cnt := s.cnt + 1 }
      else
        some { acc s i { t with pc := .idle, held := t.held + 1, res := true :: t.res } with
          cnt := s.cnt + 1 }
    | .tryUndo, .cont =>
      some { acc s i { t with pc := .idle, res := false :: t.res } with cnt := s.cnt - 1 }
    -- ownership transfer between threads, no memory access
    | .idle, .give j =>
      if t.held = 0 ∨ i = j then none else
      match s.ths[j]? with
      | none => none
      | some u =>
        let t' := { t with held := t.held - 1 }
        let u' := { u with held := u.held + 1 }
        some { s with ths := (s.ths.set i t').set j u' }
    | _, _ => none

/-- Run a schedule. -/
def exec (s : State D) : List (Nat × Act D) → Option (State D)
  | [] => some s
  | (i, a) :: rest =>
    match step s i a with
    | none => none
    | some s' => exec s' rest

end Verif.Refcnt
