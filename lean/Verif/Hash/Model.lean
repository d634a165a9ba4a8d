import Verif.Basic

/-!
# Model of `src/rtpp_hash_table.c`

Doubly linked collision chains are modelled as lists in chain order; the bucket
array is a function from bucket index to chain together with its length.  The
hash function (XXH64 with a random seed, lines 206-211) is an arbitrary function
`hash : K → Nat`.  Keys of the four key types are an arbitrary type `K` with
decidable equality; the `strKeys` flag selects the extra comparison of hashes
made for string keys only.  The mutex makes each operation atomic and is not
modelled further.  Failure of `malloc` for an entry is not modelled; failure of
the allocation made by a resize is (`memOk`).
-/

namespace Verif.Hash

/-- `struct rtpp_hash_table_entry`, rtpp_hash_table.c:49-64.  `id` stands for the
address of the entry (the handle returned to the caller), `val` for `sptr`. -/
structure Entry (K V : Type) where
  id : Nat
  key : K
  val : V
  hash : Nat
  deriving DecidableEq, Repr

/-- `struct rtpp_hash_table_l1`, rtpp_hash_table.c:80-89 (debug counters omitted). -/
structure L1 (K V : Type) where
  num : Nat
  len : Nat
  bkt : Nat → List (Entry K V)

/-- Constructor arguments: hash function, key type class and flags
(rtpp_hash_table.c:91-98, 147-177; rtpp_hash_table.h `RTPP_HT_NODUPS`,
`RTPP_HT_DUP_ABRT`). -/
structure Cfg (K : Type) where
  hash : K → Nat
  strKeys : Bool
  nodups : Bool
  dupAbrt : Bool

/-- `HT_GETREF`, rtpp_hash_table.c:46 — the bucket index is the hash masked with
`ht_len - 1`. -/
def slot {K V} (t : L1 K V) (h : Nat) : Nat := h &&& (t.len - 1)

/-- Assign one bucket. -/
def setBkt {K V} (t : L1 K V) (i : Nat) (c : List (Entry K V)) : L1 K V :=
  { t with bkt := fun j => if j = i then c else t.bkt j }

/-- Freshly allocated table of `len` buckets (rtpp_hash_table.c:152-167). -/
def emptyL1 {K V} (len : Nat) : L1 K V := ⟨0, len, fun _ => []⟩

/-- `rtpp_ht_cmpkey2`, rtpp_hash_table.c:258-280. -/
def cmpkey2 {K V} [DecidableEq K] (cfg : Cfg K) (a b : Entry K V) : Bool :=
  if cfg.strKeys && a.hash != b.hash then false else decide (a.key = b.key)

/-- Search condition of `hash_table_find_raw`, `…_remove_by_key_raw`,
`…_foreach_key_raw` (rtpp_hash_table.c:590-596, 518-524, 701-706). -/
def cmpkey {K V} [DecidableEq K] (cfg : Cfg K) (sp : Entry K V) (k : K) : Bool :=
  if cfg.strKeys && cfg.hash k != sp.hash then false else decide (sp.key = k)

inductive InsRes (α : Type) where
  | inserted (t : α)
  | rejected
  | aborted

/-- `hash_table_insert_locked`, rtpp_hash_table.c:309-343: append to the tail of
the chain after the duplicate scan. -/
def insertLocked {K V} [DecidableEq K] (cfg : Cfg K) (t : L1 K V) (sp : Entry K V) :
    InsRes (L1 K V) :=
  let i := slot t sp.hash
  match t.bkt i with
  | [] => .inserted { setBkt t i [sp] with num := t.num + 1 }
  | c =>
    if cfg.nodups && c.any (cmpkey2 cfg sp) then
      if cfg.dupAbrt then .aborted else .rejected
    else .inserted { setBkt t i (c ++ [sp]) with num := t.num + 1 }

/-- All entries in the order of the nested loops over buckets and chains
(rtpp_hash_table.c:644-646, 805-806). -/
def flat {K V} (t : L1 K V) : List (Entry K V) := (List.range t.len).flatMap t.bkt

/-- `hash_table_resize_locked`, rtpp_hash_table.c:794-815: every entry is
re-inserted into a fresh table; the return value of the insertion is ignored (a
rejected entry would be lost), an abort is an abort. -/
def resizeLocked {K V} [DecidableEq K] (cfg : Cfg K) (t : L1 K V) (newLen : Nat) :
    Except Fault (L1 K V) :=
  (flat t).foldlM (init := emptyL1 newLen) fun n sp =>
    match insertLocked cfg n sp with
    | .inserted n' => .ok n'
    | .rejected => .ok n
    | .aborted => .error .abort

/-- Load-factor test, rtpp_hash_table.c:356: `num / len > 0.7`. The C code divides
two `float`s; with a power-of-two length and fewer than 2^24 entries the quotient is
exact. -/
def overloaded {K V} (t : L1 K V) : Bool := decide (7 * t.len < 10 * t.num)

/-- Table object: the level-1 array and a supply of fresh entry addresses. -/
structure Table (K V : Type) where
  l1 : L1 K V
  nextId : Nat

/-- `rtpp_hash_table_ctor`, rtpp_hash_table.c:147-177. -/
def init {K V} : Table K V := ⟨emptyL1 256, 0⟩

/-- `hash_table_insert`, rtpp_hash_table.c:345-362, of an entry with the given key, value
and stored hash.  Returns the handle (`none` = refused) and the `first` indication.
`memOk` is the outcome of the allocation in the resize.  The address of the entry is a
fresh number of the receiving table. -/
def insert {K V} [DecidableEq K] (cfg : Cfg K) (t : Table K V) (k : K) (v : V) (hash : Nat)
    (memOk : Bool) : Except Fault (Table K V × Option Nat × Bool) :=
  let sp : Entry K V := ⟨t.nextId, k, v, hash⟩
  match insertLocked cfg t.l1 sp with
  | .aborted => .error .abort
  | .rejected => .ok (t, none, false)
  | .inserted l1 =>
    if overloaded l1 && memOk then
      match resizeLocked cfg l1 (l1.len * 2) with
      | .error e => .error e
      | .ok l1' => .ok (⟨l1', t.nextId + 1⟩, some t.nextId, l1'.num == 1)
    else .ok (⟨l1, t.nextId + 1⟩, some t.nextId, l1.num == 1)

/-- `hash_table_append_raw`, `hash_table_append_refcnt`, `hash_table_append_str_refcnt`,
rtpp_hash_table.c:364-443: the stored hash is the hash of the key. -/
def append {K V} [DecidableEq K] (cfg : Cfg K) (t : Table K V) (k : K) (v : V) (memOk : Bool) :
    Except Fault (Table K V × Option Nat × Bool) :=
  insert cfg t k v (cfg.hash k) memOk

/-- `hash_table_remove_locked`, rtpp_hash_table.c:445-466, for an entry `sp` that
sits in chain `i`.  If it is the head of its chain the bucket selected by `hash` is
overwritten with `sp->next`; doing that for a wrong bucket corrupts the table (`ub`).
Returns the new array and the `last` indication. -/
def removeLocked {K V} (t : L1 K V) (i : Nat) (sp : Entry K V) (hash : Nat) :
    Except Fault (L1 K V × Bool) :=
  let c := t.bkt i
  match c with
  | [] => .error .ub
  | e :: _ =>
    if e.id = sp.id ∧ slot t hash ≠ i then .error .ub
    else
      let t' := { setBkt t i (c.eraseP (fun x => x.id == sp.id)) with num := t.num - 1 }
      .ok (t', t'.num == 0)

/-- `hash_table_remove(_str)`, rtpp_hash_table.c:468-504: remove by handle; the
caller supplies the key again.  A handle that is not in the table is a dangling
pointer (`ub`). -/
def remove {K V} (cfg : Cfg K) (t : Table K V) (k : K) (id : Nat) :
    Except Fault (Table K V) :=
  match (flat t.l1).find? (fun e => e.id == id) with
  | none => .error .ub
  | some sp =>
    match removeLocked t.l1 (slot t.l1 sp.hash) sp (cfg.hash k) with
    | .error e => .error e
    | .ok (l1, _) => .ok { t with l1 := l1 }

/-- `hash_table_remove_by_key_raw`, rtpp_hash_table.c:506-531.  Returns the unlinked
entry and the `last` indication. -/
def removeByKeyRaw {K V} [DecidableEq K] (cfg : Cfg K) (t : Table K V) (k : K) :
    Except Fault (Table K V × Option (Entry K V) × Bool) :=
  let i := slot t.l1 (cfg.hash k)
  match (t.l1.bkt i).find? (fun e => cmpkey cfg e k) with
  | none => .ok (t, none, false)
  | some sp =>
    match removeLocked t.l1 i sp (cfg.hash k) with
    | .error e => .error e
    | .ok (l1, last) => .ok ({ t with l1 := l1 }, some sp, last)

/-- `hash_table_remove_by_key`, rtpp_hash_table.c:533-551. -/
def removeByKey {K V} [DecidableEq K] (cfg : Cfg K) (t : Table K V) (k : K) :
    Except Fault (Table K V × Option V × Bool) :=
  match removeByKeyRaw cfg t k with
  | .error e => .error e
  | .ok (t', sp, last) => .ok (t', sp.map (·.val), last)

/-- `hash_table_find(_raw,_str)`, rtpp_hash_table.c:579-624. -/
def find {K V} [DecidableEq K] (cfg : Cfg K) (t : Table K V) (k : K) : Option V :=
  ((t.l1.bkt (slot t.l1 (cfg.hash k))).find? (fun e => cmpkey cfg e k)).map (·.val)

/-- Answer of a match callback: `RTPP_HT_MATCH_DEL`, `RTPP_HT_MATCH_BRK`. -/
structure MVal where
  del : Bool
  brk : Bool
  deriving DecidableEq, Repr

/-- A loop over a list of entries calling back with user state `S`, deleting and
breaking as told: the common body of `hash_table_foreach_rc`
(rtpp_hash_table.c:644-661) and `hash_table_foreach_key_raw` (699-718).  The entry is
removed with its own stored hash. -/
def iterate {K V S} (f : V → S → S × MVal) (t : L1 K V) (last : Bool) (s : S) :
    List (Entry K V) → Except Fault (L1 K V × Bool × S)
  | [] => .ok (t, last, s)
  | sp :: rest =>
    let (s', m) := f sp.val s
    if m.del then
      match removeLocked t (slot t sp.hash) sp sp.hash with
      | .error e => .error e
      | .ok (t', l) =>
        if m.brk then .ok (t', last || l, s') else iterate f t' (last || l) s' rest
    else if m.brk then .ok (t, last, s') else iterate f t last s' rest

/-- `hash_table_foreach(_rc)`, rtpp_hash_table.c:628-683.  Because the successor is
read before the callback runs and the callback cannot touch the table (it runs under
the lock), the entries visited are those present at the start. -/
def foreach {K V S} (t : Table K V) (f : V → S → S × MVal) (s : S) :
    Except Fault (Table K V × Bool × S) :=
  if t.l1.num = 0 then .ok (t, false, s)
  else match iterate f t.l1 false s (flat t.l1) with
    | .error e => .error e
    | .ok (l1, last, s') => .ok ({ t with l1 := l1 }, last, s')

/-- `hash_table_foreach_key(_raw,_str)`, rtpp_hash_table.c:685-743. -/
def foreachKey {K V S} [DecidableEq K] (cfg : Cfg K) (t : Table K V) (k : K)
    (f : V → S → S × MVal) (s : S) : Except Fault (Table K V × S) :=
  if t.l1.num = 0 then .ok (t, s)
  else match iterate f t.l1 false s
        ((t.l1.bkt (slot t.l1 (cfg.hash k))).filter (fun e => cmpkey cfg e k)) with
    | .error e => .error e
    | .ok (l1, _, s') => .ok ({ t with l1 := l1 }, s')

/-- `hash_table_get_length`, rtpp_hash_table.c:745-757. -/
def getLength {K V} (t : Table K V) : Nat := t.l1.num

/-- `hash_table_transfer`, rtpp_hash_table.c:553-577: move the first entry with the
key to another table.  The entry keeps the hash computed with the seed of the source
table; a refused insertion frees it.  Result: both tables, the value, and the
`last`/`first` indications (one shared `opstats` structure). -/
def transfer {K V} [DecidableEq K] (cfg cfg' : Cfg K) (t u : Table K V) (k : K) (memOk : Bool) :
    Except Fault (Table K V × Table K V × Option V × Bool × Bool) :=
  match removeByKeyRaw cfg t k with
  | .error e => .error e
  | .ok (t', none, _) => .ok (t', u, none, false, false)
  | .ok (t', some sp, last) =>
    match insert cfg' u sp.key sp.val sp.hash memOk with
    | .error e => .error e
    | .ok (u', _, first) => .ok (t', u', some sp.val, last, first)

/-- `PURGE_BATCH`, rtpp_hash_table.c:759. -/
def purgeBatch : Nat := 64

/-- `hash_table_purge_f`, rtpp_hash_table.c:765-774. -/
def purgeF {V} (v : V) (pb : List V) : List V × MVal :=
  let pb' := pb ++ [v]
  (pb', ⟨true, pb'.length == purgeBatch⟩)

/-- `hash_table_purge`, rtpp_hash_table.c:776-792: returns the number of batches and
the released values in order.  The loop is given fuel; the theorem about it shows that
`num + 1` suffices. -/
def purge {K V} (fuel : Nat) (t : Table K V) : Except Fault (Table K V × Nat × List V) :=
  match fuel with
  | 0 => .error .ub
  | fuel + 1 =>
    match foreach t purgeF [] with
    | .error e => .error e
    | .ok (t', _, pb) =>
      if pb.length = 0 then .ok (t', 0, [])
      else match purge fuel t' with
        | .error e => .error e
        | .ok (t'', n, vs) => .ok (t'', n + 1, pb ++ vs)

/-! ### Histories -/

/-- API calls on one table.  Callback state is a list of values, enough for any
callback to accumulate what it saw. -/
inductive Op (K V : Type) where
  | append (k : K) (v : V) (memOk : Bool)
  | remove (k : K) (id : Nat)
  | removeByKey (k : K)
  | find (k : K)
  | length
  | foreachKey (k : K) (f : V → List V → List V × MVal)

/-- Observable results. -/
inductive Out (V : Type) where
  | handle (h : Option Nat) (first : Bool)
  | value (v : Option V)
  | removed (v : Option V) (last : Bool)
  | len (n : Nat)
  | seen (s : List V)
  | unit
  deriving DecidableEq, Repr

def step {K V} [DecidableEq K] (cfg : Cfg K) (t : Table K V) :
    Op K V → Except Fault (Table K V × Out V)
  | .append k v m =>
    match append cfg t k v m with
    | .error e => .error e
    | .ok (t', h, first) => .ok (t', .handle h first)
  | .remove k id =>
    match remove cfg t k id with
    | .error e => .error e
    | .ok t' => .ok (t', .unit)
  | .removeByKey k =>
    match removeByKey cfg t k with
    | .error e => .error e
    | .ok (t', v, last) => .ok (t', .removed v last)
  | .find k => .ok (t, .value (find cfg t k))
  | .length => .ok (t, .len (getLength t))
  | .foreachKey k f =>
    match foreachKey cfg t k f [] with
    | .error e => .error e
    | .ok (t', s) => .ok (t', .seen s)

/-- Run a history, collecting the observable results. -/
def run {K V} [DecidableEq K] (cfg : Cfg K) (t : Table K V) :
    List (Op K V) → Except Fault (Table K V × List (Out V))
  | [] => .ok (t, [])
  | op :: ops =>
    match step cfg t op with
    | .error e => .error e
    | .ok (t', o) =>
      match run cfg t' ops with
      | .error e => .error e
      | .ok (t'', os) => .ok (t'', o :: os)

end Verif.Hash
