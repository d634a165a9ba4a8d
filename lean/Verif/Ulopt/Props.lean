import Verif.Ulopt.Model
import Verif.Addr.Props
import Mathlib.Tactic.Tauto

/-!
# C52: the options of the offer/answer commands
-/

namespace Verif.Ulopt
open Verif.Str Verif.Addr

/-! ## Specification -/

inductive Mod where
  | asym | sym | ext | int | six | weak | newp
  | ptime (v : Int)
  | codecs (l : List UInt8)
  | label (l : List UInt8)
  | laddr (v6 : Bool) (a : List UInt8)
  | raddr (v6 : Bool) (a : List UInt8)
  deriving DecidableEq

/-- A character of a list of codecs. -/
def CodecChar (c : UInt8) : Prop := (48 ≤ c.toNat ∧ c.toNat ≤ 57) ∨ c.toNat = 44

/-- The letter `c` is the letter `u` (given as a capital) or its small form. -/
def Letter (u c : UInt8) : Prop := c = u ∨ c = u + 32

/-- The string begins with the modifier `m`; `r` is what follows it. -/
inductive First : List UInt8 → Mod → List UInt8 → Prop
  | asym {c r} (h : Letter 65 c) : First (c :: r) .asym r
  | sym {c r} (h : Letter 83 c) : First (c :: r) .sym r
  | ext {c r} (h : Letter 69 c) : First (c :: r) .ext r
  | int {c r} (h : Letter 73 c) : First (c :: r) .int r
  | six {r} : First (54 :: r) .six r
  | weak {c r} (h : Letter 87 c) : First (c :: r) .weak r
  | newp {c r} (h : Letter 78 c) : First (c :: r) .newp r
  | ptime {c p r v} (h : Letter 90 c) (hp : Numeral p v) (hr : NoDigit r) : First (c :: (p ++ r)) (.ptime v) r
  | codecs {c l r} (h : Letter 67 c) (hne : l ≠ []) (hl : ∀ x ∈ l, CodecChar x) (hr : ∀ x ∈ r.head?, ¬ CodecChar x) :
      First (c :: (l ++ r)) (.codecs l) r
  | label {c s l r} (h : Letter 76 c) (hl : IsLabel s l r) : First (c :: s) (.label l) r
  | laddr {c s v a r} (h : Letter 76 c) (ha : IsAddr v s a r) : First (c :: s) (.laddr v a) r
  | raddr {c s v a r} (h : Letter 82 c) (ha : IsAddr v s a r) : First (c :: s) (.raddr v a) r

/-- The string is made of these modifiers. -/
inductive Reads : List UInt8 → List Mod → Prop
  | nil : Reads [] []
  | cons {s m r ms} (h : First s m r) (hr : Reads r ms) : Reads s (m :: ms)

def Mod.isDir : Mod → Bool | .ext => true | .int => true | _ => false
def Mod.isCodecs : Mod → Bool | .codecs _ => true | _ => false

/-- The label stands for a packet port (only in the library). -/
def IsPp (e : Env) (l : List UInt8) : Prop := e.isLib = true ∧ ∃ x, x ≠ [] ∧ l = rtq ++ x

/-- The local address a modifier asks for. -/
inductive Asks (e : Env) : Mod → Option Nat → Prop
  | label {l} (h : ¬ IsPp e l) : Asks e (.label l) (e.label2 l)
  | laddr {v a} : Asks e (.laddr v a) (e.host2 v a)
  | raddr {v a} : Asks e (.raddr v a) (e.local4remote v a)

/-- The packet port a modifier asks for. -/
inductive AsksPp (e : Env) : Mod → Option Nat → Prop
  | mk {x} (hl : e.isLib = true) (hx : x ≠ []) : AsksPp e (.label (rtq ++ x)) (e.pport x)

/-- The last modifier of some kind, if there is one. -/
def LastOf {α : Type} (P : Mod → Option α → Prop) (ms : List Mod) (x : Option α) : Prop :=
  (x = none ∧ ∀ m ∈ ms, ∀ y, ¬ P m y) ∨ ∃ a m b, ms = a ++ m :: b ∧ P m x ∧ ∀ m' ∈ b, ∀ y, ¬ P m' y

/-- The address of the interface a direction stands for. -/
def dirAddr (e : Env) (m : Mod) : Nat := if m = .ext then e.b1.getD 0 else e.b0

/-- Modifiers that are acceptable together. -/
structure Valid (e : Env) (ms : List Mod) : Prop where
  /-- packet durations in range -/
  ptime : ∀ v, Mod.ptime v ∈ ms → 0 < v ∧ v < 1000
  /-- at most one list of codecs -/
  codecs : (ms.filter Mod.isCodecs).length ≤ 1
  /-- at most two directions, and none unless there are two interfaces -/
  dirs : (ms.filter Mod.isDir).length ≤ 2
  bridge : (∃ m ∈ ms, m.isDir = true) → e.b1 ≠ none
  /-- every local address asked for exists -/
  loc : ∀ m ∈ ms, ∀ x, Asks e m x → x ≠ none
  pp : ∀ m ∈ ms, ∀ x, AsksPp e m x → x ≠ none

/-- The options that acceptable modifiers stand for. -/
structure Denotes (e : Env) (ms : List Mod) (o : Opts) : Prop where
  /-- the last of these letters counts -/
  asym : ∃ x, LastOf (fun m x => (m = .asym ∧ x = some true) ∨ (m = .sym ∧ x = some false)) ms x ∧
    o.asym = x.getD e.aforce
  weak : o.weak = true ↔ .weak ∈ ms
  newPort : o.newPort = true ↔ .newp ∈ ms
  v6 : o.v6 = true ↔ .six ∈ ms
  ptime : ∃ x, LastOf (fun m x => ∃ v, m = .ptime v ∧ x = some v) ms x ∧ o.ptime = x.getD (-1)
  codecs : ∀ l, o.codecs = some l ↔ .codecs l ∈ ms
  /-- the first direction is that of the answering side, the second that of the offering side -/
  lia1 : o.lia1 = ((ms.filter Mod.isDir)[0]?.map (dirAddr e)).getD e.b0
  lia0 : o.lia0 = ((ms.filter Mod.isDir)[1]?.map (dirAddr e)).getD e.b0
  lidx : o.lidx1 = 2 - (ms.filter Mod.isDir).length
  loc : LastOf (Asks e) ms o.loc
  lpp : LastOf (AsksPp e) ms o.lpp

/-! ## One round -/

/-- What a modifier does to the options. -/
def applyMod (e : Env) (o : Opts) : Mod → Except Ecode Opts
  | .asym => .ok { o with asym := true }
  | .sym => .ok { o with asym := false }
  | .ext =>
    match e.b1 with
    | none => .error .parse11
    | some b => if o.lidx1 = 0 then .error .parse11 else .ok (o.dir b)
  | .int =>
    match e.b1 with
    | none => .error .parse12
    | some _ => if o.lidx1 = 0 then .error .parse12 else .ok (o.dir e.b0)
  | .six => .ok { o with v6 := true }
  | .weak => .ok { o with weak := true }
  | .newp => .ok { o with newPort := true }
  | .ptime v => if v ≤ 0 ∨ v ≥ 1000 then .error .parse13 else .ok { o with ptime := v }
  | .codecs l => if o.codecs ≠ none then .error .parse14 else .ok { o with codecs := some l }
  | .label l => useLabel e o l
  | .laddr v a => match e.host2 v a with | none => .error .invlarg1 | some b => .ok { o with loc := some b }
  | .raddr v a => match e.local4remote v a with | none => .error .invlarg2 | some b => .ok { o with loc := some b }

/-- Numbers as they arrive in an `int`. -/
def wrapV (v : Int) : Int := toInt (if v > longMax then longMax else if v < longMin then longMin else v)
def Mod.wrap : Mod → Mod
  | .ptime v => .ptime (wrapV v)
  | m => m

theorem strAt_at {mem : List UInt8} {i : Nat} {s : List UInt8} (h : At mem i s) : strAt mem i = .ok s := by
  unfold strAt
  rw [scan_at h]
  have e : s.takeWhile (fun _ => true) = s := by simp
  rw [e]
  simp only
  rw [Nat.add_sub_cancel_left]
  have := At.take (a := s) (r := []) (by simpa using h)
  rw [this]

theorem codecChar_iff (c : UInt8) : (isDigit c || c == 44) = true ↔ CodecChar c := by
  simp only [isDigit, CodecChar, Bool.or_eq_true, decide_eq_true_eq, beq_iff_eq]
  constructor
  · rintro (h | rfl)
    · exact .inl h
    · exact .inr rfl
  · rintro (h | h)
    · exact .inl h
    · exact .inr (UInt8.toNat_inj.1 h)

theorem addr_at {mem : List UInt8} {i : Nat} {s a r : List UInt8} {v : Bool} (h : At mem i s) (ha : IsAddr v s a r) :
    ∃ b, extractaddr mem i = .ok (some ⟨a.length, b, i + (s.length - r.length), v⟩) ∧ (mem.drop b).take a.length = a ∧
      At mem (i + (s.length - r.length)) r := by
  have htake : (mem.drop (i + if v = true then 1 else 0)).take a.length = a ∧ At mem (i + (s.length - r.length)) r := by
    cases ha with
    | v4 hne ha hr =>
      refine ⟨At.take h, ?_⟩
      have := At.cons h
      simpa using this
    | v6 hne ha =>
      have h1 : At mem (i + 1) (a ++ 93 :: r) := At.cons (a := [91]) h
      refine ⟨At.take h1, ?_⟩
      have h2 : At mem (i + 1 + a.length + 1) r := At.cons (a := [93]) (At.cons h1)
      have : i + ((91 :: (a ++ 93 :: r)).length - r.length) = i + 1 + a.length + 1 := by simp; omega
      rw [this]; exact h2
  obtain ⟨o, h1, h2, -⟩ := C45_addr mem i s h
  refine ⟨_, ?_, htake.1, htake.2⟩
  rw [h1, (h2 ⟨a.length, i + if v = true then 1 else 0, i + (s.length - r.length), v⟩).2 ⟨a, r, ha, htake.1, rfl, rfl, rfl⟩]

theorem label_at {mem : List UInt8} {i : Nat} {s l r : List UInt8} (h : At mem i s) (hl : IsLabel s l r) :
    ∃ b f, extractlabel mem i = .ok (some ⟨l.length, b, f, false⟩) ∧ f + 1 = i + (s.length - r.length) ∧
      (mem.drop b).take l.length = l ∧ At mem (i + (s.length - r.length)) r ∧ s.headD 0 = 123 := by
  cases hl with
  | mk hne hn =>
    have h1 : At mem (i + 1) (l ++ 125 :: r) := At.cons (a := [123]) h
    have h2 : At mem (i + 1 + l.length + 1) r := At.cons (a := [125]) (At.cons h1)
    have e : i + ((123 :: (l ++ 125 :: r)).length - r.length) = i + 1 + l.length + 1 := by simp; omega
    obtain ⟨o, k1, k2, -⟩ := C45_label mem i _ h
    refine ⟨i + 1, i + 1 + l.length, ?_, e.symm, At.take h1, by rw [e]; exact h2, rfl⟩
    rw [k1, (k2 ⟨l.length, i + 1, i + 1 + l.length, false⟩ rfl).2 ⟨l, r, .mk hne hn, At.take h1, rfl, rfl, e.symm⟩]

theorem isAddr_head {v : Bool} {s a r : List UInt8} (h : IsAddr v s a r) : s.headD 0 ≠ 123 := by
  cases h with
  | v4 hne ha hr =>
    obtain ⟨x, a', rfl⟩ : ∃ x a', a = x :: a' := by
      cases a with
      | nil => exact absurd rfl hne
      | cons x a' => exact ⟨x, a', rfl⟩
    have := ha x (by simp)
    simp only [List.cons_append, List.headD_cons]
    rintro rfl
    revert this
    unfold V4Char
    decide
  | v6 hne ha => simp

theorem strtol_unused {s : List UInt8} (h : (strtol s).used = 0) : (strtol s).val = 0 := by
  unfold strtol at h ⊢
  simp only at h ⊢
  generalize (s.drop ((s.takeWhile isSpace).length + (signOf (s.drop (s.takeWhile isSpace).length)).1)).takeWhile isDigit = ds at h ⊢
  by_cases hd : ds = []
  · rw [if_pos hd]
  · rw [if_neg hd] at h
    have := List.length_pos_iff.2 hd
    exfalso
    repeat' split at h
    all_goals (change _ + _ = 0 at h; omega)

theorem strtol_wrap {p r : List UInt8} {v : Int} (hp : Numeral p v) (hr : NoDigit r) :
    (strtol (p ++ r)).used = p.length ∧ toInt (strtol (p ++ r)).val = wrapV v := by
  obtain ⟨h1, h2, -⟩ := strtol_numeral hp hr
  refine ⟨h1, ?_⟩
  unfold wrapV
  congr 1
  rcases h2 with ⟨a, b, c, -⟩ | ⟨a, b, -⟩ | ⟨a, b, -⟩
  · rw [if_neg (by omega), if_neg (by omega), c]
  · rw [if_pos a, b]
  · rw [if_neg (by unfold longMax longMin at *; omega), if_pos a, b]

/-- What a round does, given what the modifier does. -/
def roundOf (r : Except Ecode Opts) (next : Nat) : Except Fault (Except Ecode (Opts × Nat)) :=
  match r with
  | .error x => .ok (.error x)
  | .ok o => .ok (.ok (o, next))

theorem step_first {e : Env} {mem : List UInt8} {cp : Nat} {c : UInt8} {t : List UInt8} (h : At mem cp (c :: t)) (o : Opts)
    {m : Mod} {r : List UInt8} (hf : First (c :: t) m r) :
    step e mem cp c o = roundOf (applyMod e o m.wrap) (cp + ((c :: t).length - r.length)) ∧
    At mem (cp + ((c :: t).length - r.length)) r ∧ r.length < (c :: t).length := by
  have ht : At mem (cp + 1) t := At.cons (a := [c]) h
  generalize hs : c :: t = s at hf
  have one : ∀ {r : List UInt8}, t = r → cp + ((c :: t).length - r.length) = cp + 1 := by
    rintro r rfl; simp
  cases hf with
  | asym hl =>
    injection hs with h1 h2; subst h1; subst h2
    rw [one rfl]
    refine ⟨?_, ht, by simp⟩
    rcases hl with rfl | rfl <;> simp [step, applyMod, Mod.wrap, roundOf]
  | sym hl =>
    injection hs with h1 h2; subst h1; subst h2
    rw [one rfl]
    refine ⟨?_, ht, by simp⟩
    rcases hl with rfl | rfl <;> simp [step, applyMod, Mod.wrap, roundOf]
  | ext hl =>
    injection hs with h1 h2; subst h1; subst h2
    rw [one rfl]
    refine ⟨?_, ht, by simp⟩
    rcases hl with rfl | rfl <;>
    · simp only [step, applyMod, Mod.wrap, roundOf]
      cases e.b1 with
      | none => simp
      | some b => by_cases h0 : o.lidx1 = 0 <;> simp [h0]
  | int hl =>
    injection hs with h1 h2; subst h1; subst h2
    rw [one rfl]
    refine ⟨?_, ht, by simp⟩
    rcases hl with rfl | rfl <;>
    · simp only [step, applyMod, Mod.wrap, roundOf]
      cases e.b1 with
      | none => simp
      | some b => by_cases h0 : o.lidx1 = 0 <;> simp [h0]
  | six =>
    injection hs with h1 h2; subst h1; subst h2
    rw [one rfl]
    exact ⟨by simp [step, applyMod, Mod.wrap, roundOf], ht, by simp⟩
  | weak hl =>
    injection hs with h1 h2; subst h1; subst h2
    rw [one rfl]
    refine ⟨?_, ht, by simp⟩
    rcases hl with rfl | rfl <;> simp [step, applyMod, Mod.wrap, roundOf]
  | newp hl =>
    injection hs with h1 h2; subst h1; subst h2
    rw [one rfl]
    refine ⟨?_, ht, by simp⟩
    rcases hl with rfl | rfl <;> simp [step, applyMod, Mod.wrap, roundOf]
  | @ptime c' p r' v hl hp hr =>
    injection hs with h1 h2; subst h1; subst h2
    obtain ⟨u1, u2⟩ := strtol_wrap hp hr
    have en : cp + ((c :: (p ++ r)).length - r.length) = cp + 1 + p.length := by simp; omega
    rw [en]
    refine ⟨?_, At.cons ht, by simp; omega⟩
    have : step e mem cp c o = (if toInt (strtol (p ++ r)).val ≤ 0 ∨ toInt (strtol (p ++ r)).val ≥ 1000 then .ok (.error .parse13)
        else .ok (.ok ({ o with ptime := toInt (strtol (p ++ r)).val }, cp + 1 + (strtol (p ++ r)).used))) := by
      rcases hl with rfl | rfl <;> simp [step, strAt_at ht]
    rw [this, u1, u2]
    simp only [applyMod, Mod.wrap, roundOf]
    split <;> rfl
  | @codecs c' l r' hl hne hll hr =>
    injection hs with h1 h2; subst h1; subst h2
    have etw : (l ++ r).takeWhile (fun c => isDigit c || c == 44) = l :=
      takeWhile_prefix (fun c hc => (codecChar_iff c).2 (hll c hc)) (fun c hc => by
        have := hr c hc
        rw [← codecChar_iff] at this
        simpa using this)
    have hsc := scan_at (p := fun c => isDigit c || c == 44) ht
    rw [etw] at hsc
    have en : cp + ((c :: (l ++ r)).length - r.length) = cp + 1 + l.length := by simp; omega
    rw [en]
    refine ⟨?_, At.cons ht, by simp; omega⟩
    have hpos := List.length_pos_iff.2 hne
    have : step e mem cp c o = (if cp + 1 = cp + 1 + l.length ∨ o.codecs ≠ none then .ok (.error .parse14)
        else .ok (.ok ({ o with codecs := some ((mem.drop (cp + 1)).take (cp + 1 + l.length - (cp + 1))) }, cp + 1 + l.length))) := by
      rcases hl with rfl | rfl <;> simp only [step, hsc] <;> rfl
    rw [this, Nat.add_sub_cancel_left, At.take ht]
    simp only [applyMod, Mod.wrap, roundOf]
    by_cases hc : o.codecs = none
    · rw [if_neg (by simp [hc]; omega), if_neg (by simp [hc])]
    · rw [if_pos (.inr hc), if_pos hc]
  | @label c' s' l r' hl hlb =>
    injection hs with h1 h2; subst h1; subst h2
    obtain ⟨b, f, k1, k2, k3, k4, k5⟩ := label_at ht hlb
    have hrl : r.length < t.length := by cases hlb; simp; omega
    have en : cp + ((c :: t).length - r.length) = cp + 1 + (t.length - r.length) := by simp; omega
    rw [en]
    refine ⟨?_, k4, by simp; omega⟩
    have : step e mem cp c o = (match useLabel e o ((mem.drop b).take l.length) with
          | .error x => .ok (.error x)
          | .ok o => .ok (.ok (o, f + 1))) := by
      rcases hl with rfl | rfl <;> simp only [step, ht.head, k5, k1] <;> rfl
    rw [this, k3, k2]
    rfl
  | @laddr c' s' v a r' hl ha =>
    injection hs with h1 h2; subst h1; subst h2
    obtain ⟨b, k1, k2, k3⟩ := addr_at ht ha
    have hrl : r.length < t.length := by
      cases ha with
      | v4 hne _ _ => have := List.length_pos_iff.2 hne; simp; omega
      | v6 _ _ => simp; omega
    have en : cp + ((c :: t).length - r.length) = cp + 1 + (t.length - r.length) := by simp; omega
    rw [en]
    refine ⟨?_, k3, by simp; omega⟩
    have : step e mem cp c o = (match e.host2 v ((mem.drop b).take a.length) with
          | none => .ok (.error .invlarg1)
          | some b => .ok (.ok ({ o with loc := some b }, cp + 1 + (t.length - r.length)))) := by
      rcases hl with rfl | rfl <;> simp only [step, ht.head, if_neg (isAddr_head ha), k1] <;> rfl
    rw [this, k2]
    simp only [applyMod, Mod.wrap, roundOf]
    cases e.host2 v a <;> rfl
  | @raddr c' s' v a r' hl ha =>
    injection hs with h1 h2; subst h1; subst h2
    obtain ⟨b, k1, k2, k3⟩ := addr_at ht ha
    have hrl : r.length < t.length := by
      cases ha with
      | v4 hne _ _ => have := List.length_pos_iff.2 hne; simp; omega
      | v6 _ _ => simp; omega
    have en : cp + ((c :: t).length - r.length) = cp + 1 + (t.length - r.length) := by simp; omega
    rw [en]
    refine ⟨?_, k3, by simp; omega⟩
    have : step e mem cp c o = (match e.local4remote v ((mem.drop b).take a.length) with
          | none => .ok (.error .invlarg2)
          | some b => .ok (.ok ({ o with loc := some b }, cp + 1 + (t.length - r.length)))) := by
      rcases hl with rfl | rfl <;> simp only [step, k1] <;> rfl
    rw [this, k2]
    simp only [applyMod, Mod.wrap, roundOf]
    cases e.local4remote v a <;> rfl

theorem step_bad {e : Env} {mem : List UInt8} {cp : Nat} {c : UInt8} {t : List UInt8} (h : At mem cp (c :: t)) (o : Opts)
    (hf : ¬ ∃ m r, First (c :: t) m r) : ∃ x, step e mem cp c o = .ok (.error x) := by
  have ht : At mem (cp + 1) t := At.cons (a := [c]) h
  have letter : ∀ {u d : UInt8}, (c = d ∨ c = u) → d = u + 32 → Letter u c := by
    rintro u d (rfl | rfl) hd
    · exact .inr hd
    · exact .inl rfl
  unfold step
  by_cases hc : c = 97 ∨ c = 65
  · exact absurd ⟨_, _, .asym (letter hc rfl)⟩ hf
  rw [if_neg hc]
  clear hc
  by_cases hc : c = 101 ∨ c = 69
  · exact absurd ⟨_, _, .ext (letter hc rfl)⟩ hf
  rw [if_neg hc]
  clear hc
  by_cases hc : c = 105 ∨ c = 73
  · exact absurd ⟨_, _, .int (letter hc rfl)⟩ hf
  rw [if_neg hc]
  clear hc
  by_cases hc : c = 54
  · subst hc; exact absurd ⟨_, _, .six⟩ hf
  rw [if_neg hc]
  clear hc
  by_cases hc : c = 115 ∨ c = 83
  · exact absurd ⟨_, _, .sym (letter hc rfl)⟩ hf
  rw [if_neg hc]
  clear hc
  by_cases hc : c = 119 ∨ c = 87
  · exact absurd ⟨_, _, .weak (letter hc rfl)⟩ hf
  rw [if_neg hc]
  clear hc
  by_cases hc : c = 122 ∨ c = 90
  · rw [if_pos hc]
    rw [strAt_at ht]
    simp only
    by_cases hu : (strtol t).used = 0
    · rw [strtol_unused hu, if_pos (.inl (by decide))]
      exact ⟨_, rfl⟩
    · obtain ⟨p, rest, v, rfl, hp, hr⟩ := strtol_prefix hu
      exact absurd ⟨_, _, .ptime (letter hc rfl) hp hr⟩ hf
  rw [if_neg hc]
  clear hc
  by_cases hc : c = 99 ∨ c = 67
  · rw [if_pos hc]
    rw [scan_at ht]
    simp only
    obtain ⟨s1, s2, s3⟩ := split_while (fun c => isDigit c || c == 44) t
    by_cases hn : t.takeWhile (fun c => isDigit c || c == 44) = []
    · rw [hn, if_pos (.inl rfl)]
      exact ⟨_, rfl⟩
    · exfalso
      apply hf
      refine ⟨.codecs (t.takeWhile (fun c => isDigit c || c == 44)), t.dropWhile (fun c => isDigit c || c == 44), ?_⟩
      have : First (c :: (t.takeWhile (fun c => isDigit c || c == 44) ++ t.dropWhile (fun c => isDigit c || c == 44)))
          (.codecs (t.takeWhile (fun c => isDigit c || c == 44))) (t.dropWhile (fun c => isDigit c || c == 44)) :=
        .codecs (letter hc rfl) hn (fun x hx => (codecChar_iff x).1 (s2 x hx)) (fun x hx hv => by
          have := s3 x hx
          rw [(codecChar_iff x).2 hv] at this
          cases this)
      rwa [← s1] at this
  rw [if_neg hc]
  clear hc
  by_cases hc : c = 108 ∨ c = 76
  · rw [if_pos hc]
    rw [ht.head]
    simp only
    split
    · obtain ⟨w, k1, -, k3⟩ := C45_label mem (cp + 1) t ht
      have : w = none := k3.2 (by rintro ⟨l, r, hl⟩; exact hf ⟨_, _, .label (letter hc rfl) hl⟩)
      rw [k1, this]
      exact ⟨_, rfl⟩
    · obtain ⟨w, k1, -, k3⟩ := C45_addr mem (cp + 1) t ht
      have : w = none := k3.2 (by rintro ⟨v, a, r, hl⟩; exact hf ⟨_, _, .laddr (letter hc rfl) hl⟩)
      rw [k1, this]
      exact ⟨_, rfl⟩
  rw [if_neg hc]
  clear hc
  by_cases hc : c = 114 ∨ c = 82
  · rw [if_pos hc]
    obtain ⟨w, k1, -, k3⟩ := C45_addr mem (cp + 1) t ht
    have : w = none := k3.2 (by rintro ⟨v, a, r, hl⟩; exact hf ⟨_, _, .raddr (letter hc rfl) hl⟩)
    rw [k1, this]
    exact ⟨_, rfl⟩
  rw [if_neg hc]
  clear hc
  by_cases hc : c = 110 ∨ c = 78
  · exact absurd ⟨_, _, .newp (letter hc rfl)⟩ hf
  rw [if_neg hc]
  clear hc
  exact ⟨_, rfl⟩

/-! ## The loop -/

def foldMods (e : Env) : Opts → List Mod → Except Ecode Opts
  | o, [] => .ok o
  | o, m :: ms => match applyMod e o m with | .error x => .error x | .ok o => foldMods e o ms

theorem loop_ok {e : Env} {mem : List UInt8} : ∀ (n : Nat) (s : List UInt8), s.length ≤ n → ∀ (cp fuel : Nat) (o : Opts),
    At mem cp s → s.length < fuel →
    (∀ ms, Reads s ms → loop e mem fuel cp o = .ok (foldMods e o (ms.map Mod.wrap))) ∧
    ((¬ ∃ ms, Reads s ms) → ∃ x, loop e mem fuel cp o = .ok (.error x)) := by
  intro n
  induction n with
  | zero =>
    intro s hs cp fuel o h hf
    have : s = [] := List.length_eq_zero_iff.1 (by omega)
    subst this
    obtain ⟨k, rfl⟩ : ∃ k, fuel = k + 1 := ⟨fuel - 1, by simp at hf; omega⟩
    constructor
    · intro ms hr
      cases hr with
      | nil => simp [loop, h.head, foldMods]
      | cons hfst _ => cases hfst
    · intro hn; exact absurd ⟨[], .nil⟩ hn
  | succ n ih =>
    intro s hs cp fuel o h hf
    obtain ⟨k, rfl⟩ : ∃ k, fuel = k + 1 := ⟨fuel - 1, by omega⟩
    cases s with
    | nil =>
      constructor
      · intro ms hr
        cases hr with
        | nil => simp [loop, h.head, foldMods]
        | cons hfst _ => cases hfst
      · intro hn; exact absurd ⟨[], .nil⟩ hn
    | cons c t =>
      have hc : c ≠ 0 := h.1 c (by simp)
      have hl : loop e mem (k + 1) cp o = (match step e mem cp c o with
          | .error f => .error f
          | .ok (.error x) => .ok (.error x)
          | .ok (.ok r) => loop e mem k r.2 r.1) := by
        simp only [loop, h.head, List.headD_cons, if_neg hc]
        rfl
      rw [hl]
      by_cases hex : ∃ m r, First (c :: t) m r
      · obtain ⟨m, r, hfst⟩ := hex
        obtain ⟨h1, h2, h3⟩ := step_first (e := e) h o hfst
        rw [h1]
        cases ha : applyMod e o m.wrap with
        | error x =>
          simp only [roundOf]
          constructor
          · intro ms hr
            cases hr with
            | cons hf' hr' =>
              obtain ⟨g1, -, -⟩ := step_first (e := e) h o hf'
              rw [h1, ha] at g1
              simp only [List.map_cons, foldMods]
              cases hb : applyMod e o (Mod.wrap _) with
              | error y =>
                rw [hb] at g1
                simp only [roundOf, Except.ok.injEq, Except.error.injEq] at g1
                rw [g1]
              | ok y => rw [hb] at g1; simp only [roundOf] at g1; cases g1
          · intro _; exact ⟨x, rfl⟩
        | ok o' =>
          simp only [roundOf]
          constructor
          · intro ms hr
            cases hr with
            | @cons _ m' r' ms' hf' hr' =>
              obtain ⟨g1, g2, g3⟩ := step_first (e := e) h o hf'
              rw [h1, ha] at g1
              simp only [List.map_cons, foldMods]
              cases hb : applyMod e o m'.wrap with
              | error y => rw [hb] at g1; simp only [roundOf] at g1; cases g1
              | ok y =>
                rw [hb] at g1
                simp only [roundOf, Except.ok.injEq, Prod.mk.injEq] at g1
                obtain ⟨rfl, e2⟩ := g1
                rw [e2]
                exact (ih r' (by simp at hs g3; omega) _ k o' g2 (by simp at hf g3; omega)).1 ms' hr'
          · intro hn
            refine (ih r (by simp at hs h3; omega) _ k o' h2 (by simp at hf h3; omega)).2 ?_
            rintro ⟨ms, hr⟩
            exact hn ⟨m :: ms, .cons hfst hr⟩
      · obtain ⟨x, hx⟩ := step_bad (e := e) h o hex
        rw [hx]
        constructor
        · intro ms hr
          cases hr with
          | cons hf' _ => exact absurd ⟨_, _, hf'⟩ hex
        · intro _; exact ⟨x, rfl⟩

/-! ## From the fold to the meaning -/

theorem foldMods_snoc (e : Env) : ∀ (ms : List Mod) (o : Opts) (m : Mod), foldMods e o (ms ++ [m]) =
    match foldMods e o ms with | .error x => .error x | .ok o => applyMod e o m
  | [], o, m => by simp only [List.nil_append, foldMods]; cases applyMod e o m <;> rfl
  | a :: ms, o, m => by
    simp only [List.cons_append, foldMods]
    cases applyMod e o a with
    | error x => rfl
    | ok o => exact foldMods_snoc e ms o m

theorem lastOf_nil {α : Type} {P : Mod → Option α → Prop} {x : Option α} : LastOf P [] x ↔ x = none := by
  constructor
  · rintro (⟨h, -⟩ | ⟨a, m, b, h, -⟩)
    · exact h
    · simp at h
  · intro h; exact .inl ⟨h, by simp⟩

theorem lastOf_snoc {α : Type} {P : Mod → Option α → Prop} {ms : List Mod} {m : Mod} {x : Option α} :
    LastOf P (ms ++ [m]) x ↔ P m x ∨ ((∀ y, ¬ P m y) ∧ LastOf P ms x) := by
  constructor
  · rintro (⟨h, hn⟩ | ⟨a, m', b, he, hp, hn⟩)
    · exact .inr ⟨hn m (by simp), .inl ⟨h, fun m' hm' => hn m' (by simp [hm'])⟩⟩
    · rcases List.eq_nil_or_concat b with rfl | ⟨b', z, rfl⟩
      · have := List.append_inj' he rfl
        simp only [List.cons.injEq, and_true] at this
        rw [this.2]
        exact .inl hp
      · rw [List.concat_eq_append] at he hn
        have he' : ms ++ [m] = (a ++ m' :: b') ++ [z] := by rw [he]; simp
        have := List.append_inj' he' rfl
        simp only [List.cons.injEq, and_true] at this
        rw [this.2, this.1]
        exact .inr ⟨hn z (by simp), .inr ⟨a, m', b', rfl, hp, fun w hw => hn w (by simp [hw])⟩⟩
  · rintro (hp | ⟨hn, ⟨rfl, h⟩ | ⟨a, m', b, rfl, hp, h⟩⟩)
    · exact .inr ⟨ms, m, [], rfl, hp, by simp⟩
    · refine .inl ⟨rfl, ?_⟩
      intro w hw
      rcases List.mem_append.1 hw with hw | hw
      · exact h w hw
      · rw [List.mem_singleton.1 hw]; exact hn
    · refine .inr ⟨a, m', b ++ [m], by simp, hp, ?_⟩
      intro w hw
      rcases List.mem_append.1 hw with hw | hw
      · exact h w hw
      · rw [List.mem_singleton.1 hw]; exact hn

theorem snoc_ind {P : List Mod → Prop} (h0 : P []) (h1 : ∀ ms m, P ms → P (ms ++ [m])) (ms : List Mod) : P ms := by
  have : ∀ l : List Mod, P l.reverse := by
    intro l
    induction l with
    | nil => exact h0
    | cons a l ih => rw [List.reverse_cons]; exact h1 _ _ ih
  have := this ms.reverse
  rwa [List.reverse_reverse] at this

theorem lastOf_unique {α : Type} {P : Mod → Option α → Prop} (hP : ∀ m x y, P m x → P m y → x = y) :
    ∀ (ms : List Mod) (x y : Option α), LastOf P ms x → LastOf P ms y → x = y := by
  intro ms
  induction ms using snoc_ind with
  | h0 => intro x y hx hy; rw [lastOf_nil] at hx hy; rw [hx, hy]
  | h1 ms m ih =>
    intro x y hx hy
    rw [lastOf_snoc] at hx hy
    rcases hx with hx | ⟨hx, hx'⟩
    · rcases hy with hy | ⟨hy, -⟩
      · exact hP m x y hx hy
      · exact absurd hx (hy x)
    · rcases hy with hy | ⟨-, hy⟩
      · exact absurd hy (hx y)
      · exact ih x y hx' hy

theorem asks_iff {e : Env} {m : Mod} {x : Option Nat} : Asks e m x ↔
    (∃ l, m = .label l ∧ ¬ IsPp e l ∧ x = e.label2 l) ∨ (∃ v a, m = .laddr v a ∧ x = e.host2 v a) ∨
    (∃ v a, m = .raddr v a ∧ x = e.local4remote v a) := by
  constructor
  · intro h
    cases h with
    | label h => exact .inl ⟨_, rfl, h, rfl⟩
    | laddr => exact .inr (.inl ⟨_, _, rfl, rfl⟩)
    | raddr => exact .inr (.inr ⟨_, _, rfl, rfl⟩)
  · rintro (⟨l, rfl, h, rfl⟩ | ⟨v, a, rfl, rfl⟩ | ⟨v, a, rfl, rfl⟩)
    · exact .label h
    · exact .laddr
    · exact .raddr

theorem asksPp_iff {e : Env} {m : Mod} {x : Option Nat} : AsksPp e m x ↔
    ∃ y, m = .label (rtq ++ y) ∧ e.isLib = true ∧ y ≠ [] ∧ x = e.pport y := by
  constructor
  · intro h
    cases h with
    | mk hl hx => exact ⟨_, rfl, hl, hx, rfl⟩
  · rintro ⟨y, rfl, h, hy, rfl⟩
    exact .mk h hy

theorem isPp_iff (e : Env) (l : List UInt8) : (e.isLib = true ∧ l.length > 4 ∧ l.take 4 = rtq) ↔ IsPp e l := by
  unfold IsPp
  constructor
  · rintro ⟨h1, h2, h3⟩
    refine ⟨h1, l.drop 4, ?_, by rw [← h3, List.take_append_drop]⟩
    intro h; have := congrArg List.length h; simp at this; omega
  · rintro ⟨h1, x, hx, rfl⟩
    refine ⟨h1, ?_, by simp [rtq]⟩
    have := List.length_pos_iff.2 hx
    simp [rtq]; omega

theorem denotes_unique {e : Env} {ms : List Mod} {o o' : Opts} (h : Denotes e ms o) (h' : Denotes e ms o') : o = o' := by
  obtain ⟨a1, a2, a3, a4, a5, a6, a7, a8, a9, a10, a11⟩ := h
  obtain ⟨b1, b2, b3, b4, b5, b6, b7, b8, b9, b10, b11⟩ := h'
  obtain ⟨x, x1, x2⟩ := a1
  obtain ⟨y, y1, y2⟩ := b1
  obtain ⟨z, z1, z2⟩ := a5
  obtain ⟨w, w1, w2⟩ := b5
  have e1 := lastOf_unique (by
    rintro m x y (⟨rfl, rfl⟩ | ⟨rfl, rfl⟩) (⟨h, rfl⟩ | ⟨h, rfl⟩) <;> first | rfl | cases h) ms x y x1 y1
  have e2 := lastOf_unique (by
    rintro m x y ⟨v, rfl, rfl⟩ ⟨w, h, rfl⟩
    cases h; rfl) ms z w z1 w1
  have e3 := lastOf_unique (by
    intro m x y hx hy
    rw [asks_iff] at hx hy
    rcases hx with ⟨l, rfl, -, rfl⟩ | ⟨v, a, rfl, rfl⟩ | ⟨v, a, rfl, rfl⟩ <;>
    rcases hy with ⟨l', h, -, rfl⟩ | ⟨v', a', h, rfl⟩ | ⟨v', a', h, rfl⟩ <;> cases h <;> rfl) ms _ _ a10 b10
  have e4 := lastOf_unique (by
    intro m x y hx hy
    rw [asksPp_iff] at hx hy
    obtain ⟨l, rfl, -, -, rfl⟩ := hx
    obtain ⟨l', h, -, -, rfl⟩ := hy
    simp only [Mod.label.injEq, List.append_cancel_left_eq] at h
    rw [h]) ms _ _ a11 b11
  cases o; cases o'
  simp only at *
  subst e1; subst e2
  have w : ∀ {p q : Bool} {P : Prop}, (p = true ↔ P) → (q = true ↔ P) → p = q := by
    intro p q P h1 h2
    rw [Bool.eq_iff_iff, h1, h2]
  congr 1
  · rw [x2, y2]
  · exact w a2 b2
  · rw [z2, w2]
  · apply Option.ext; intro l; rw [a6, b6]
  · rw [a8, b8]
  · rw [a7, b7]
  · rw [a9, b9]
  · exact w a4 b4
  · exact w a3 b3

theorem filter_one (p : Mod → Bool) (m : Mod) : [m].filter p = if p m = true then [m] else [] := by
  simp only [List.filter]; cases p m <;> rfl

/-- What one more modifier adds to the requirements. -/
theorem valid_snoc {e : Env} {ms : List Mod} {m : Mod} : Valid e (ms ++ [m]) ↔ Valid e ms ∧
    (∀ v, m = .ptime v → 0 < v ∧ v < 1000) ∧ (m.isCodecs = true → ms.filter Mod.isCodecs = []) ∧
    (m.isDir = true → (ms.filter Mod.isDir).length ≤ 1 ∧ e.b1 ≠ none) ∧
    (∀ x, Asks e m x → x ≠ none) ∧ (∀ x, AsksPp e m x → x ≠ none) := by
  constructor
  · rintro ⟨h1, h2, h3, h4, h5, h6⟩
    simp only [List.filter_append, List.length_append] at h2 h3
    refine ⟨⟨fun v hv => h1 v (by simp [hv]), by omega, by omega, ?_, fun m' hm' => h5 m' (by simp [hm']),
      fun m' hm' => h6 m' (by simp [hm'])⟩, ?_, ?_, ?_, h5 m (by simp), h6 m (by simp)⟩
    · rintro ⟨m', hm', hd⟩; exact h4 ⟨m', by simp [hm'], hd⟩
    · rintro v rfl; exact h1 v (by simp)
    · intro hc; rw [filter_one, hc] at h2; simp at h2; simpa using h2
    · intro hd
      refine ⟨?_, h4 ⟨m, by simp, hd⟩⟩
      rw [filter_one, hd] at h3
      simp at h3; omega
  · rintro ⟨⟨h1, h2, h3, h4, h5, h6⟩, g1, g2, g3, g4, g5⟩
    refine ⟨?_, ?_, ?_, ?_, ?_, ?_⟩
    · intro v hv
      rcases List.mem_append.1 hv with hv | hv
      · exact h1 v hv
      · exact g1 v (List.mem_singleton.1 hv).symm
    · rw [List.filter_append, List.length_append, filter_one]
      cases hc : m.isCodecs with
      | true => rw [g2 hc]; simp
      | false => simpa using h2
    · rw [List.filter_append, List.length_append, filter_one]
      cases hc : m.isDir with
      | true => have := (g3 hc).1; simp; omega
      | false => simpa using h3
    · rintro ⟨m', hm', hd⟩
      rcases List.mem_append.1 hm' with hm' | hm'
      · exact h4 ⟨m', hm', hd⟩
      · rw [List.mem_singleton.1 hm'] at hd; exact (g3 hd).2
    · intro m' hm' x hx
      rcases List.mem_append.1 hm' with hm' | hm'
      · exact h5 m' hm' x hx
      · rw [List.mem_singleton.1 hm'] at hx; exact g4 x hx
    · intro m' hm' x hx
      rcases List.mem_append.1 hm' with hm' | hm'
      · exact h6 m' hm' x hx
      · rw [List.mem_singleton.1 hm'] at hx; exact g5 x hx

theorem valid_nil (e : Env) : Valid e [] := ⟨by simp, by simp, by simp, by simp, by simp, by simp⟩

theorem denotes_nil (e : Env) : Denotes e [] (initO e) :=
  ⟨⟨none, lastOf_nil.2 rfl, rfl⟩, by simp [initO], by simp [initO], by simp [initO], ⟨none, lastOf_nil.2 rfl, rfl⟩,
    by simp [initO], rfl, rfl, rfl, lastOf_nil.2 rfl, lastOf_nil.2 rfl⟩

/-- One more modifier that is no direction. -/
theorem snoc_plain {e : Env} {ms : List Mod} {o o' : Opts} {m : Mod} (h : Denotes e ms o) (hd : m.isDir = false)
    (c1 : ∃ x, LastOf (fun m x => (m = .asym ∧ x = some true) ∨ (m = .sym ∧ x = some false)) (ms ++ [m]) x ∧
      o'.asym = x.getD e.aforce)
    (c2 : o'.weak = (o.weak || (m == .weak))) (c3 : o'.newPort = (o.newPort || (m == .newp)))
    (c4 : o'.v6 = (o.v6 || (m == .six)))
    (c5 : ∃ x, LastOf (fun m x => ∃ v, m = .ptime v ∧ x = some v) (ms ++ [m]) x ∧ o'.ptime = x.getD (-1))
    (c6 : ∀ l, o'.codecs = some l ↔ o.codecs = some l ∨ m = .codecs l)
    (c7 : o'.lia1 = o.lia1) (c8 : o'.lia0 = o.lia0) (c9 : o'.lidx1 = o.lidx1)
    (c10 : LastOf (Asks e) (ms ++ [m]) o'.loc) (c11 : LastOf (AsksPp e) (ms ++ [m]) o'.lpp) : Denotes e (ms ++ [m]) o' := by
  have hfl : (ms ++ [m]).filter Mod.isDir = ms.filter Mod.isDir := by
    rw [List.filter_append, filter_one, hd]; simp
  refine ⟨c1, ?_, ?_, ?_, c5, ?_, ?_, ?_, ?_, c10, c11⟩
  · rw [c2, List.mem_append, List.mem_singleton, ← h.weak, Bool.or_eq_true, beq_iff_eq]
    exact or_congr Iff.rfl eq_comm
  · rw [c3, List.mem_append, List.mem_singleton, ← h.newPort, Bool.or_eq_true, beq_iff_eq]
    exact or_congr Iff.rfl eq_comm
  · rw [c4, List.mem_append, List.mem_singleton, ← h.v6, Bool.or_eq_true, beq_iff_eq]
    exact or_congr Iff.rfl eq_comm
  · intro l; rw [c6 l, List.mem_append, List.mem_singleton, ← h.codecs l]; exact or_congr Iff.rfl eq_comm
  · rw [hfl, c7, h.lia1]
  · rw [hfl, c8, h.lia0]
  · rw [hfl, c9, h.lidx]

theorem keep_asym {e : Env} {ms : List Mod} {o o' : Opts} {m : Mod} (h : Denotes e ms o) (he : o'.asym = o.asym) (h1 : m ≠ .asym) (h2 : m ≠ .sym) :
    ∃ x, LastOf (fun m x => (m = .asym ∧ x = some true) ∨ (m = .sym ∧ x = some false)) (ms ++ [m]) x ∧
      o'.asym = x.getD e.aforce := by
  obtain ⟨x, a, b⟩ := h.asym
  exact ⟨x, lastOf_snoc.2 (.inr ⟨by simp [h1, h2], a⟩), by rw [he, b]⟩

theorem keep_ptime {e : Env} {ms : List Mod} {o o' : Opts} {m : Mod} (h : Denotes e ms o) (he : o'.ptime = o.ptime) (h1 : ∀ v, m ≠ .ptime v) :
    ∃ x, LastOf (fun m x => ∃ v, m = .ptime v ∧ x = some v) (ms ++ [m]) x ∧ o'.ptime = x.getD (-1) := by
  obtain ⟨x, a, b⟩ := h.ptime
  exact ⟨x, lastOf_snoc.2 (.inr ⟨by simp [h1], a⟩), by rw [he, b]⟩

theorem keep_loc {e : Env} {ms : List Mod} {o o' : Opts} {m : Mod} (h : Denotes e ms o) (he : o'.loc = o.loc) (h1 : ∀ x, ¬ Asks e m x) :
    LastOf (Asks e) (ms ++ [m]) o'.loc := by rw [he]; exact lastOf_snoc.2 (.inr ⟨h1, h.loc⟩)

theorem keep_lpp {e : Env} {ms : List Mod} {o o' : Opts} {m : Mod} (h : Denotes e ms o) (he : o'.lpp = o.lpp) (h1 : ∀ x, ¬ AsksPp e m x) :
    LastOf (AsksPp e) (ms ++ [m]) o'.lpp := by rw [he]; exact lastOf_snoc.2 (.inr ⟨h1, h.lpp⟩)

theorem snoc_dir {e : Env} {ms : List Mod} {o : Opts} {m : Mod} (h : Denotes e ms o) (hd : m.isDir = true)
    (hl : (ms.filter Mod.isDir).length ≤ 1) : Denotes e (ms ++ [m]) (o.dir (dirAddr e m)) := by
  have hm : m = .ext ∨ m = .int := by cases m <;> simp [Mod.isDir] at hd <;> simp
  have hfl : (ms ++ [m]).filter Mod.isDir = ms.filter Mod.isDir ++ [m] := by
    rw [List.filter_append, filter_one, hd]; simp
  have hna : ∀ x, ¬ Asks e m x := by
    intro x hx; rw [asks_iff] at hx; rcases hm with rfl | rfl <;> simp at hx
  have hnp : ∀ x, ¬ AsksPp e m x := by
    intro x hx; rw [asksPp_iff] at hx; rcases hm with rfl | rfl <;> simp at hx
  have k1 := keep_asym h (o' := o) rfl (m := m) (by rcases hm with rfl | rfl <;> simp) (by rcases hm with rfl | rfl <;> simp)
  have k2 := keep_ptime h (o' := o) rfl (m := m) (by rcases hm with rfl | rfl <;> simp)
  have k3 := keep_loc h (o' := o) rfl hna
  have k4 := keep_lpp h (o' := o) rfl hnp
  have i0 := h.lia0
  have i1 := h.lia1
  have ix := h.lidx
  have keep : ∀ m', m'.isDir = false → (m' ∈ ms ++ [m] ↔ m' ∈ ms) := by
    intro m' hm'
    rw [List.mem_append, List.mem_singleton]
    constructor
    · rintro (hx | rfl)
      · exact hx
      · rw [hd] at hm'; cases hm'
    · exact .inl
  unfold Opts.dir
  cases hq : ms.filter Mod.isDir with
  | nil =>
    rw [hq] at ix i0 i1 hfl
    simp only [List.length_nil] at ix
    rw [if_pos ix]
    refine ⟨k1, by rw [keep _ rfl]; exact h.weak, by rw [keep _ rfl]; exact h.newPort, by rw [keep _ rfl]; exact h.v6, k2, ?_,
      ?_, ?_, ?_, k3, k4⟩
    · intro l; rw [keep _ rfl]; exact h.codecs l
    · rw [hfl]; simp
    · rw [hfl]; simpa using i0
    · rw [hfl]; simp
  | cons d ds =>
    rw [hq] at hl ix i0 i1 hfl
    have : ds = [] := by simpa using hl
    subst this
    simp only [List.length_cons, List.length_nil] at ix
    rw [if_neg (by omega)]
    refine ⟨k1, by rw [keep _ rfl]; exact h.weak, by rw [keep _ rfl]; exact h.newPort, by rw [keep _ rfl]; exact h.v6, k2, ?_,
      ?_, ?_, ?_, k3, k4⟩
    · intro l; rw [keep _ rfl]; exact h.codecs l
    · rw [hfl]; simpa using i1
    · rw [hfl]; simp
    · rw [hfl]; simp

theorem codecs_none {e : Env} {ms : List Mod} {o : Opts} (h : Denotes e ms o) : o.codecs = none ↔ ms.filter Mod.isCodecs = [] := by
  rw [List.filter_eq_nil_iff]
  constructor
  · intro hn m hm
    cases m with
    | codecs l => have := (h.codecs l).2 hm; rw [hn] at this; cases this
    | _ => simp [Mod.isCodecs]
  · intro hn
    cases hc : o.codecs with
    | none => rfl
    | some l => exact absurd rfl (hn _ ((h.codecs l).1 hc))

/-- A modifier is accepted exactly if the requirements remain met, and the options then have the new meaning. -/
theorem apply_ok {e : Env} {ms : List Mod} {o : Opts} {m : Mod} (hv : Valid e ms) (h : Denotes e ms o) :
    (Valid e (ms ++ [m]) → ∃ o', applyMod e o m = .ok o') ∧
    (∀ o', applyMod e o m = .ok o' → Valid e (ms ++ [m]) ∧ Denotes e (ms ++ [m]) o') := by
  rw [valid_snoc]
  have noAsk : (∀ l, m ≠ .label l) → (∀ v a, m ≠ .laddr v a) → (∀ v a, m ≠ .raddr v a) → (∀ x, ¬ Asks e m x) ∧ (∀ x, ¬ AsksPp e m x) := by
    intro n1 n2 n3
    constructor
    · intro x hx; rw [asks_iff] at hx
      rcases hx with ⟨l, rfl, -⟩ | ⟨v, a, rfl, -⟩ | ⟨v, a, rfl, -⟩
      · exact n1 l rfl
      · exact n2 v a rfl
      · exact n3 v a rfl
    · intro x hx; rw [asksPp_iff] at hx
      obtain ⟨y, rfl, -⟩ := hx
      exact n1 _ rfl
  have hdirs : o.lidx1 = 0 ↔ ¬ (ms.filter Mod.isDir).length ≤ 1 := by
    have := h.lidx
    have := hv.dirs
    omega
  cases m with
  | asym =>
    obtain ⟨n1, n2⟩ := noAsk (by simp) (by simp) (by simp)
    refine ⟨fun _ => ⟨_, rfl⟩, ?_⟩
    rintro o' ⟨⟩
    refine ⟨⟨hv, by simp, by simp [Mod.isCodecs], by simp [Mod.isDir], fun x hx => absurd hx (n1 x), fun x hx => absurd hx (n2 x)⟩,
      snoc_plain h rfl ⟨some true, lastOf_snoc.2 (.inl (by simp)), rfl⟩ (by simp) (by simp) (by simp) (keep_ptime h rfl (by simp))
        (by simp) rfl rfl rfl (keep_loc h rfl n1) (keep_lpp h rfl n2)⟩
  | sym =>
    obtain ⟨n1, n2⟩ := noAsk (by simp) (by simp) (by simp)
    refine ⟨fun _ => ⟨_, rfl⟩, ?_⟩
    rintro o' ⟨⟩
    refine ⟨⟨hv, by simp, by simp [Mod.isCodecs], by simp [Mod.isDir], fun x hx => absurd hx (n1 x), fun x hx => absurd hx (n2 x)⟩,
      snoc_plain h rfl ⟨some false, lastOf_snoc.2 (.inl (by simp)), rfl⟩ (by simp) (by simp) (by simp) (keep_ptime h rfl (by simp))
        (by simp) rfl rfl rfl (keep_loc h rfl n1) (keep_lpp h rfl n2)⟩
  | six =>
    obtain ⟨n1, n2⟩ := noAsk (by simp) (by simp) (by simp)
    refine ⟨fun _ => ⟨_, rfl⟩, ?_⟩
    rintro o' ⟨⟩
    refine ⟨⟨hv, by simp, by simp [Mod.isCodecs], by simp [Mod.isDir], fun x hx => absurd hx (n1 x), fun x hx => absurd hx (n2 x)⟩,
      snoc_plain h rfl (keep_asym h rfl (by simp) (by simp)) (by simp) (by simp) (by simp) (keep_ptime h rfl (by simp))
        (by simp) rfl rfl rfl (keep_loc h rfl n1) (keep_lpp h rfl n2)⟩
  | weak =>
    obtain ⟨n1, n2⟩ := noAsk (by simp) (by simp) (by simp)
    refine ⟨fun _ => ⟨_, rfl⟩, ?_⟩
    rintro o' ⟨⟩
    refine ⟨⟨hv, by simp, by simp [Mod.isCodecs], by simp [Mod.isDir], fun x hx => absurd hx (n1 x), fun x hx => absurd hx (n2 x)⟩,
      snoc_plain h rfl (keep_asym h rfl (by simp) (by simp)) (by simp) (by simp) (by simp) (keep_ptime h rfl (by simp))
        (by simp) rfl rfl rfl (keep_loc h rfl n1) (keep_lpp h rfl n2)⟩
  | newp =>
    obtain ⟨n1, n2⟩ := noAsk (by simp) (by simp) (by simp)
    refine ⟨fun _ => ⟨_, rfl⟩, ?_⟩
    rintro o' ⟨⟩
    refine ⟨⟨hv, by simp, by simp [Mod.isCodecs], by simp [Mod.isDir], fun x hx => absurd hx (n1 x), fun x hx => absurd hx (n2 x)⟩,
      snoc_plain h rfl (keep_asym h rfl (by simp) (by simp)) (by simp) (by simp) (by simp) (keep_ptime h rfl (by simp))
        (by simp) rfl rfl rfl (keep_loc h rfl n1) (keep_lpp h rfl n2)⟩
  | ext =>
    obtain ⟨n1, n2⟩ := noAsk (by simp) (by simp) (by simp)
    cases hb : e.b1 with
    | none =>
      refine ⟨?_, ?_⟩
      · rintro ⟨-, -, -, h3, -⟩; exact absurd rfl (h3 rfl).2
      · intro o' ho; simp [applyMod, hb] at ho
    | some b =>
      have hda : dirAddr e .ext = b := by simp [dirAddr, hb]
      refine ⟨?_, ?_⟩
      · rintro ⟨-, -, -, h3, -⟩
        have := (h3 rfl).1
        exact ⟨o.dir b, by simp only [applyMod, hb]; rw [if_neg (by rw [hdirs]; omega)]⟩
      · intro o' ho
        simp only [applyMod, hb] at ho
        by_cases h0 : o.lidx1 = 0
        · rw [if_pos h0] at ho; cases ho
        · rw [if_neg h0] at ho; cases ho
          have hl1 : (ms.filter Mod.isDir).length ≤ 1 := by rw [hdirs] at h0; omega
          refine ⟨⟨hv, by simp, by simp [Mod.isCodecs], fun _ => ⟨hl1, by simp⟩, fun x hx => absurd hx (n1 x),
            fun x hx => absurd hx (n2 x)⟩, ?_⟩
          rw [← hda]
          exact snoc_dir h rfl hl1
  | int =>
    obtain ⟨n1, n2⟩ := noAsk (by simp) (by simp) (by simp)
    cases hb : e.b1 with
    | none =>
      refine ⟨?_, ?_⟩
      · rintro ⟨-, -, -, h3, -⟩; exact absurd rfl (h3 rfl).2
      · intro o' ho; simp [applyMod, hb] at ho
    | some b =>
      have hda : dirAddr e .int = e.b0 := by simp [dirAddr]
      refine ⟨?_, ?_⟩
      · rintro ⟨-, -, -, h3, -⟩
        have := (h3 rfl).1
        exact ⟨o.dir e.b0, by simp only [applyMod, hb]; rw [if_neg (by rw [hdirs]; omega)]⟩
      · intro o' ho
        simp only [applyMod, hb] at ho
        by_cases h0 : o.lidx1 = 0
        · rw [if_pos h0] at ho; cases ho
        · rw [if_neg h0] at ho; cases ho
          have hl1 : (ms.filter Mod.isDir).length ≤ 1 := by rw [hdirs] at h0; omega
          refine ⟨⟨hv, by simp, by simp [Mod.isCodecs], fun _ => ⟨hl1, by simp⟩, fun x hx => absurd hx (n1 x),
            fun x hx => absurd hx (n2 x)⟩, ?_⟩
          rw [← hda]
          exact snoc_dir h rfl hl1
  | ptime v =>
    obtain ⟨n1, n2⟩ := noAsk (by simp) (by simp) (by simp)
    refine ⟨?_, ?_⟩
    · rintro ⟨-, h1, -⟩
      have := h1 v rfl
      exact ⟨_, by simp only [applyMod]; rw [if_neg (by omega)]⟩
    · intro o' ho
      simp only [applyMod] at ho
      by_cases h0 : v ≤ 0 ∨ v ≥ 1000
      · rw [if_pos h0] at ho; cases ho
      · rw [if_neg h0] at ho; cases ho
        refine ⟨⟨hv, ?_, by simp [Mod.isCodecs], by simp [Mod.isDir], fun x hx => absurd hx (n1 x), fun x hx => absurd hx (n2 x)⟩,
          snoc_plain h rfl (keep_asym h rfl (by simp) (by simp)) (by simp) (by simp) (by simp)
            ⟨some v, lastOf_snoc.2 (.inl ⟨v, rfl, rfl⟩), rfl⟩
            (by simp) rfl rfl rfl (keep_loc h rfl n1) (keep_lpp h rfl n2)⟩
        intro w hw
        injection hw with hw
        omega
  | codecs l =>
    obtain ⟨n1, n2⟩ := noAsk (by simp) (by simp) (by simp)
    refine ⟨?_, ?_⟩
    · rintro ⟨-, -, h2, -⟩
      have := (codecs_none h).2 (h2 rfl)
      exact ⟨_, by simp only [applyMod]; rw [if_neg (by simp [this])]⟩
    · intro o' ho
      simp only [applyMod] at ho
      by_cases h0 : o.codecs = none
      · rw [if_neg (by simp [h0])] at ho; cases ho
        refine ⟨⟨hv, by simp, fun _ => (codecs_none h).1 h0, by simp [Mod.isDir], fun x hx => absurd hx (n1 x), fun x hx => absurd hx (n2 x)⟩,
          snoc_plain h rfl (keep_asym h rfl (by simp) (by simp)) (by simp) (by simp) (by simp)
            (keep_ptime h rfl (by simp)) ?_ rfl rfl rfl (keep_loc h rfl n1) (keep_lpp h rfl n2)⟩
        intro l'
        simp [h0]
      · rw [if_pos h0] at ho; cases ho
  | label l =>
    by_cases hp : IsPp e l
    · obtain ⟨hli, y, hy, rfl⟩ := hp
      have hc : (e.isLib = true ∧ (rtq ++ y).length > 4 ∧ (rtq ++ y).take 4 = rtq) := (isPp_iff e _).2 ⟨hli, y, hy, rfl⟩
      have hdr : (rtq ++ y).drop 4 = y := by simp [rtq]
      have hna : ∀ x, ¬ Asks e (.label (rtq ++ y)) x := by
        intro x hx; rw [asks_iff] at hx
        rcases hx with ⟨l, hl, hn, -⟩ | ⟨v, a, hl, -⟩ | ⟨v, a, hl, -⟩
        · injection hl with hl; subst hl; exact hn ⟨hli, y, hy, rfl⟩
        · cases hl
        · cases hl
      have hap : ∀ x, AsksPp e (.label (rtq ++ y)) x ↔ x = e.pport y := by
        intro x; rw [asksPp_iff]
        constructor
        · rintro ⟨z, hz, -, -, rfl⟩
          simp only [Mod.label.injEq, List.append_cancel_left_eq] at hz
          rw [hz]
        · rintro rfl; exact ⟨y, rfl, hli, hy, rfl⟩
      cases hq : e.pport y with
      | none =>
        refine ⟨?_, ?_⟩
        · rintro ⟨-, -, -, -, -, h5⟩; exact absurd hq (h5 _ ((hap _).2 rfl))
        · intro o' ho
          simp only [applyMod, useLabel] at ho
          rw [if_pos hc, hdr, hq] at ho
          cases ho
      | some b =>
        have hr : applyMod e o (.label (rtq ++ y)) = .ok { o with lpp := some b } := by
          simp only [applyMod, useLabel]
          rw [if_pos hc, hdr, hq]
        refine ⟨fun _ => ⟨_, hr⟩, ?_⟩
        intro o' ho
        rw [hr] at ho; cases ho
        refine ⟨⟨hv, by simp, by simp [Mod.isCodecs], by simp [Mod.isDir], fun x hx => absurd hx (hna x), ?_⟩,
          snoc_plain h rfl (keep_asym h rfl (by simp) (by simp)) (by simp) (by simp) (by simp) (keep_ptime h rfl (by simp))
            (by simp) rfl rfl rfl (keep_loc h rfl hna) (lastOf_snoc.2 (.inl ((hap _).2 hq.symm)))⟩
        intro x hx; rw [(hap x).1 hx, hq]; simp
    · have hc : ¬ (e.isLib = true ∧ l.length > 4 ∧ l.take 4 = rtq) := by rw [isPp_iff]; exact hp
      have hnp : ∀ x, ¬ AsksPp e (.label l) x := by
        intro x hx; rw [asksPp_iff] at hx
        obtain ⟨y, hy, h1, h2, -⟩ := hx
        injection hy with hy
        exact hp ⟨h1, y, h2, hy⟩
      have hap : ∀ x, Asks e (.label l) x ↔ x = e.label2 l := by
        intro x; rw [asks_iff]
        constructor
        · rintro (⟨l', hl, -, rfl⟩ | ⟨v, a, hl, -⟩ | ⟨v, a, hl, -⟩)
          · injection hl with hl; rw [hl]
          · cases hl
          · cases hl
        · rintro rfl; exact .inl ⟨l, rfl, hp, rfl⟩
      cases hq : e.label2 l with
      | none =>
        refine ⟨?_, ?_⟩
        · rintro ⟨-, -, -, -, h4, -⟩; exact absurd hq (h4 _ ((hap _).2 rfl))
        · intro o' ho
          simp only [applyMod, useLabel] at ho
          rw [if_neg hc, hq] at ho
          cases ho
      | some b =>
        have hr : applyMod e o (.label l) = .ok { o with loc := some b } := by
          simp only [applyMod, useLabel]
          rw [if_neg hc, hq]
        refine ⟨fun _ => ⟨_, hr⟩, ?_⟩
        intro o' ho
        rw [hr] at ho; cases ho
        refine ⟨⟨hv, by simp, by simp [Mod.isCodecs], by simp [Mod.isDir], ?_, fun x hx => absurd hx (hnp x)⟩,
          snoc_plain h rfl (keep_asym h rfl (by simp) (by simp)) (by simp) (by simp) (by simp) (keep_ptime h rfl (by simp))
            (by simp) rfl rfl rfl (lastOf_snoc.2 (.inl ((hap _).2 hq.symm))) (keep_lpp h rfl hnp)⟩
        intro x hx; rw [(hap x).1 hx, hq]; simp
  | laddr v a =>
    have hnp : ∀ x, ¬ AsksPp e (.laddr v a) x := by
      intro x hx; rw [asksPp_iff] at hx; simp at hx
    have hap : ∀ x, Asks e (.laddr v a) x ↔ x = e.host2 v a := by
      intro x; rw [asks_iff]
      cases v <;> simp
    cases hq : e.host2 v a with
    | none =>
      refine ⟨?_, ?_⟩
      · rintro ⟨-, -, -, -, h4, -⟩; exact absurd hq (h4 _ ((hap _).2 rfl))
      · intro o' ho; simp [applyMod, hq] at ho
    | some b =>
      have hr : applyMod e o (.laddr v a) = .ok { o with loc := some b } := by simp [applyMod, hq]
      refine ⟨fun _ => ⟨_, hr⟩, ?_⟩
      intro o' ho
      rw [hr] at ho; cases ho
      refine ⟨⟨hv, by simp, by simp [Mod.isCodecs], by simp [Mod.isDir], ?_, fun x hx => absurd hx (hnp x)⟩,
        snoc_plain h rfl (keep_asym h rfl (by simp) (by simp)) (by simp) (by simp) (by simp) (keep_ptime h rfl (by simp))
          (by simp) rfl rfl rfl (lastOf_snoc.2 (.inl ((hap _).2 hq.symm))) (keep_lpp h rfl hnp)⟩
      intro x hx; rw [(hap x).1 hx, hq]; simp
  | raddr v a =>
    have hnp : ∀ x, ¬ AsksPp e (.raddr v a) x := by
      intro x hx; rw [asksPp_iff] at hx; simp at hx
    have hap : ∀ x, Asks e (.raddr v a) x ↔ x = e.local4remote v a := by
      intro x; rw [asks_iff]
      cases v <;> simp
    cases hq : e.local4remote v a with
    | none =>
      refine ⟨?_, ?_⟩
      · rintro ⟨-, -, -, -, h4, -⟩; exact absurd hq (h4 _ ((hap _).2 rfl))
      · intro o' ho; simp [applyMod, hq] at ho
    | some b =>
      have hr : applyMod e o (.raddr v a) = .ok { o with loc := some b } := by simp [applyMod, hq]
      refine ⟨fun _ => ⟨_, hr⟩, ?_⟩
      intro o' ho
      rw [hr] at ho; cases ho
      refine ⟨⟨hv, by simp, by simp [Mod.isCodecs], by simp [Mod.isDir], ?_, fun x hx => absurd hx (hnp x)⟩,
        snoc_plain h rfl (keep_asym h rfl (by simp) (by simp)) (by simp) (by simp) (by simp) (keep_ptime h rfl (by simp))
          (by simp) rfl rfl rfl (lastOf_snoc.2 (.inl ((hap _).2 hq.symm))) (keep_lpp h rfl hnp)⟩
      intro x hx; rw [(hap x).1 hx, hq]; simp

theorem fold_ok (e : Env) (ms : List Mod) : (∀ o, foldMods e (initO e) ms = .ok o → Valid e ms ∧ Denotes e ms o) ∧
    (Valid e ms → ∃ o, foldMods e (initO e) ms = .ok o) := by
  induction ms using snoc_ind with
  | h0 =>
    refine ⟨?_, fun _ => ⟨_, rfl⟩⟩
    rintro o ⟨⟩
    exact ⟨valid_nil e, denotes_nil e⟩
  | h1 ms m ih =>
    rw [foldMods_snoc]
    constructor
    · intro o ho
      cases hf : foldMods e (initO e) ms with
      | error x => rw [hf] at ho; cases ho
      | ok o1 =>
        rw [hf] at ho
        obtain ⟨a, b⟩ := ih.1 o1 hf
        exact (apply_ok a b).2 o ho
    · intro hv
      have hv' := (valid_snoc.1 hv).1
      obtain ⟨o1, ho1⟩ := ih.2 hv'
      rw [ho1]
      exact (apply_ok hv' (ih.1 o1 ho1).2).1 hv

/-! ## Theorems -/

/-- Numbers that fit an `int`. -/
def Fits (ms : List Mod) : Prop := ∀ v, Mod.ptime v ∈ ms → -2147483648 ≤ v ∧ v ≤ 2147483647

theorem wrap_fits {ms : List Mod} (h : Fits ms) : ms.map Mod.wrap = ms := by
  conv_rhs => rw [← List.map_id ms]
  apply List.map_congr_left
  intro m hm
  cases m with
  | ptime v =>
    obtain ⟨a, b⟩ := h v hm
    simp only [Mod.wrap, wrapV]
    rw [if_neg (by unfold longMax; omega), if_neg (by unfold longMin; omega), toInt_id a b]
    rfl
  | _ => rfl

/-- The final choice of a local address of the right family. -/
def Settled (e : Env) (o0 o : Opts) : Prop :=
  if o0.loc = none ∧ o0.lidx1 = 2 ∧ o0.v6 ≠ e.fam6 o0.lia0 then ∃ b, e.foraf o0.v6 = some b ∧ o = { o0 with loc := some b }
  else o = o0

/-- Every string of modifiers is refused with a definite error or yields options; nothing is read past its end, and the
parser comes to an end. -/
theorem C52_total (e : Env) (mem : List UInt8) (cp : Nat) (s : List UInt8) (h : At mem cp s) :
    ∃ r, parse e mem cp = .ok r := by
  have hlen : s.length < mem.length + 1 := by
    obtain ⟨-, pre, post, rfl, -⟩ := h; simp; omega
  obtain ⟨k1, k2⟩ := loop_ok (e := e) s.length s (le_refl _) cp (mem.length + 1) (initO e) h hlen
  by_cases hex : ∃ ms, Reads s ms
  · obtain ⟨ms, hr⟩ := hex
    unfold parse
    rw [k1 ms hr]
    cases foldMods e (initO e) (ms.map Mod.wrap) with
    | error x => exact ⟨_, rfl⟩
    | ok o => exact ⟨_, rfl⟩
  · obtain ⟨x, hx⟩ := k2 hex
    unfold parse
    rw [hx]
    exact ⟨_, rfl⟩

/-- A string is accepted exactly if it consists of modifiers that are acceptable together, and the options are those that
the modifiers stand for.  Full claim; restricted to numbers that fit an `int`. -/
theorem C52_meaning_partial (e : Env) (mem : List UInt8) (cp : Nat) (s : List UInt8) (h : At mem cp s)
    (hfit : ∀ ms, Reads s ms → Fits ms) (o : Opts) :
    parse e mem cp = .ok (.ok o) ↔ ∃ ms o0, Reads s ms ∧ Valid e ms ∧ Denotes e ms o0 ∧ Settled e o0 o := by
  have hlen : s.length < mem.length + 1 := by
    obtain ⟨-, pre, post, rfl, -⟩ := h; simp; omega
  obtain ⟨k1, k2⟩ := loop_ok (e := e) s.length s (le_refl _) cp (mem.length + 1) (initO e) h hlen
  have hset : ∀ o0, pickFamily e o0 = .ok o ↔ Settled e o0 o := by
    intro o0
    unfold pickFamily Settled
    split
    · cases hq : e.foraf o0.v6 with
      | none => simp
      | some b => simp [eq_comm]
    · simp [eq_comm]
  constructor
  · intro hp
    unfold parse at hp
    by_cases hex : ∃ ms, Reads s ms
    · obtain ⟨ms, hr⟩ := hex
      rw [k1 ms hr, wrap_fits (hfit ms hr)] at hp
      cases hf : foldMods e (initO e) ms with
      | error x => rw [hf] at hp; simp at hp
      | ok o0 =>
        rw [hf] at hp
        simp only [Except.ok.injEq] at hp
        obtain ⟨a, b⟩ := (fold_ok e ms).1 o0 hf
        exact ⟨ms, o0, hr, a, b, (hset o0).1 hp⟩
    · obtain ⟨x, hx⟩ := k2 hex
      rw [hx] at hp
      simp at hp
  · rintro ⟨ms, o0, hr, hv, hd, hs⟩
    obtain ⟨o1, ho1⟩ := (fold_ok e ms).2 hv
    have := denotes_unique ((fold_ok e ms).1 o1 ho1).2 hd
    subst this
    unfold parse
    rw [k1 ms hr, wrap_fits (hfit ms hr), ho1]
    simp only
    rw [(hset o1).2 hs]

/-- A string stands for at most one sequence of modifiers, as far as the options go: two readings give the same options. -/
theorem C52_deterministic (e : Env) (s : List UInt8) (hs : CStr s) (ms ms' : List Mod) (o o' : Opts)
    (h : Reads s ms) (h' : Reads s ms') (hf : Fits ms) (hf' : Fits ms') (hv : Valid e ms) (hd : Denotes e ms o) (hd' : Denotes e ms' o') :
    Valid e ms' ∧ o = o' := by
  have hat : At (s ++ [0]) 0 s := ⟨hs, [], [], rfl, rfl⟩
  obtain ⟨k1, -⟩ := loop_ok (e := e) s.length s (le_refl _) 0 (s.length + 1) (initO e) hat (by omega)
  have a := k1 ms h
  have b := k1 ms' h'
  rw [a, wrap_fits hf, wrap_fits hf'] at b
  injection b with b
  obtain ⟨o1, ho1⟩ := (fold_ok e ms).2 hv
  have e1 := denotes_unique ((fold_ok e ms).1 o1 ho1).2 hd
  subst e1
  rw [ho1] at b
  obtain ⟨c1, c2⟩ := (fold_ok e ms').1 o1 b.symm
  exact ⟨c1, denotes_unique c2 hd'⟩

/-! ### Examples and counterexamples -/

def env0 : Env := ⟨false, 10, some 20, fun _ => false, false, fun _ => none, fun _ _ => some 30, fun _ _ => some 40, fun _ => none,
  fun _ => none⟩

/-- `z4294967316` asks for a packet duration of 4294967316 ms and gets 20 ms. -/
theorem C52_ptime_counterexample :
    (parse env0 [122, 52, 50, 57, 52, 57, 54, 55, 51, 49, 54, 0] 0).toOption.bind (·.toOption.map (·.ptime)) = some 20 ∧
    ¬ ∃ ms o0, Reads [122, 52, 50, 57, 52, 57, 54, 55, 51, 49, 54] ms ∧ Valid env0 ms ∧ Denotes env0 ms o0 ∧ o0.ptime = 20 := by
  refine ⟨by decide +kernel, ?_⟩
  rintro ⟨ms, o0, hr, hv, hd, ho⟩
  obtain ⟨x, hx, he⟩ := hd.ptime
  rw [ho] at he
  cases x with
  | none => simp at he
  | some v =>
    simp only [Option.getD_some] at he
    subst he
    have hm : Mod.ptime 20 ∈ ms := by
      rcases hx with ⟨h, -⟩ | ⟨a, m, b, rfl, ⟨v, rfl, h⟩, -⟩
      · cases h
      · injection h with h; subst h; simp
    have hnum : Numeral [52, 50, 57, 52, 57, 54, 55, 51, 49, 54] 4294967316 := by
      have := digitsDenote_of (l := [52, 50, 57, 52, 57, 54, 55, 51, 49, 54]) (by simp) (by decide)
      exact .plain (ws := []) (by simp) this
    generalize hs : ([122, 52, 50, 57, 52, 57, 54, 55, 51, 49, 54] : List UInt8) = s at hr
    cases hr with
    | nil => cases hs
    | @cons _ m r ms' hf hr' =>
      have hl : ∀ u : UInt8, Letter u 122 → u = 122 ∨ u = 90 := by
        intro u hu
        rcases hu with hu | hu
        · exact .inl hu.symm
        · right
          have : (122 : UInt8) - 32 = u + 32 - 32 := by rw [hu]
          rw [UInt8.add_sub_cancel] at this
          exact this.symm
      cases hf with
      | @ptime c p r v h1 hp hr1 =>
        injection hs with hs1 hs2
        have e1 := (strtol_wrap (r := []) hnum (by simp [NoDigit])).1
        have e2 := (strtol_wrap hp hr1).1
        rw [← hs2] at e2
        rw [List.append_nil, e2] at e1
        have hpl : p.length = 10 := by simpa using e1
        have hr0 : r = [] := by
          have := congrArg List.length hs2
          rw [List.length_append, hpl] at this
          exact List.length_eq_zero_iff.1 (by simpa using this)
        subst hr0
        have hv1 := hv.ptime v (by simp)
        rw [List.append_nil] at hs2
        subst hs2
        obtain ⟨-, w2, -⟩ := strtol_numeral (rest := []) hnum (by simp [NoDigit])
        obtain ⟨-, w1, -⟩ := strtol_numeral (rest := []) hp (by simp [NoDigit])
        unfold clampL longMin longMax at w1 w2
        omega
      | asym h | sym h | ext h | int h | weak h | newp h =>
        injection hs with hs1 hs2; subst hs1; exact absurd (hl _ h) (by decide)
      | six => injection hs with hs1 hs2; cases hs1
      | codecs h | label h | laddr h | raddr h =>
        injection hs with hs1 hs2; subst hs1; exact absurd (hl _ h) (by decide)

/-- `an` meets the hypotheses of `C52_meaning_partial`. -/
example : Reads [97, 110] [.asym, .newp] ∧ Fits [.asym, .newp] ∧ Valid env0 [.asym, .newp] ∧
    At [97, 110, 0] 0 [97, 110] :=
  ⟨.cons (.asym (.inr rfl)) (.cons (.newp (.inr rfl)) .nil), by unfold Fits; simp,
    ((fold_ok env0 [.asym, .newp]).1 _ rfl).1, by unfold CStr; decide, [], [], rfl, rfl⟩

/-- `eiz20c8,0l1.2.3.4` -/
example : (parse env0 [101, 105, 122, 50, 48, 99, 56, 44, 48, 108, 49, 46, 50, 46, 51, 46, 52, 0] 0).toOption.bind (·.toOption) =
    some ⟨false, false, 20, some [56, 44, 48], 10, 20, 0, some 30, false, false, none⟩ := by decide +kernel

/-- The peer's addresses: the RTCP port is the one after the RTP port, unless that is the last one. -/
theorem C52_peer_partial (isLib : Bool) (resolve : Bool → List UInt8 → List UInt8 → Option (Nat × Nat))
    (parsePp : List UInt8 → List UInt8 → Option (Nat × Nat)) (v6 : Bool) (addr port : List UInt8) (p : Peer)
    (a b : Nat × Nat) (h : peer isLib resolve parsePp v6 addr port = .ok p) (hi : p.ia = some (a, b)) (ha : a.2 < 65535) :
    resolve v6 addr port = some a ∧ a.1 ≠ 0 ∧ b = (a.1, a.2 + 1) ∧ p.onhold = false := by
  unfold peer at h
  split at h
  · split at h
    · cases h
    · injection h with h; subst h; cases hi
  · split at h
    · split at h
      · cases h
      · rename_i hh pp hres
        split at h
        · rename_i hne
          injection h with h
          subst h
          simp only [Option.some.injEq, Prod.mk.injEq] at hi
          obtain ⟨rfl, rfl⟩ := hi
          refine ⟨hres, hne, ?_, rfl⟩
          simp only at ha ⊢
          rw [Nat.mod_eq_of_lt (by omega)]
        · injection h with h; subst h; cases hi
    · injection h with h; subst h; cases hi

/-- A peer that announces port 65535 gets RTCP sent to port 0. -/
theorem C52_peer_counterexample : (peer false (fun _ _ _ => some (1, 65535)) (fun _ _ => none) false
    [49, 46, 49, 46, 49, 46, 49] [54, 53, 53, 51, 53]).toOption = some ⟨some ((1, 65535), (1, 0)), false, none⟩ := by decide

end Verif.Ulopt
