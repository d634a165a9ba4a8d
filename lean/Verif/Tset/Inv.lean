import Verif.Tset.Spec

/-! # C64: what the parser makes of a name; the invariant of the set -/

namespace Verif.Tset

theorem isPrefixOf_iff (a b : Bytes) : a.isPrefixOf b = true ↔ a <+: b := List.isPrefixOf_iff_prefix

theorem canon_pre {lib : Bool} {s : Bytes} (h : Prefixed lib s) : canon lib s = s := if_pos h

theorem canon_bare {lib : Bool} {s : Bytes} (h : ¬ Prefixed lib s) : canon lib s = unixP ++ s := if_neg h

theorem not_unix_tcp {s : Bytes} (h : tcpP <+: s) : ¬ unixP <+: s := by
  obtain ⟨a, rfl⟩ := h
  rintro ⟨b, hb⟩
  simp [tcpP, unixP] at hb

theorem not_unix_fd {s : Bytes} (h : fdP <+: s) : ¬ unixP <+: s := by
  obtain ⟨a, rfl⟩ := h
  rintro ⟨b, hb⟩
  simp [fdP, unixP] at hb

theorem not_tcp_fd {s : Bytes} (h : fdP <+: s) : ¬ tcpP <+: s := by
  obtain ⟨a, rfl⟩ := h
  rintro ⟨b, hb⟩
  simp [fdP, tcpP] at hb

theorem canon_prefixed (lib : Bool) (s : Bytes) : Prefixed lib (canon lib s) := by
  by_cases h : Prefixed lib s
  · rw [canon_pre h]; exact h
  · rw [canon_bare h]; exact .inl ⟨s, rfl⟩

theorem canon_canon (lib : Bool) (s : Bytes) : canon lib (canon lib s) = canon lib s :=
  canon_pre (canon_prefixed lib s)

/-! ### The parser -/

theorem rsplit_none {c : UInt8} {l : Bytes} (h : c ∉ l) : rsplit c l = none := by
  induction l with
  | nil => rfl
  | cons a l ih =>
    simp only [List.mem_cons, not_or] at h
    rw [rsplit, ih h.2]
    simp only
    rw [if_neg (fun e => h.1 e.symm)]

theorem rsplit_eq {c : UInt8} (h q : Bytes) (hq : c ∉ q) : rsplit c (h ++ c :: q) = some (h, q) := by
  induction h with
  | nil => simp [rsplit, rsplit_none hq]
  | cons a h ih => simp [rsplit, ih]

theorem digits_no_colon {ds : Bytes} {n : Nat} (h : Str.DigitsDenote ds n) : (58 : UInt8) ∉ ds := by
  intro hm
  exact absurd (h.spec.2.1 58 hm) (by decide)

theorem atoi_digits {ds : Bytes} {n : Nat} (h : Str.DigitsDenote ds n) (hn : n < 2147483648) : atoi ds = n := by
  have h1 := Str.strtol_numeral (rest := []) (Str.Numeral.plain (ws := []) (by simp) h) (by intro c hc; simp at hc)
  rw [List.nil_append, List.append_nil] at h1
  rcases h1.2.1 with ⟨-, -, a, -⟩ | ⟨a, -⟩ | ⟨a, -⟩
  · unfold atoi
    rw [a, Str.toInt_id (by omega) (by omega)]
  · unfold Str.longMax at a; omega
  · unfold Str.longMin at a; omega

theorem parseHostport_eq {h ds : Bytes} {port : Nat} (hh : h ≠ []) (hl : h.length ≤ 511)
    (hd : Str.DigitsDenote ds port) (h1 : 1 ≤ port) (h2 : port ≤ 65535) :
    parseHostport (h ++ 58 :: ds) = some (h, port) := by
  have ha := atoi_digits hd (by omega)
  unfold parseHostport
  rw [rsplit_eq h ds (digits_no_colon hd)]
  simp only
  rw [if_neg (by exact fun e => e.elim hd.spec.1 hh), if_neg (by rw [ha]; omega), if_neg (by omega), ha]
  simp

theorem parse_unix {lib : Bool} {res : Bytes → Option Nat} {p : Bytes} (h : p ≠ []) :
    parse lib res (unixP ++ p) = .target (unixP ++ p) (.unix (p.take 107)) := by
  unfold parse
  rw [if_pos ((isPrefixOf_iff _ _).2 ⟨p, rfl⟩)]
  have : (unixP ++ p).drop 5 = p := rfl
  rw [this, if_neg (by simpa using h)]

theorem parse_bare {lib : Bool} {res : Bytes → Option Nat} {p : Bytes} (h : p ≠ []) (hp : ¬ Prefixed lib p) :
    parse lib res p = .target (unixP ++ p) (.unix (p.take 107)) := by
  unfold Prefixed at hp
  simp only [not_or] at hp
  unfold parse
  rw [if_neg (by rw [isPrefixOf_iff]; exact hp.1), if_neg (by rw [isPrefixOf_iff]; exact hp.2.1),
    if_neg (by rw [isPrefixOf_iff]; exact hp.2.2), if_neg (by simpa using h)]

theorem parse_tcp {lib : Bool} {res : Bytes → Option Nat} {p : Bytes} :
    parse lib res (tcpP ++ p) =
      match parseHostport p with
      | none => .bad
      | some (h, port) =>
        if h = selfN then .wild (tcpP ++ p) port
        else
          match res h with
          | none => .bad
          | some a => .target (tcpP ++ p) (.inet a port) := by
  have ht : tcpP <+: tcpP ++ p := ⟨p, rfl⟩
  conv => lhs; unfold parse
  rw [if_neg (by rw [isPrefixOf_iff]; exact not_unix_tcp ht), if_pos ((isPrefixOf_iff _ _).2 ht)]
  rfl

/-- The entry for a name with this meaning. -/
def entry (lib : Bool) (s : Bytes) : Meaning → Parsed
  | .to d => .target (canon lib s) d
  | .self p => .wild s p

theorem parse_means {lib : Bool} {res : Bytes → Option Nat} {s : Bytes} {m : Meaning} (h : Means lib res s m) :
    parse lib res s = entry lib s m := by
  cases h with
  | path h hl =>
    rw [parse_unix h, entry, canon_pre (.inl ⟨_, rfl⟩), List.take_of_length_le hl]
  | bare h hl hp => rw [parse_bare h hp, entry, canon_bare hp, List.take_of_length_le hl]
  | host hh hl hs ha hd h1 h2 =>
    rw [List.append_assoc, parse_tcp, parseHostport_eq hh hl hd h1 h2, entry, canon_pre (.inr (.inl ⟨_, rfl⟩))]
    simp only
    rw [if_neg hs, ha]
  | self hd h1 h2 =>
    rw [List.append_assoc, parse_tcp, parseHostport_eq (by decide) (by decide) hd h1 h2]
    simp [entry]
  | @fd ds n hlib hd hn =>
    have hf : fdP <+: fdP ++ ds := ⟨ds, rfl⟩
    have hs : Str.CStr ds := by
      intro c hc e
      have := hd.spec.2.1 c hc
      subst e
      exact absurd this (by decide)
    have hn' : Str.atoiSafe ds = .ok (n : Int) := by
      rw [Str.atoiSafe_iff hs]
      refine ⟨n, Str.Numeral.plain (ws := []) (by simp) hd, ?_⟩
      rw [if_neg (by unfold Str.longMax; omega), if_neg (by unfold Str.longMin; omega), Str.toInt_id (by omega) (by omega)]
    unfold parse
    rw [if_neg (by rw [isPrefixOf_iff]; exact not_unix_fd hf), if_neg (by rw [isPrefixOf_iff]; exact not_tcp_fd hf),
      if_pos ⟨hlib, (isPrefixOf_iff _ _).2 hf⟩, entry, canon_pre (.inr (.inr ⟨hlib, hf⟩)),
      show (fdP ++ ds).drop 3 = ds from rfl, hn']
    simp only
    rw [if_neg (by omega)]

theorem parseHostport_port {s h : Bytes} {p : Nat} (e : parseHostport s = some (h, p)) : 1 ≤ p ∧ p ≤ 65535 := by
  unfold parseHostport at e
  split at e
  · cases e
  · split at e
    · cases e
    · split at e
      · cases e
      · split at e
        · cases e
        · injection e with e; injection e with e1 e2; omega

/-- What an accepted target looks like. -/
theorem parse_target {lib : Bool} {res : Bytes → Option Nat} {s n : Bytes} {d : Dest}
    (h : parse lib res s = .target n d) :
    n = canon lib s ∧ (unixP <+: n ↔ ∃ p, d = .unix p) := by
  by_cases h1 : unixP <+: s
  · unfold parse at h
    rw [if_pos ((isPrefixOf_iff _ _).2 h1)] at h
    split at h
    · cases h
    · injection h with ha hb
      subst ha hb
      exact ⟨(canon_pre (.inl h1)).symm, ⟨fun _ => ⟨_, rfl⟩, fun _ => h1⟩⟩
  · by_cases h2 : tcpP <+: s
    · have hc := canon_pre (lib := lib) (.inr (.inl h2))
      obtain ⟨q, rfl⟩ := h2
      rw [parse_tcp] at h
      split at h
      · cases h
      · split at h
        · cases h
        · split at h
          · cases h
          · injection h with ha hb
            subst ha hb
            exact ⟨hc.symm, ⟨fun x => absurd x h1, fun ⟨p, hp⟩ => by cases hp⟩⟩
    · by_cases h3 : lib = true ∧ fdP <+: s
      · unfold parse at h
        rw [if_neg (by rw [isPrefixOf_iff]; exact h1), if_neg (by rw [isPrefixOf_iff]; exact h2),
          if_pos ⟨h3.1, (isPrefixOf_iff _ _).2 h3.2⟩] at h
        split at h
        · split at h
          · cases h
          · injection h with ha hb
            subst ha hb
            exact ⟨(canon_pre (.inr (.inr h3))).symm, ⟨fun x => absurd x h1, fun ⟨p, hp⟩ => by cases hp⟩⟩
        · cases h
      · have hp : ¬ Prefixed lib s := by
          exact fun x => x.elim h1 (fun x => x.elim h2 h3)
        by_cases h4 : s = []
        · subst h4
          unfold parse at h
          simp [unixP, tcpP, fdP] at h
        · rw [parse_bare h4 hp] at h
          injection h with ha hb
          subst ha hb
          exact ⟨(canon_bare hp).symm, ⟨fun _ => ⟨_, rfl⟩, fun _ => ⟨_, rfl⟩⟩⟩

/-- What an accepted wildcard looks like. -/
theorem parse_wild {lib : Bool} {res : Bytes → Option Nat} {s n : Bytes} {p : Nat}
    (h : parse lib res s = .wild n p) : n = s ∧ tcpP <+: s ∧ 1 ≤ p ∧ p ≤ 65535 := by
  by_cases h2 : tcpP <+: s
  · have h2' := h2
    obtain ⟨q, rfl⟩ := h2
    rw [parse_tcp] at h
    split at h
    · cases h
    · rename_i hh hp he
      split at h
      · injection h with ha hb
        subst ha hb
        exact ⟨rfl, h2', parseHostport_port he⟩
      · split at h <;> cases h
  · exfalso
    unfold parse at h
    split at h
    · split at h <;> cases h
    · rw [if_neg (by rw [isPrefixOf_iff]; exact h2)] at h
      split at h
      · split at h
        · split at h <;> cases h
        · cases h
      · split at h <;> cases h

/-! ### The invariant -/

def asTarget (lib : Bool) (res : Bytes → Option Nat) (s : Bytes) : Option (Bytes × Dest) :=
  match parse lib res s with
  | .target n d => some (n, d)
  | _ => none

def asWild (lib : Bool) (res : Bytes → Option Nat) (s : Bytes) : Option Wild :=
  match parse lib res s with
  | .wild n p => some ⟨n, p⟩
  | _ => none

def named (l : List Target) : List (Bytes × Dest) := l.filterMap (fun t => t.name.map (fun n => (n, t.dest)))

def autos (l : List Target) : List Dest := (l.filter (fun t => t.name.isNone)).map (·.dest)

structure Inv (lib : Bool) (res : Bytes → Option Nat) (acc : List Bytes) (t : St) : Prop where
  ok : ∀ s ∈ acc, parse lib res s ≠ .bad
  tps : named t.tps = acc.filterMap (asTarget lib res)
  wps : t.wps = acc.filterMap (asWild lib res)
  src : ∀ x ∈ t.tps, x.name ≠ none → x.src = none
  auto : ∀ x ∈ t.tps, x.name = none → ∃ h p, x.dest = .inet h p
  frm : ∀ x ∈ t.tps, x.name = none → t.wps ≠ []
  once : (autos t.tps).Nodup
  l64 : t.tps.length ≤ 64
  l2 : t.wps.length ≤ 2

theorem Inv.zero (lib : Bool) (res : Bytes → Option Nat) : Inv lib res [] {} :=
  ⟨by simp, rfl, rfl, by simp, by simp, by simp, List.nodup_nil, by simp, by simp⟩

theorem Inv.name_shape {lib : Bool} {res : Bytes → Option Nat} {acc : List Bytes} {t : St} (h : Inv lib res acc t)
    {x : Target} (hx : x ∈ t.tps) {n : Bytes} (hn : x.name = some n) :
    ∃ s ∈ acc, parse lib res s = .target n x.dest := by
  have : (n, x.dest) ∈ named t.tps := List.mem_filterMap.2 ⟨x, hx, by rw [hn]; rfl⟩
  rw [h.tps] at this
  obtain ⟨s, hs, he⟩ := List.mem_filterMap.1 this
  refine ⟨s, hs, ?_⟩
  unfold asTarget at he
  split at he
  · injection he with he; injection he with a b; subst a b; assumption
  · cases he

theorem Inv.append {lib : Bool} {res : Bytes → Option Nat} {acc : List Bytes} {t : St} (h : Inv lib res acc t)
    (m1 m2 : Bool) (s : Bytes) :
    ((append lib res m1 m2 s t).2 = true → Inv lib res (acc ++ [s]) (append lib res m1 m2 s t).1) ∧
    ((append lib res m1 m2 s t).2 = false → (append lib res m1 m2 s t).1 = t) := by
  unfold Tset.append
  split
  · exact ⟨by simp, by simp⟩
  · rename_i n d he
    split
    · exact ⟨by simp, by simp⟩
    · split
      · exact ⟨by simp, by simp⟩
      · split
        · exact ⟨by simp, by simp⟩
        · rename_i hlen _
          refine ⟨fun _ => ?_, by simp⟩
          refine ⟨?_, ?_, ?_, ?_, ?_, ?_, ?_, ?_, h.l2⟩
          · intro x hx
            rcases List.mem_append.1 hx with hx | hx
            · exact h.ok x hx
            · rw [List.mem_singleton] at hx; subst hx; rw [he]; simp
          · have : asTarget lib res s = some (n, d) := by unfold asTarget; rw [he]
            simp only [named, List.filterMap_append, List.filterMap_cons, List.filterMap_nil, this]
            have ht := h.tps; unfold named at ht
            rw [ht]; rfl
          · have : asWild lib res s = none := by unfold asWild; rw [he]
            simp only [List.filterMap_append, List.filterMap_cons, List.filterMap_nil, this, List.append_nil]
            exact h.wps
          · intro x hx hn
            rcases List.mem_append.1 hx with hx | hx
            · exact h.src x hx hn
            · rw [List.mem_singleton] at hx; subst hx; rfl
          · intro x hx hn
            rcases List.mem_append.1 hx with hx | hx
            · exact h.auto x hx hn
            · rw [List.mem_singleton] at hx; subst hx; cases hn
          · intro x hx hn
            rcases List.mem_append.1 hx with hx | hx
            · exact h.frm x hx hn
            · rw [List.mem_singleton] at hx; subst hx; cases hn
          · simp only [autos, List.filter_append]
            simpa [autos] using h.once
          · have := h.l64
            simp only [List.length_append, List.length_singleton]
            omega
  · rename_i n p he
    split
    · exact ⟨by simp, by simp⟩
    · split
      · exact ⟨by simp, by simp⟩
      · split
        · exact ⟨by simp, by simp⟩
        · rename_i hlen _
          refine ⟨fun _ => ?_, by simp⟩
          refine ⟨?_, ?_, ?_, h.src, h.auto, by simp, h.once, h.l64, ?_⟩
          · intro x hx
            rcases List.mem_append.1 hx with hx | hx
            · exact h.ok x hx
            · rw [List.mem_singleton] at hx; subst hx; rw [he]; simp
          · have : asTarget lib res s = none := by unfold asTarget; rw [he]
            simp only [List.filterMap_append, List.filterMap_cons, List.filterMap_nil, this, List.append_nil]
            exact h.tps
          · have : asWild lib res s = some ⟨n, p⟩ := by unfold asWild; rw [he]
            simp only [List.filterMap_append, List.filterMap_cons, List.filterMap_nil, this]
            rw [h.wps]
          · have := h.l2
            simp only [List.length_append, List.length_singleton]
            omega

end Verif.Tset
