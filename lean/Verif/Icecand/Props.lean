import Verif.Icecand.Inv

/-!
# C87: the subcommands of ICE mean what they say
-/

namespace Verif.Icecand

/-- **C87** (a candidate is taken as written): whatever candidates are known and whatever `inet_pton` is, a candidate line of
UDP with numbers in range is accepted.  Afterwards the candidates are those before if there was one for the same component at
the same address (for component 0, any at that address), and otherwise those before followed by the new one with every
field as written. -/
theorem C87_candidate (pton : Bytes → Option Host) (rc : List Cand) (args : List Bytes) (c : Cand)
    (h : Line pton args c) :
    decode pton true rc args =
      some (if ∃ x ∈ rc, (c.comp = 0 ∨ x.comp = c.comp) ∧ x.addr = c.addr then rc else rc ++ [c]) := by
  obtain ⟨compid, transp, prio, addr, port, typ, kind, ext, rfl, ht, hu, hc, hc', hp, hp', hq, hq', hl, ha, hk, hx, h1, h2⟩ :=
    h.form
  unfold decode
  have hpairs := pairs_words pton ext ⟨if 58 ∈ addr then .v6 0 else .v4 0, 0⟩ c.rel (Nat.zero_lt_succ _) hx h1 h2
  have hset : saSet pton addr (u32 port) = some c.addr := by
    unfold saSet
    rw [take_of_lt (by omega), ha, u32_decimal hq (by omega), Nat.mod_eq_of_lt hq']
    rfl
  have hkind : kindOf (kind.take 7) = c.kind := by
    have key : ∀ w, same kind w = true → w.length ≤ 7 → kind.take 7 = kind := fun w hw hwl =>
      take_of_lt (by rw [same_length hw]; exact hwl)
    rcases hk with ⟨e, hk⟩ | ⟨e, hk⟩ | ⟨e, hk⟩ | ⟨e, hk⟩
    · rw [key _ hk (by decide +kernel), e, kindOf, if_pos hk]
    · rw [key _ hk (by decide +kernel), e, kindOf, if_neg (by rw [same_cross hk (by decide +kernel)]; decide), if_pos hk]
    · rw [key _ hk (by decide +kernel), e, kindOf, if_neg (by rw [same_cross hk (by decide +kernel)]; decide),
        if_neg (by rw [same_cross hk (by decide +kernel)]; decide), if_pos hk]
    · rw [key _ hk (by decide +kernel), e, kindOf, if_neg (by rw [same_cross hk (by decide +kernel)]; decide),
        if_neg (by rw [same_cross hk (by decide +kernel)]; decide),
        if_neg (by rw [same_cross hk (by decide +kernel)]; decide), if_pos hk]
  simp only [ht, same_udp, hu, Bool.not_true, Bool.false_eq_true, if_false, hpairs, hset, hkind]
  rw [u32_decimal hc (by omega), Nat.mod_eq_of_lt hc', u32_decimal hp hp']
  have hany : rc.any (hit c.comp c.addr) = true ↔ ∃ x ∈ rc, (c.comp = 0 ∨ x.comp = c.comp) ∧ x.addr = c.addr := by
    rw [List.any_eq_true]
    refine exists_congr fun x => and_congr_right fun _ => ?_
    unfold hit
    split
    · rename_i hh
      simp only [Bool.false_eq_true, false_iff]
      rintro ⟨h0 | h0, _⟩
      · exact hh.1 h0
      · exact hh.2 h0
    · rename_i hh
      rw [beq_iff_eq]
      refine ⟨fun e => ⟨?_, e⟩, fun e => e.2⟩
      by_cases h0 : c.comp = 0
      · exact .inl h0
      · exact .inr (Classical.byContradiction fun h3 => hh ⟨h0, h3⟩)
  by_cases hh : ∃ x ∈ rc, (c.comp = 0 ∨ x.comp = c.comp) ∧ x.addr = c.addr
  · rw [if_pos (hany.mpr hh), if_pos hh]
  · rw [if_neg (fun h3 => hh (hany.mp h3)), if_neg hh]

/-- **C87** (no candidate twice): after any subcommands, well formed or not and whatever fails to be allocated, no two remote
candidates are for the same component at the same address. -/
theorem C87_once (pton : Bytes → Option Host) (h : List (Bool × List Bytes)) :
    (after pton h).Pairwise fun a b => ¬ (a.comp = b.comp ∧ a.addr = b.addr) := by
  induction h with
  | nil => exact List.Pairwise.nil
  | cons e h ih =>
    obtain ⟨mem, args⟩ := e
    unfold after
    cases hd : decode pton mem (after pton h) args with
    | none => exact ih
    | some rc =>
      rcases decode_shape hd with rfl | ⟨c, rfl, hc⟩
      · exact ih
      · rw [Option.getD_some, List.pairwise_append]
        refine ⟨ih, List.pairwise_singleton _ _, ?_⟩
        intro a ha b hb
        rw [List.mem_singleton] at hb
        rw [hb]
        exact hc a ha

/-- **C87** (candidates stay): each subcommand adds at most one candidate, at the end; those known before are neither changed
nor lost. -/
theorem C87_stay (pton : Bytes → Option Host) (h' h : List (Bool × List Bytes)) :
    ∃ new, after pton (h' ++ h) = after pton h ++ new ∧ new.length ≤ h'.length := by
  induction h' with
  | nil => exact ⟨[], by simp⟩
  | cons e h' ih =>
    obtain ⟨mem, args⟩ := e
    obtain ⟨new, e1, e2⟩ := ih
    rw [List.cons_append]
    have hs : after pton ((mem, args) :: (h' ++ h)) =
      (decode pton mem (after pton (h' ++ h)) args).getD (after pton (h' ++ h)) := rfl
    rw [hs]
    cases hd : decode pton mem (after pton (h' ++ h)) args with
    | none => exact ⟨new, by simpa using e1, by simp; omega⟩
    | some rc =>
      rcases decode_shape hd with rfl | ⟨c, rfl, _⟩
      · exact ⟨new, by simpa using e1, by simp; omega⟩
      · exact ⟨new ++ [c], by rw [Option.getD_some, e1, List.append_assoc], by simp; omega⟩

/-- **C87** (what is refused): with memory, a line is refused exactly if it has fewer than eight words, its seventh is not
`typ`, its transport is not UDP, its address is not numeric, or a `raddr` is not. -/
theorem C87_refused (pton : Bytes → Option Host) (rc : List Cand) (args : List Bytes) :
    decode pton true rc args = none ↔
      args.length < 8 ∨ same (args.getD 6 []) (bs "typ") = false ∨ same (args.getD 2 []) (bs "udp") = false ∨
      pton ((args.getD 4 []).take 63) = none ∨
      ∃ i, 9 + 2 * i < args.length ∧ same (args.getD (8 + 2 * i) []) (bs "raddr") = true ∧
        pton ((args.getD (9 + 2 * i) []).take 63) = none := by
  have hp : ∀ (n : Nat) (l : List Bytes) (rel : Sa), l.length ≤ n → (pairs pton l rel = none ↔
      ∃ i, 1 + 2 * i < l.length ∧ same (l.getD (2 * i) []) (bs "raddr") = true ∧
        pton ((l.getD (1 + 2 * i) []).take 63) = none) := by
    intro n
    induction n with
    | zero =>
      intro l rel hl
      cases l with
      | nil => simp [pairs]
      | cons a l => simp at hl
    | succ n ih =>
      intro l rel hl
      match l with
      | [] => simp [pairs]
      | [a] =>
        simp only [pairs, List.length_singleton, reduceCtorEq, false_iff, not_exists, not_and]
        intro i hi
        omega
      | a :: v :: l =>
        simp only [List.length_cons] at hl
        have shift : (∃ i, 1 + 2 * i < (a :: v :: l).length ∧ same ((a :: v :: l).getD (2 * i) []) (bs "raddr") = true ∧
            pton (((a :: v :: l).getD (1 + 2 * i) []).take 63) = none) ↔
            (same a (bs "raddr") = true ∧ pton (v.take 63) = none) ∨
            ∃ i, 1 + 2 * i < l.length ∧ same (l.getD (2 * i) []) (bs "raddr") = true ∧
              pton ((l.getD (1 + 2 * i) []).take 63) = none := by
          constructor
          · rintro ⟨i, h1, h2, h3⟩
            cases i with
            | zero => exact .inl ⟨h2, h3⟩
            | succ i =>
              refine .inr ⟨i, by simp only [List.length_cons] at h1; omega, ?_, ?_⟩
              · rw [show 2 * (i + 1) = 2 * i + 1 + 1 by omega] at h2
                simpa using h2
              · rw [show 1 + 2 * (i + 1) = 1 + 2 * i + 1 + 1 by omega] at h3
                simpa using h3
          · rintro (⟨h1, h2⟩ | ⟨i, h1, h2, h3⟩)
            · exact ⟨0, by simp, h1, h2⟩
            · refine ⟨i + 1, by simp only [List.length_cons]; omega, ?_, ?_⟩
              · rw [show 2 * (i + 1) = 2 * i + 1 + 1 by omega]
                simpa using h2
              · rw [show 1 + 2 * (i + 1) = 1 + 2 * i + 1 + 1 by omega]
                simpa using h3
        rw [shift]
        unfold pairs
        by_cases ha : same a (bs "raddr") = true
        · rw [if_pos ha]
          unfold saSet
          cases hv : pton (v.take 63) with
          | none => simp [ha]
          | some g =>
            simp only [Option.map_some]
            rw [ih l _ (by omega)]
            simp
        · rw [if_neg ha]
          have : ∀ r, (pairs pton l r = none ↔ (same a (bs "raddr") = true ∧ pton (v.take 63) = none) ∨
            ∃ i, 1 + 2 * i < l.length ∧ same (l.getD (2 * i) []) (bs "raddr") = true ∧
              pton ((l.getD (1 + 2 * i) []).take 63) = none) := by
            intro r
            rw [ih l r (by omega)]
            exact ⟨.inr, fun h => h.elim (fun h => absurd h.1 ha) id⟩
          split
          · exact this _
          · exact this _
  unfold decode
  split
  · rename_i found compid transp prio addr port typ kind extra
    have hx : (∃ i, 9 + 2 * i < (found :: compid :: transp :: prio :: addr :: port :: typ :: kind :: extra).length ∧
        same ((found :: compid :: transp :: prio :: addr :: port :: typ :: kind :: extra).getD (8 + 2 * i) []) (bs "raddr") =
          true ∧
        pton (((found :: compid :: transp :: prio :: addr :: port :: typ :: kind :: extra).getD (9 + 2 * i) []).take 63) =
          none) ↔
        ∃ i, 1 + 2 * i < extra.length ∧ same (extra.getD (2 * i) []) (bs "raddr") = true ∧
          pton ((extra.getD (1 + 2 * i) []).take 63) = none := by
      refine exists_congr fun i => ?_
      rw [show 8 + 2 * i = 2 * i + 1 + 1 + 1 + 1 + 1 + 1 + 1 + 1 by omega,
        show 9 + 2 * i = 1 + 2 * i + 1 + 1 + 1 + 1 + 1 + 1 + 1 + 1 by omega]
      simp
    rw [hx, ← hp extra.length extra ⟨if 58 ∈ addr then .v6 0 else .v4 0, 0⟩ (Nat.le_refl _)]
    have g6 : (found :: compid :: transp :: prio :: addr :: port :: typ :: kind :: extra).getD 6 [] = typ := rfl
    have g2 : (found :: compid :: transp :: prio :: addr :: port :: typ :: kind :: extra).getD 2 [] = transp := rfl
    have g4 : (found :: compid :: transp :: prio :: addr :: port :: typ :: kind :: extra).getD 4 [] = addr := rfl
    rw [g6, g2, g4, same_udp]
    have gl : ¬ (found :: compid :: transp :: prio :: addr :: port :: typ :: kind :: extra).length < 8 := by simp
    cases h6 : same typ (bs "typ") with
    | false => simp
    | true =>
      cases h2 : same transp (bs "udp") with
      | false => simp
      | true =>
        cases h4 : pairs pton extra ⟨if 58 ∈ addr then .v6 0 else .v4 0, 0⟩ with
        | none => simp
        | some rel =>
          unfold saSet
          cases h5 : pton (addr.take 63) with
          | none => simp
          | some g =>
            simp only [Bool.not_true, Bool.false_eq_true, if_false, Option.map_some, reduceCtorEq, or_false,
              gl, iff_false]
            split <;> simp
  · rename_i hne
    simp only [true_iff]
    left
    match args, hne with
    | [], _ | [_], _ | [_, _], _ | [_, _, _], _ | [_, _, _, _], _ | [_, _, _, _, _], _ | [_, _, _, _, _, _], _
    | [_, _, _, _, _, _, _], _ => simp
    | _ :: _ :: _ :: _ :: _ :: _ :: _ :: _ :: _, hne => exact absurd rfl (hne _ _ _ _ _ _ _ _ _)

/-- **C87** (the answer): if fragment, password and quoted candidates fit with the blanks, the answer is the fragment, the
password and every candidate, quoted, in order. -/
theorem C87_answer_partial (ufrag pwd : Bytes) (cs : List (List Bytes)) (hu : ∀ b ∈ ufrag, b ≠ 0) (hp : ∀ b ∈ pwd, b ≠ 0)
    (hl : (answer ufrag pwd cs).length < 512) :
    start ufrag pwd cs = .ok (some (answer ufrag pwd cs)) := by
  unfold answer at hl
  simp only [List.length_append] at hl
  have a0 : At [] fresh := ⟨by simp, rfl⟩
  obtain ⟨r1, e1, a1⟩ := app_at a0 (x := ufrag) (by simp only [List.length_nil]; omega)
  obtain ⟨r2, e2, a2⟩ := app_at a1 (x := bs " ") (by simp only [List.length_append, List.length_nil]; omega)
  obtain ⟨r3, e3, a3⟩ := app_at a2 (x := pwd) (by simp only [List.length_append, List.length_nil]; omega)
  obtain ⟨r4, e4, a4⟩ := cands_at cs a3 (by simp only [List.length_append, List.length_nil]; omega)
  unfold start
  simp only [e1, e2, e3, e4]
  obtain ⟨-, rfl⟩ := a4
  have ht : [] ++ ufrag ++ bs " " ++ pwd ++ (cs.map fun c => bs " c:" ++ (c.map Str.enc).flatten).flatten =
      answer ufrag pwd cs := rfl
  simp only [ht]
  have blank : ∀ y ∈ bs " ", y ≠ 0 := by decide +kernel
  have mark : ∀ y ∈ bs " c:", y ≠ 0 := by decide +kernel
  rw [textOf_zeros]
  · intro y hy
    unfold answer at hy
    simp only [List.mem_append, List.mem_flatten, List.mem_map] at hy
    rcases hy with ((hy | hy) | hy) | ⟨l, ⟨c, _, rfl⟩, hy⟩
    · exact hu y hy
    · exact blank y hy
    · exact hp y hy
    · rcases List.mem_append.mp hy with hy | hy
      · exact mark y hy
      · obtain ⟨l, hl1, hl2⟩ := List.mem_flatten.mp hy
        obtain ⟨x, _, rfl⟩ := List.mem_map.mp hl1
        exact enc_ne x y hl2
  · unfold answer
    simp only [List.length_append]
    omega

/-- **C87** (the answer stays in its place): whatever the lengths, nothing outside of the response is written, and what is read
for the reply ends within it, provided the last piece of every candidate needs no quoting (libre ends with the name of the
type, or a port). -/
theorem C87_answer_safe (ufrag pwd : Bytes) (cs : List (List Bytes))
    (hc : ∀ c ∈ cs, ∀ l, c.getLast? = some l → ∀ b ∈ l, Str.Unreserved b) :
    ∃ t, start ufrag pwd cs = .ok t := by
  have hn : fresh.mem[511]? = some 0 := by decide +kernel
  have k0 : K fresh := ⟨⟨by decide +kernel, by decide, fun _ => hn⟩, hn⟩
  obtain ⟨r1, e1, k1⟩ := app_k (x := ufrag) k0
  obtain ⟨r2, e2, k2⟩ := app_k (x := bs " ") k1
  obtain ⟨r3, e3, k3⟩ := app_k (x := pwd) k2
  unfold start
  simp only [e1, e2, e3]
  rcases cands_k cs r3 k3 hc with e | ⟨r4, e4, k4⟩
  · rw [e]; exact ⟨_, rfl⟩
  · rw [e4]
    simp only
    unfold textOf
    rw [if_pos (List.mem_of_getElem? k4.last)]
    exact ⟨_, rfl⟩

/-- **C87** (words): a single letter, of either case, is a subcommand exactly with its number of words. -/
theorem C87_letter (c : UInt8) (argc : Nat) (k : Cmd) :
    classify [c] argc = some k ↔
      (k = .auth ∧ (c = 97 ∨ c = 65) ∧ argc = 3) ∨ (k = .cand ∧ (c = 99 ∨ c = 67) ∧ 9 ≤ argc) ∨
      (k = .start ∧ (c = 115 ∨ c = 83) ∧ argc = 1) ∨ (k = .off ∧ (c = 100 ∨ c = 68) ∧ argc = 1) ∨
      (k = .offOut ∧ (c = 117 ∨ c = 85) ∧ argc = 1) := by
  have h0 : [c].getD 0 0 ||| [c].getD 1 0 = c := by
    show c ||| 0 = c
    simp
  unfold classify
  simp only [h0]
  by_cases ha : c = 97 ∨ c = 65
  · rcases ha with rfl | rfl <;> by_cases h : argc = 3 <;> cases k <;> simp [h]
  by_cases hb : c = 99 ∨ c = 67
  · rcases hb with rfl | rfl <;> by_cases h : argc < 9 <;> cases k <;> simp [h] <;> omega
  by_cases hs : c = 115 ∨ c = 83
  · rcases hs with rfl | rfl <;> by_cases h : argc = 1 <;> cases k <;> simp [h]
  by_cases hd : c = 100 ∨ c = 68
  · rcases hd with rfl | rfl <;> by_cases h : argc = 1 <;> cases k <;> simp [h]
  by_cases hu : c = 117 ∨ c = 85
  · rcases hu with rfl | rfl <;> by_cases h : argc = 1 <;> cases k <;> simp [h]
  rw [if_neg ha, if_neg hb, if_neg hs, if_neg hd, if_neg hu]
  simp [ha, hb, hs, hd, hu]

/-! ## What is not so -/

/-- The address 192.0.2.1 as an example of `inet_pton`. -/
def exPton (w : Bytes) : Option Host := if w = bs "192.0.2.1" then some (.v4 3221225985) else none

def ex (comp prio port kind : String) : List Bytes :=
  [bs "f", bs comp, bs "UDP", bs prio, bs "192.0.2.1", bs port, bs "typ", bs kind]

/-- Numbers out of range or no numbers at all are accepted as others: component 257 as 1, so that the candidate for
component 1 is then taken for known; port 65537 as 1; a priority that is no number as 0; and a type that is none. -/
theorem C87_numbers_counterexample :
    after exPton [(true, ex "1" "7" "9" "host"), (true, ex "257" "5" "9" "host")] =
      [⟨.host, 1, 5, ⟨.v4 3221225985, 9⟩, ⟨.v4 0, 0⟩, bs "f"⟩] ∧
    after exPton [(true, ex "1" "high" "65537" "none")] =
      [⟨.other, 1, 0, ⟨.v4 3221225985, 1⟩, ⟨.v4 0, 0⟩, bs "f"⟩] := by
  decide +kernel

/-- Words of more letters are taken for a subcommand: `aa`, `Add`, and `!@` for `a`. -/
theorem C87_word_counterexample :
    classify (bs "aa") 3 = some .auth ∧ classify (bs "!@") 3 = some .auth ∧ classify (bs "s`p") 1 = some .start := by
  decide +kernel

/-- The answer without the password, and no error: as long as the ones of the other side, which RFC 8839 allows up to 256,
the password does not fit behind the fragment, and `APPEND` is not asked the right question. -/
theorem C87_password_counterexample :
    ∃ ufrag pwd : Bytes, ufrag.length = 256 ∧ pwd.length = 256 ∧
      (∃ t, start ufrag pwd [] = .ok (some t) ∧ t ≠ answer ufrag pwd []) ∧
      (∃ t, start ufrag pwd [[bs "f1"]] = .ok (some t) ∧ t.take 262 = ufrag ++ bs "  c:f1") := by
  have shown : ∀ {e : Except Fault (Option Bytes)} {x}, e.toOption = some x → e = .ok x := by
    intro e x h
    cases e with
    | error _ => cases h
    | ok y => exact congrArg _ (Option.some.inj h)
  refine ⟨List.replicate 256 65, List.replicate 256 66, List.length_replicate, List.length_replicate, ?_, ?_⟩
  · exact ⟨List.replicate 256 65 ++ bs " " ++ List.replicate 254 66, shown (by decide +kernel), by decide +kernel⟩
  · exact ⟨List.replicate 256 65 ++ bs "  c:f1" ++ List.replicate 249 66, shown (by decide +kernel), by decide +kernel⟩

end Verif.Icecand
