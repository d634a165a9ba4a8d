import Verif.Srtp.Props

/-! # Cases, and where the plain claim fails -/

namespace Verif.Srtp

/-- Whether a text denotes a digest can be decided. -/
def decDenotes : ∀ f d : Bytes, Decidable (Denotes f d)
  | [], _ => isFalse (by simp [Denotes])
  | [_], _ => isFalse (by simp [Denotes])
  | [_, _], [] => isFalse (by simp [Denotes])
  | [h, l], [a] => inferInstanceAs (Decidable (hexVal h = some (a.toNat / 16) ∧ hexVal l = some (a.toNat % 16)))
  | [_, _], _ :: _ :: _ => isFalse (by simp [Denotes])
  | _ :: _ :: _ :: _, [] => isFalse (by simp [Denotes])
  | h :: l :: c :: t, a :: d =>
    have := decDenotes t d
    inferInstanceAs (Decidable (hexVal h = some (a.toNat / 16) ∧ hexVal l = some (a.toNat % 16) ∧ c = 58 ∧ Denotes t d))

instance (f d : Bytes) : Decidable (Denotes f d) := decDenotes f d

def shown (past : List Ev) : Option Conn :=
  match run past with
  | .ok c => some c
  | .error _ => none

def text (s : String) : Bytes := s.toList.map fun c => UInt8.ofNat c.toNat

/-- Thirty-two bytes. -/
def digest : Bytes := (List.range 32).map fun n => UInt8.ofNat (n + 160)

def digestText : Bytes := text
  "A0:A1:A2:A3:A4:A5:A6:A7:A8:A9:AA:AB:AC:AD:AE:AF:B0:B1:B2:B3:B4:B5:B6:B7:B8:B9:BA:BB:BC:BD:BE:BF"

def smallText : Bytes := text
  "a0:a1:a2:a3:a4:a5:a6:a7:a8:a9:aa:ab:ac:ad:ae:af:b0:b1:b2:b3:b4:b5:b6:b7:b8:b9:ba:bb:bc:bd:be:bf"

def otherText : Bytes := text
  "C0:A1:A2:A3:A4:A5:A6:A7:A8:A9:AA:AB:AC:AD:AE:AF:B0:B1:B2:B3:B4:B5:B6:B7:B8:B9:BA:BB:BC:BD:BE:BF"

/-- The keying material: 0, 1, 2, … -/
def material (n : Nat) : Option Bytes := some ((List.range n).map UInt8.ofNat)

def junk : Junk := ⟨List.replicate 46 170, List.replicate 46 187, List.replicate 256 204⟩

/-- A handshake that is completed. -/
def good (p : Prof) : Hs := ⟨true, false, true, true, some p, material, some digest, true, true, junk⟩

theorem good_sane (p : Prof) (h : p ∈ offered) : (good p).Sane := by
  refine ⟨?_, ?_, ?_, ?_⟩
  · intro n m hm
    simp only [good, material, Option.some.injEq] at hm
    rw [← hm]; simp
  · intro d hd; cases hd; decide
  · intro q hq; cases hq; exact h
  · exact ⟨List.length_replicate .., List.length_replicate .., List.length_replicate ..⟩

/-- A passive peer with the certificate and a source, and what follows (latest event first). -/
def call : List Ev := [.dgram (good .gcm128), .cmd (some ⟨.passive, algName, digestText, some (text "12345")⟩) true]

example : Sane call := ⟨good_sane _ (by decide), trivial⟩
example : Accepted call := ⟨fun c h => by cases h; decide +kernel, trivial⟩

example : Denotes digestText digest ∧ Denotes smallText digest := by
  decide +kernel

/-- The active end sends with bytes 0-15 and 32-43 and receives with bytes 16-31 and 44-55. -/
example : (shown call).map (fun c => (c.st, c.mode, c.out, c.inn)) = some (.up, .active,
    some ⟨.gcm128, [0, 1, 2, 3, 4, 5, 6, 7, 8, 9, 10, 11, 12, 13, 14, 15, 32, 33, 34, 35, 36, 37, 38, 39, 40, 41, 42, 43], 16, 16, none⟩,
    some ⟨.gcm128, [16, 17, 18, 19, 20, 21, 22, 23, 24, 25, 26, 27, 28, 29, 30, 31, 44, 45, 46, 47, 48, 49, 50, 51, 52, 53, 54, 55],
      16, 16, some 12345⟩) := by decide +kernel

/-- Another certificate: the connection is dead. -/
example : (shown [.dgram (good .cm80), .cmd (some ⟨.active, algName, otherText, none⟩) true]).map (·.st) = some .dead := by
  decide +kernel

/-- For `C85_accepts` and `C85_command`. -/
example : parse [text "p", text "Sha-256", digestText, text "77"] 0 =
    some (.p, some ⟨.passive, text "SHA-256", digestText, some (text "77")⟩) := by decide +kernel

/-- C85. With the profile of the short tag, RTCP is given a short tag as well, not the one of ten bytes. -/
theorem C85_rtcp_tag_counterexample : Sane [.dgram (good .cm32)] ∧ Accepted [.dgram (good .cm32)] ∧
    (shown [.dgram (good .cm32)]).map (fun c => (c.st, c.out.map (·.rtcpTag))) = some (.up, some 4) ∧
    (params .cm32).map (·.rtcpTag) = some 10 :=
  ⟨⟨good_sane _ (by decide), trivial⟩, trivial, by decide +kernel, rfl⟩

/-- C85. A command that is refused for its source has replaced the certificate expected: the peer of the accepted command is
turned away, the peer of the refused one is let in. -/
theorem C85_refused_counterexample :
    let first : Ev := .cmd (some ⟨.active, algName, otherText, none⟩) true
    let second : Spec := ⟨.active, algName, digestText, some (text "x")⟩
    (shown [first]).map (fun c => (setmode c (some second) true).2) = some none ∧
      (shown [.dgram (good .cm80), first]).map (·.st) = some .dead ∧
      (shown [.dgram (good .cm80), .cmd (some second) true, first]).map (·.st) = some .up := by
  decide +kernel

/-- C85. A fingerprint in small letters is accepted, and the peer that has it is turned away. -/
theorem C85_small_letters_counterexample :
    Accepted [.cmd (some ⟨.active, algName, smallText, none⟩) true] ∧ Denotes smallText digest ∧
      (shown [.dgram (good .cm80), .cmd (some ⟨.active, algName, smallText, none⟩) true]).map (·.st) = some .dead := by
  exact ⟨⟨fun c h => by cases h; decide +kernel, trivial⟩, by decide +kernel, by decide +kernel⟩

/-- C85. 2^32 as the source is accepted and means any source; -1 is accepted and means the largest. -/
theorem C85_source_counterexample : ssrcOf (text "4294967296") = some 0 ∧ ssrcOf (text "-1") = some 4294967295 ∧
    (shown [.dgram (good .cm80), .cmd (some ⟨.active, algName, digestText, some (text "4294967296")⟩) true]).map
      (fun c => (c.st, c.inn.map (·.ssrc))) = some (.up, some none) := by decide +kernel

/-- C85. Two characters that together have the bits of a letter are taken for it. -/
theorem C85_word_counterexample : parse [text "!A", text "SHA-256", digestText] 0 =
    some (.a, some ⟨.active, text "SHA-256", digestText, none⟩) := by decide +kernel

/-- C85. A connection that could not be begun with a passive peer goes on as a server: the keys are then those of the server. -/
theorem C85_failed_connect_counterexample :
    let s : Spec := ⟨.passive, algName, digestText, none⟩
    (setmode {} (some s) false).2 = none ∧
      (shown [.dgram (good .cm80), .cmd (some s) false]).map (fun c => (c.st, c.mode)) = some (.up, .actpass) := by decide +kernel

end Verif.Srtp
