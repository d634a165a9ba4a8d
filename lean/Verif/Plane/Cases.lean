import Verif.Plane.Counter

/-! C68–C70: concrete cases that meet the hypotheses of the theorems. -/

namespace Verif.Plane

open Verif.Latch (Addr)

/-- Both sides can be sent to. -/
def setup : List Ev :=
  [.socket (rtp false) true, .socket (rtp true) true, .socket (rtcp false) true, .socket (rtcp true) true,
   .prefill (rtp false) 1 A, .prefill (rtp true) 1 B, .prefill (rtcp false) 1 A, .prefill (rtcp true) 1 B]

/-- ICE on for the caller, and completed. -/
def iced : List Ev :=
  setup ++ [.iceStart false true true, .rx (rtp false) 2 stunB C false true true true, .iceWork 3 [true] [(C, [1])]]

/-- DTLS on for the caller, and up. -/
def secured : List Ev :=
  setup ++ [.dtlsOn false (some ⟨false, true, true, 5, none⟩) true, .rx (rtp false) 2 dtlsB A false true true true,
    .dtlsWork 3 (good 5) none [[22]] false true]

theorem ends_spec {es : List Ev} {P : St → Bool} (h : ends es P = true) : ∃ st, run init es = .ok st ∧ P st = true := by
  simp only [ends] at h
  split at h
  next st hs => exact ⟨st, hs, h⟩
  · cases h

/-- C68_in_charge: on, on again, off, on for the other side. -/
example : (match runT init [.iceStart false true true, .iceAuth false false, .iceOff false, .iceOff false,
      .iceAuth true true] with
    | .ok (st, tr) => decide (st.ice false = none ∧ st.ice true = some 1 ∧ iceIs true tr = true ∧
        tr.map (·.2) = [true, false, true, false, true])
    | .error _ => false) = true := by decide +kernel

/-- C68_gate, before completion: media is dropped, and the same media is relayed afterwards. -/
example : ends (setup ++ [.iceStart false true true, .rx (rtp false) 2 (rtpB 7) A false true true true])
    (fun st => st.ice false = some 0 ∧ st.completed 0 = false ∧ st.log = [] ∧ st.iceQ = []) = true := by decide +kernel
example : ends (iced ++ [.rx (rtp false) 4 (rtpB 7) C false true true true])
    (fun st => st.ice false = some 0 ∧ st.completed 0 = true ∧
      st.log.map (fun x => (x.to, x.dst, x.pkt.buf)) = [(rtp false, some C, [1]), (rtp true, some B, rtpB 7)]) = true := by
  decide +kernel
/-- C68_gate: STUN goes to the agent. -/
example : ends (setup ++ [.iceStart false true true, .rx (rtp false) 2 stunB C false true true true])
    (fun st => st.iceQ.map (fun it => (it.agent, it.s, it.p.src)) = [(0, rtp false, C)] ∧
      (st.strm (rtp false)).mode = .forceOff ∧ (st.strm (rtp false)).rem = some A) = true := by decide +kernel

/-- C68_start, C68_address_while_checking_partial. -/
example : ends (setup ++ [.iceStart false true true, .rx (rtp false) 2 (rtpB 7) C true true true true,
      .rx (rtp false) 30000000 stunB C true true true true, .iceWork 30000001 [true, false] []])
    (fun st => st.ice false = some 0 ∧ st.completed 0 = false ∧ (st.strm (rtp false)).mode = .forceOff ∧
      (st.strm (rtp false)).rem = some A) = true := by decide +kernel

/-- C68_completion, C68_completion_locks_partial, C68_address_stays_partial: the stream is locked to where the checks
came from, and media from elsewhere and signalling do not move it. -/
example : ∃ st, Reachable st ∧ Locked st false 0 C := by
  obtain ⟨st, h, hp⟩ := ends_spec (es := iced) (P := fun st => st.ice false = some 0 ∧ st.completed 0 = true ∧
    (st.strm (rtp false)).mode = .forceOn ∧ (st.strm (rtp false)).rem = some C ∧ (st.strm (rtp false)).latched = true ∧
    (st.strm (rtp false)).asym = false ∧ (st.strm (rtp false)).untrusted = true ∧ st.iceQ = []) (by decide +kernel)
  obtain ⟨h1, h2, h3, h4, h5, h6, h7, h8⟩ := of_decide_eq_true hp
  exact ⟨st, ⟨_, h⟩, h1, h2, h3, h4, h5, h6, h7, by rw [h8]; simp⟩
example : ends (iced ++ [.rx (rtp false) 4 (rtpB 7) A false true true true, .prefill (rtp false) 5 B,
      .rx (rtp false) 40000000 (rtpB 8) B true true true true, .rx (rtp false) 40000001 stunB A false true true true,
      .iceWork 40000002 [true] []])
    (fun st => (st.strm (rtp false)).rem = some C) = true := by decide +kernel
example : ends (setup ++ [.iceStart false true true, .rx (rtp false) 2 stunB C false true true true])
    (fun st => st.completed 0 = false ∧ st.ice false = some 0 ∧
      st.iceQ.map (fun it => (it.agent, it.s, it.p.src)) = [(0, rtp false, C)] ∧ (st.strm (rtp false)).asym = false ∧
      (st.strm (rtp false)).prev = none) = true := by decide +kernel

/-- C68_off. -/
example : ends (iced ++ [.iceOff false, .rx (rtp false) 4 stunB C false true true true])
    (fun st => st.ice false = none ∧ (st.strm (rtp false)).mode = .normal ∧ st.iceQ = [] ∧
      (st.mgr (rtp false)).length = 2) = true := by decide +kernel

/-- C69_in_charge. -/
example : (match runT init [.dtlsOn false none true, .dtlsOff true, .dtlsOn true (some ⟨true, false, true, 1, none⟩) true,
      .dtlsOn true none true, .dtlsOff false] with
    | .ok (st, tr) => decide (st.dtls false = none ∧ st.dtls true = some 1 ∧ dtlsIs true tr = true ∧
        tr.map (·.2) = [true, false, false, true, true])
    | .error _ => false) = true := by decide +kernel

/-- C69_no_media_in_the_clear, C69_thread_output: media for the side with DTLS waits for the module and comes out as the
module makes it. -/
example : ends (secured ++ [.rx (rtp true) 4 (rtpB 7) B false true true true])
    (fun st => st.dtls false = some 0 ∧ st.dtlsQ.map (·.dir) = [.out] ∧
      st.log.map (fun x => (x.to, x.pkt.buf)) = [(rtp false, [22])]) = true := by decide +kernel
example : ends (secured ++ [.rx (rtp true) 4 (rtpB 7) B false true true true,
      .dtlsWork 5 (good 5) (some [1, 2, 3]) [] false true])
    (fun st => st.dtlsQ = [] ∧
      st.log.map (fun x => (x.to, x.dst, x.pkt.buf)) = [(rtp false, some A, [22]), (rtp false, some A, [1, 2, 3])]) =
        true := by decide +kernel
/-- Nothing goes out before the handshake is over. -/
example : ends (setup ++ [.dtlsOn false none true, .rx (rtp true) 4 (rtpB 7) B false true true true,
      .dtlsWork 5 (good 5) (some [1, 2, 3]) [] false true]) (fun st => st.dtlsQ = [] ∧ st.log = []) = true := by
  decide +kernel

/-- C69_datagrams_wait, C69_verified_by_the_right_connection: what arrives is relayed once it is verified. -/
example : ends (secured ++ [.rx (rtp false) 4 (rtpB 7) A false true true true])
    (fun st => st.dtlsQ.map (·.dir) = [.srtp] ∧ st.log.length = 1) = true := by decide +kernel
example : ends (secured ++ [.rx (rtp false) 4 (rtpB 7) A false true true true,
      .dtlsWork 5 (good 5) (some (rtpB 9)) [] false true])
    (fun st => st.log.drop 1 = [⟨rtp true, some B, ⟨rtpB 9, A, none, some 0, some 0⟩, .relay⟩] ∧
      st.seen.map (·.openedBy) = [none, some 0].drop 1) = true := by decide +kernel

/-- C69_peer_fingerprint_partial: the right fingerprint and a wrong one. -/
example : ends secured (fun st => st.conns = [⟨.up, .passive, some 5, 0⟩]) = true := by decide +kernel
example : ends (setup ++ [.dtlsOn false (some ⟨false, true, true, 5, none⟩) true,
      .rx (rtp false) 2 dtlsB A false true true true, .dtlsWork 3 (good 6) none [] false true])
    (fun st => st.conns = [⟨.dead, .passive, some 5, 0⟩]) = true := by decide +kernel

/-- C69_no_renegotiation. -/
example : ends (secured ++ [.rx (rtp false) 4 dtlsB A false true true true,
      .dtlsWork 5 (good 6) none [] false true]) (fun st => st.conns.map (·.st) = [.dead]) = true := by decide +kernel

/-- C69_given_up_for_good, C69_off. -/
example : ends (secured ++ [.rx (rtp true) 4 (rtpB 7) B false true true true, .dtlsOff false,
      .dtlsWork 5 (good 5) (some [1, 2, 3]) [] false true])
    (fun st => st.dtls false = none ∧ st.conns.map (·.st) = [.dead] ∧ st.log.length = 1 ∧
      (st.mgr (rtp true)).length = 2) = true := by decide +kernel

/-- Both modules at once: ICE is first, then DTLS. -/
example : ends (setup ++ [.dtlsOn false none true, .iceStart false true true,
      .rx (rtp false) 2 dtlsB A false true true true, .rx (rtp false) 3 stunB C false true true true,
      .iceWork 4 [true] [], .rx (rtp false) 5 dtlsB C false true true true])
    (fun st => st.dtlsQ.map (fun it => (it.dir, it.c.pkt.src)) = [(.dtls, C)]) = true := by decide +kernel

/-- C70_no_fault_partial: multiplexed RTCP with everything sendable, both ways. -/
example : ends (iced ++ [.rx (rtp false) 4 rtcpB C false true true true, .rx (rtcp true) 5 rtcpB B false true true true])
    (fun st => (∀ s ∈ [rtp false, rtp true, rtcp false, rtcp true], st.sendable s = true) ∧
      st.log.map (fun x => (x.to, x.dst)) =
        [(rtp false, some C), (rtcp true, some B), (rtp false, some C)]) = true := by decide +kernel
/-- C70_one_end: dropped when the other side is gone. -/
example : ends (setup ++ [.rx (rtp false) 4 (rtpB 7) A false false true true]) (fun st => st.log = []) = true := by
  decide +kernel

end Verif.Plane
