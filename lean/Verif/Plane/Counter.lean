import Verif.Plane.PropsIce2
import Verif.Plane.PropsDtls
import Verif.Plane.PropsOwn

/-! C68–C70: what is not the case. -/

namespace Verif.Plane

open Verif.Latch (Addr)

/-! Packets for the examples. -/

def A : Addr := ⟨1, 1000⟩
def B : Addr := ⟨2, 2000⟩
def C : Addr := ⟨3, 3000⟩
def stunB : List UInt8 := [0, 1, 0, 0, 0x21, 0x12, 0xa4, 0x42, 0, 0, 0, 0, 0, 0, 0, 0, 0, 0, 0, 1]
def rtpB (ssrc : UInt8) : List UInt8 := [0x80, 0, 0, 1, 0, 0, 0, 0, 0, 0, 0, ssrc, 9]
def rtcpB : List UInt8 := [0x80, 200, 0, 1, 0, 0, 0, 7]
def dtlsB : List UInt8 := [22, 0, 0, 0, 0, 0, 0, 0, 0, 0, 0, 0, 0]

/-- A handshake step that ends the handshake with a peer of that fingerprint. -/
def good (f : Nat) : Hs := ⟨true, false, true, true, true, some f, true⟩

/-- The run goes through and ends in a state with the property. -/
def ends (es : List Ev) (P : St → Bool) : Bool :=
  match run init es with
  | .ok st => P st
  | .error _ => false

/-- The run ends in undefined behaviour. -/
def faults (es : List Ev) : Bool :=
  match run init es with
  | .ok _ => false
  | .error .ub => true
  | .error .abort => false

/-- What a command is answered with after a run. -/
def answers (es : List Ev) (e : Ev) : Option Bool :=
  match run init es with
  | .ok st => match step st e with
    | .ok (_, b) => some b
    | .error _ => none
  | .error _ => none

/-- C68. Completion does not always lock the stream.  The stream was latched to `A`, signalling moved it to `B`, media
with a zero SSRC from there cleared the latch (rtpp_stream.c:688-699); then the checks complete with `A`, which is the
previous address, so the latch stays open (rtpp_stream.c:821-824), and the first packet from anywhere takes the stream
over. -/
theorem C68_not_locked_counterexample :
    ends [.prefill (rtp false) 1 A, .rx (rtp false) 2 (rtpB 7) A false true true true, .prefill (rtp false) 3 B,
      .rx (rtp false) 20000000 (rtpB 0) B true true true true,
      .iceStart false true true, .rx (rtp false) 20000001 stunB A false true true true,
      .iceWork 20000002 [true] [(A, [1])], .rx (rtp false) 20000003 (rtpB 9) C false true true true]
      (fun st => st.ice false = some 0 ∧ st.completed 0 = true ∧ (st.strm (rtp false)).mode = .forceOn ∧
        (st.strm (rtp false)).rem = some C) = true := by decide +kernel

/-- C68. A message that is in the queue when ICE is switched off is still handled (the item has a reference to the
agent, rtpp_ice_lite.c:683-688): the stream ends up locked to its source although ICE is off. -/
theorem C68_off_but_locked_counterexample :
    ends [.iceStart false true true, .rx (rtp false) 1 stunB A false true true true, .iceOff false,
      .iceWork 2 [true] []]
      (fun st => st.ice false = none ∧ (st.strm (rtp false)).mode = .forceOn ∧ (st.strm (rtp false)).rem = some A) =
        true := by decide +kernel

/-- C68. The same after a restart: an old message sets the address of the stream while the checks of the new agent have
not even begun; and then media does change it, although they are not completed. -/
theorem C68_stale_message_counterexample :
    ends [.iceStart false true true, .rx (rtp false) 1 stunB A false true true true, .iceOff false,
      .iceStart false true true, .iceWork 2 [true] []]
      (fun st => st.ice false = some 1 ∧ st.completed 1 = false ∧ (st.strm (rtp false)).mode = .forceOn ∧
        (st.strm (rtp false)).rem = some A) = true := by decide +kernel

/-- C68. A start that fails leaves the agent in place (rtpp_ice_lite.c:420-443): all media is dropped from then on, a
second start is answered with success, and still no check is ever answered. -/
theorem C68_failed_start_counterexample :
    answers [] (.iceStart false false true) = some false ∧
    answers [.iceStart false false true] (.iceStart false true true) = some true ∧
    ends [.socket (rtp true) true, .prefill (rtp true) 1 B, .iceStart false false true, .iceStart false true true,
      .rx (rtp false) 2 (rtpB 7) A false true true true, .rx (rtp false) 3 stunB A false true true true,
      .iceWork 4 [true] [(A, [1])]]
      (fun st => st.ice false = some 0 ∧ st.completed 0 = false ∧ st.log = [] ∧ st.iceQ = []) = true := by
  decide +kernel

/-- C69. Without a fingerprint from signalling (the subcommand `S`, and no `A` or `P` since) any peer is accepted
(rtpp_dtls_conn.c:432-436). -/
theorem C69_any_peer_counterexample (f : Nat) :
    ∃ st, run init [.dtlsOn false none true, .rx (rtp false) 1 dtlsB A false true true true,
      .dtlsWork 2 (good f) none [] false true] = .ok st ∧ IsUp st 0 :=
  ⟨_, rfl, _, rfl, rfl⟩

/-- C69. A fingerprint that is changed once the connection is up is not compared with that of the peer. -/
theorem C69_late_fingerprint_counterexample :
    answers [.dtlsOn false (some ⟨false, true, true, 5, none⟩) true, .rx (rtp false) 1 dtlsB A false true true true,
      .dtlsWork 2 (good 5) none [] false true] (.dtlsOn false (some ⟨false, true, true, 6, none⟩) true) = some true ∧
    ends [.dtlsOn false (some ⟨false, true, true, 5, none⟩) true, .rx (rtp false) 1 dtlsB A false true true true,
      .dtlsWork 2 (good 5) none [] false true, .dtlsOn false (some ⟨false, true, true, 6, none⟩) true]
      (fun st => st.conns = [⟨.up, .passive, some 6, 0⟩]) = true := by decide +kernel

/-- C69. One datagram that looks like DTLS, from anyone, and the negotiation of the role is refused
(rtpp_dtls_conn.c:294-299, 383-384): the fingerprint cannot be set any more. -/
theorem C69_early_datagram_counterexample :
    answers [.dtlsOn false none true] (.dtlsOn false (some ⟨false, true, true, 5, none⟩) true) = some true ∧
    answers [.dtlsOn false none true, .rx (rtp false) 1 dtlsB C false true true true,
      .dtlsWork 2 ⟨false, false, false, false, false, none, false⟩ none [] false true]
      (.dtlsOn false (some ⟨false, true, true, 5, none⟩) true) = some false := by decide +kernel

/-- C69. RTCP that is not multiplexed with the media is relayed in the clear. -/
theorem C69_rtcp_in_the_clear_counterexample :
    ends [.socket (rtcp true) true, .prefill (rtcp true) 1 B, .dtlsOn true (some ⟨false, true, true, 5, none⟩) true,
      .rx (rtcp false) 2 rtcpB A false true true true]
      (fun st => st.dtls true = some 0 ∧ st.log.map (fun x => (x.to, x.pkt.buf)) = [(rtcp true, rtcpB)]) = true := by
  decide +kernel

/-- C70. Multiplexed RTCP for which there is nowhere to go is released twice: the chain of the RTCP stream drops it
(pproc_manager.c:219-222), and so does that of the RTP stream that it came from, as the multiplexer hands the result on
(rtpp_ice_lite.c:697-704). -/
theorem C70_released_twice_counterexample :
    faults [.iceStart false true true, .rx (rtp false) 1 stunB A false true true true, .iceWork 2 [true] [],
      .rx (rtp false) 3 rtcpB A false true true true] = true := by decide +kernel

/-- The same in the other direction: RTCP of the other side, when the stream with ICE has no address yet. -/
theorem C70_released_twice_mux_counterexample :
    faults [.iceStart false true true, .rx (rtcp true) 1 rtcpB A false true true true] = true := by decide +kernel

/-- A session with DTLS up on one side, and a packet of the other side on its way to it. -/
def large (buf : List UInt8) : List Ev :=
  [.dtlsOn false none true, .rx (rtp false) 1 dtlsB A false true true true,
   .dtlsWork 2 (good 5) none [] false true, .rx (rtp true) 3 buf B false true true true]

/-- C70. A packet as large as the buffer (rtp_packet.h:37) has no room for the tag that `srtp_protect` appends
(rtpp_dtls_conn.c:502-507): the connection writes past the end. -/
theorem C70_protect_overflow_counterexample :
    faults (large (rtpB 7 ++ List.replicate (maxLen - 13) 0) ++
      [.dtlsWork 4 (good 5) (some (rtpB 7 ++ List.replicate (maxLen - 3) 0)) [] false true]) = true := by
  decide +kernel

end Verif.Plane
