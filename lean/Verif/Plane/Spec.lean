import Verif.Plane.Model

/-! # Vocabulary of the claims about ICE and DTLS -/

namespace Verif.Plane

/-- A sequence of events with the replies. -/
def runT (st : St) : List Ev → Except Fault (St × List (Ev × Bool))
  | [] => .ok (st, [])
  | e :: es =>
    match step st e with
    | .error f => .error f
    | .ok (st', b) =>
      match runT st' es with
      | .error f => .error f
      | .ok (st'', tr) => .ok (st'', (e, b) :: tr)

/-- Is DTLS on for the RTP stream of a side?  By the commands and the replies to them. -/
def dtlsNext (i : Bool) (cur : Bool) : Ev × Bool → Bool
  | (.dtlsOn j _ _, true) => if j = i then true else cur
  | (.dtlsOff j, true) => if j = i then false else cur
  | _ => cur

/-- Is ICE on for the RTP stream of a side?  `S` and `A` turn it on even if they are answered with an error. -/
def iceNext (i : Bool) (cur : Bool) : Ev × Bool → Bool
  | (.iceStart j _ _, _) => if j = i then true else cur
  | (.iceAuth j _, _) => if j = i then true else cur
  | (.iceOff j, true) => if j = i then false else cur
  | _ => cur

def dtlsIs (i : Bool) (tr : List (Ev × Bool)) : Bool := tr.foldl (dtlsNext i) false
def iceIs (i : Bool) (tr : List (Ev × Bool)) : Bool := tr.foldl (iceNext i) false

/-- A session as some sequence of events leaves it. -/
def Reachable (st : St) : Prop := ∃ es, run init es = .ok st

/-- A connection has finished its handshake. -/
def IsUp (st : St) (n : Nat) : Prop := ∃ c, st.conns[n]? = some c ∧ c.st = .up

/-- The address of the RTP stream of a side is settled by a completed agent: it is locked, and the queue of the module
has no messages for earlier agents of the stream. -/
structure Locked (st : St) (i : Bool) (a : Nat) (addr : Latch.Addr) : Prop where
  ice : st.ice i = some a
  completed : st.completed a = true
  mode : (st.strm (rtp i)).mode = .forceOn
  rem : (st.strm (rtp i)).rem = some addr
  latched : (st.strm (rtp i)).latched = true
  symmetric : (st.strm (rtp i)).asym = false
  untrusted : (st.strm (rtp i)).untrusted = true
  queue : ∀ it ∈ st.iceQ, it.s = rtp i → it.agent = a

/-- The checks of an agent for the RTP stream of a side are under way, and the queue of the module has no messages for
earlier agents of the stream. -/
structure Pending (st : St) (i : Bool) (a : Nat) : Prop where
  ice : st.ice i = some a
  open_ : st.completed a = false
  mode : (st.strm (rtp i)).mode = .forceOff
  queue : ∀ it ∈ st.iceQ, it.s = rtp i → it.agent = a

/-- The effects that end the reference of the caller to a packet. -/
def Eff.final : Eff → Bool
  | .seen _ _ => false
  | .analyzed _ _ => false
  | _ => true

/-- The other processors only look. -/
def Passive (st : St) : Prop := ∀ s p f, p ∈ st.mgr s → p.kind = .other f → ∀ x, f x = .nop ∨ f x = .tee

/-- No RTCP goes into a chain in this step: what arrives, what is injected, what was decrypted. -/
def NoRtcp (st : St) : Ev → Prop
  | .rx _ _ buf src _ _ _ _ => ({ buf := buf, src := src } : Pkt).isRtcp = false
  | .inject _ _ p _ _ _ _ => p.isRtcp = false
  | .dtlsWork _ _ cr _ _ _ => ∀ it ∈ st.dtlsQ.head?, it.dir = .srtp → ∀ b ∈ cr,
      ({ buf := b, src := it.c.pkt.src } : Pkt).isRtcp = false
  | _ => True

/-- The queue of the DTLS module takes the packet. -/
def Room : Ev → Prop
  | .rx _ _ _ _ _ _ _ dr => dr = true
  | .inject _ _ _ _ _ _ dr => dr = true
  | .dtlsWork _ _ _ _ _ dr => dr = true
  | _ => True

/-- What `srtp_protect` makes of a packet fits into its buffer. -/
def Fits (st : St) : Ev → Prop
  | .dtlsWork _ _ cr _ _ _ => ∀ it ∈ st.dtlsQ.head?, it.dir = .out → ∀ b ∈ cr, b.length ≤ maxLen
  | _ => True

end Verif.Plane
