import Verif.Acct.Row

/-! # How a reader of the accounting file finds the values of a session -/

namespace Verif.Acct

/-- The parts of a text between the bytes `c`. -/
def split (c : UInt8) : List UInt8 → List (List UInt8)
  | [] => [[]]
  | a :: l =>
    if a = c then [] :: split c l
    else match split c l with
      | [] => [[a]]
      | w :: ws => (a :: w) :: ws

/-- The lines of a file, without their ends; what comes after the last end of a line is not one. -/
def lines (w : List UInt8) : List (List UInt8) := (split 10 w).dropLast

/-- The value under the name in a line of values, given the line of names. -/
def value (names vals : List UInt8) (name : String) : Option (List UInt8) :=
  ((split 44 names).idxOf? (bytes name)).bind fun i => (split 44 vals)[i]?

/-- Texts that can be told apart from their neighbours. -/
def Plain (w : List UInt8) : Prop := 44 ∉ w ∧ 10 ∉ w

def Addr.Plain : Addr → Prop
  | .empty => True
  | .v4 h _ => Acct.Plain h
  | .v6 h _ => Acct.Plain h

structure Face.Plain (f : Face) : Prop where
  first : Acct.Plain f.first
  last : Acct.Plain f.last
  rtp : f.rtpAddr.Plain
  rtcp : f.rtcpAddr.Plain
  jlast : Acct.Plain f.jlast
  jmax : Acct.Plain f.jmax
  javg : Acct.Plain f.javg

/-- All texts of a record are such texts. -/
structure Rec.Plain (r : Rec) : Prop where
  node : Acct.Plain r.node
  call : ∀ w, r.callId = some w → Acct.Plain w
  tag : ∀ w, r.fromTag = some w → Acct.Plain w
  init : Acct.Plain r.init
  destroy : Acct.Plain r.destroy
  o : r.o.Plain
  a : r.a.Plain

/-- The address and the port of a peer as they are to be read. -/
def Addr.host : Addr → List UInt8
  | .empty => []
  | .v4 h _ => h
  | .v6 h _ => 91 :: (h ++ [93])

def Addr.port : Addr → List UInt8
  | .empty => []
  | .v4 _ p => Dec.dec p
  | .v6 _ p => Dec.dec p

def ssrcText : Option Nat → List UInt8
  | none => []
  | some v => hex8 v

/-- What is found under the names about one side. -/
def Face.values (f : Face) (i o : String) : List (String × List UInt8) :=
  [("first_rtp_ts" ++ i, f.first), ("last_rtp_ts" ++ i, f.last),
   ("rtp_npkts" ++ i, Dec.dec f.rtpIn), ("rtcp_npkts" ++ i, Dec.dec f.rtcpIn),
   ("rtpp_rtp_rmt_ip" ++ o, f.rtpAddr.host), ("rtpp_rtp_rmt_pt" ++ o, f.rtpAddr.port),
   ("rtpp_rtcp_rmt_ip" ++ o, f.rtcpAddr.host), ("rtpp_rtcp_rmt_pt" ++ o, f.rtcpAddr.port),
   ("rtpp_hld_sts" ++ o, if f.held = 0 then [102] else [116]), ("rtpp_hld_cnt" ++ o, Dec.decI f.holds),
   ("rtpa_nsent" ++ i, Dec.dec f.psent), ("rtpa_nrcvd" ++ i, Dec.dec f.precvd), ("rtpa_ndups" ++ i, Dec.dec f.pdups),
   ("rtpa_nlost" ++ i, Dec.dec f.plost), ("rtpa_perrs" ++ i, Dec.dec f.pecount),
   ("rtpa_ssrc_last" ++ i, ssrcText f.ssrc), ("rtpa_ssrc_cnt" ++ i, Dec.dec f.ssrcChanges),
   ("rtpa_pt_last" ++ i, Dec.decI f.lastPt),
   ("rtpa_jitter_last" ++ i, f.jlast), ("rtpa_jitter_max" ++ i, f.jmax), ("rtpa_jitter_avg" ++ i, f.javg)]

/-- What is found under the other names. -/
def Rec.values (r : Rec) : List (String × List UInt8) :=
  [("rec_ver", [49, 46, 50]), ("rtpp_node_id", r.node), ("rtpp_pid", Dec.decI r.pid), ("sess_uid", Dec.dec r.seuid),
   ("call_id", r.callId.getD []), ("from_tag", r.fromTag.getD []), ("setup_ts", r.init), ("teardown_ts", r.destroy),
   ("rtp_nrelayed", Dec.dec r.rtpRelayed), ("rtp_ndropped", Dec.dec r.rtpDropped),
   ("rtcp_nrelayed", Dec.dec r.rtcpRelayed), ("rtcp_ndropped", Dec.dec r.rtcpDropped)]

/-- Everything that a row tells about a session. -/
def Rec.all (r : Rec) : List (String × List UInt8) :=
  r.values ++ r.o.values "_ino" "_o" ++ r.a.values "_ina" "_a"

end Verif.Acct
