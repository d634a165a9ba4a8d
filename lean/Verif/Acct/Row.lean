import Verif.Util.Dec

/-!
# Model of the rows of the accounting file (`modules/acct_csv/rtpp_acct_csv.c`)

Texts are lists of bytes.  A number of seconds or of milliseconds printed with `%f` is given as its text (the program never
leaves the "C" locale, so it contains digits, a point, a sign, or letters); what `inet_ntop` makes of an address and the
name of the host are given as texts as well.
-/

namespace Verif.Acct

/-- A string constant. -/
def bytes (s : String) : List UInt8 := s.toList.map fun c => UInt8.ofNat c.toNat

/-- An argument of `printf`. -/
inductive Arg where
  /-- a string, for `%s` -/
  | s (w : List UInt8)
  /-- an `int`, for `%d` -/
  | d (i : Int)
  /-- an `int64_t`, for `PRId64` -/
  | l (i : Int)
  /-- an `unsigned long`, for `%lu` -/
  | u (n : Nat)
  /-- a `double` with this text, for `%f` -/
  | f (w : List UInt8)
  deriving DecidableEq, Repr

/-- Conversions of a format. -/
inductive Conv where
  | s | d | l | u | f
  deriving DecidableEq, Repr

/-- A format taken apart. -/
inductive Tok where
  | lit (c : UInt8)
  | conv (k : Conv)
  deriving DecidableEq, Repr

/-- The conversions used here; others are undefined in this model. -/
def parse : List UInt8 → Option (List Tok)
  | 37 :: 115 :: r => (parse r).map (Tok.conv .s :: ·)
  | 37 :: 100 :: r => (parse r).map (Tok.conv .d :: ·)
  | 37 :: 102 :: r => (parse r).map (Tok.conv .f :: ·)
  | 37 :: 108 :: 117 :: r => (parse r).map (Tok.conv .u :: ·)
  | 37 :: 108 :: 100 :: r => (parse r).map (Tok.conv .l :: ·)
  | c :: r => if c = 37 then none else (parse r).map (Tok.lit c :: ·)
  | [] => some []

/-- What an argument becomes, if its type is that of the conversion. -/
def Arg.text : Arg → Conv → Option (List UInt8)
  | .s w, .s => some w
  | .d i, .d => some (Dec.decI i)
  | .l i, .l => some (Dec.decI i)
  | .u n, .u => some (Dec.dec n)
  | .f w, .f => some w
  | _, _ => none

def render : List Tok → List Arg → Except Fault (List UInt8)
  | [], _ => .ok []
  | .lit c :: ts, as => (render ts as).map (c :: ·)
  | .conv _ :: _, [] => .error .ub
  | .conv k :: ts, a :: as => match a.text k with
    | none => .error .ub
    | some w => (render ts as).map (w ++ ·)

/-- `printf`: a wrong type of an argument, or too few of them, are undefined. -/
def printf (fmt : List UInt8) (as : List Arg) : Except Fault (List UInt8) :=
  match parse fmt with
  | none => .error .ub
  | some ts => render ts as

/-- `struct rtpp_netaddr` when the session ends: empty, or of one of the two families. -/
inductive Addr where
  | empty
  | v4 (host : List UInt8) (port : Nat)
  | v6 (host : List UInt8) (port : Nat)
  deriving DecidableEq, Repr

/-- One side of a session: `acct->rtp.o`, `acct->rtcp.o`, `acct->rasto` and `acct->jrasto`, or the same with `a`. -/
structure Face where
  first : List UInt8
  last : List UInt8
  rtpIn : Nat
  rtcpIn : Nat
  rtpAddr : Addr
  rtcpAddr : Addr
  held : Nat
  holds : Int
  psent : Nat
  precvd : Nat
  pdups : Nat
  plost : Nat
  pecount : Nat
  ssrc : Option Nat
  ssrcChanges : Nat
  lastPt : Int
  jlast : List UInt8
  jmax : List UInt8
  javg : List UInt8
  deriving DecidableEq, Repr

/-- `struct rtpp_acct`, rtpp_acct.h, with the process and the name of the host. -/
structure Rec where
  node : List UInt8
  pid : Int
  seuid : Nat
  callId : Option (List UInt8)
  fromTag : Option (List UInt8)
  init : List UInt8
  destroy : List UInt8
  rtpRelayed : Nat
  rtpDropped : Nat
  rtcpRelayed : Nat
  rtcpDropped : Nat
  o : Face
  a : Face
  deriving DecidableEq, Repr

/-- A hexadecimal digit of `%X`. -/
def hexDigit (n : Nat) : UInt8 := UInt8.ofNat (if n < 10 then 48 + n else 55 + n)

/-- `SSRC_FMT`, rtpp_ssrc.h:31: `0x%.8X`. -/
def hex8 (n : Nat) : List UInt8 :=
  bytes "0x" ++ [28, 24, 20, 16, 12, 8, 4, 0].map fun (k : Nat) => hexDigit (n / 2 ^ k % 16)

/-- `format_ssrc`, rtpp_acct_csv.c:298-307. -/
def formatSsrc : Option Nat → List UInt8
  | some v => hex8 v
  | none => []

/-- `addrport2char_r` with a comma, rtpp_network.c:196-220, or a comma if there is no address: `format_netaddr`,
rtpp_acct_csv.c:309-326. -/
def formatAddr : Addr → List UInt8
  | .empty => bytes ","
  | .v4 h p => h ++ bytes "," ++ Dec.dec p
  | .v6 h p => bytes "[" ++ h ++ bytes "]" ++ bytes "," ++ Dec.dec p

/-- `FMT_BOOL`, rtpp_acct_csv.c:328. -/
def fmtBool (n : Nat) : List UInt8 := bytes (if n = 0 then "f" else "t")

/-- `ES_IF_NULL`, rtpp_acct_csv.c:295. -/
def esIfNull : Option (List UInt8) → List UInt8
  | some w => w
  | none => []

/-- An `uint64_t` passed for `PRId64`. -/
def toI64 (n : Nat) : Int := if n < 2 ^ 63 then n else (n : Int) - 2 ^ 64

/-- `head`, rtpp_acct_csv.c:188-202, with the macros of 137-172 expanded. -/
def headStrs : List String :=
  ["rec_ver", ",", "rtpp_node_id", ",", "rtpp_pid", ",", "sess_uid", ",", "call_id", ",",
   "from_tag,setup_ts,teardown_ts,first_rtp_ts_ino,last_rtp_ts_ino,",
   "first_rtp_ts_ina,last_rtp_ts_ina,rtp_npkts_ina,rtp_npkts_ino,",
   "rtp_nrelayed,rtp_ndropped,rtcp_npkts_ina,rtcp_npkts_ino,",
   "rtcp_nrelayed,rtcp_ndropped,rtpa_nsent_ino,rtpa_nrcvd_ino,",
   "rtpa_ndups_ino,rtpa_nlost_ino,rtpa_perrs_ino,",
   "rtpa_ssrc_last_ino,rtpa_ssrc_cnt_ino", ",", "rtpa_pt_last_ino", ",",
   "rtpa_nsent_ina,rtpa_nrcvd_ina,rtpa_ndups_ina,rtpa_nlost_ina,",
   "rtpa_perrs_ina,rtpa_ssrc_last_ina,rtpa_ssrc_cnt_ina", ",", "rtpa_pt_last_ina", ",",
   "rtpa_jitter_last_ino,rtpa_jitter_max_ino,rtpa_jitter_avg_ino,",
   "rtpa_jitter_last_ina,rtpa_jitter_max_ina,rtpa_jitter_avg_ina", ",",
   "rtpp_rtp_rmt_ip_o", ",", "rtpp_rtp_rmt_pt_o", ",", "rtpp_rtp_rmt_ip_a", ",", "rtpp_rtp_rmt_pt_a", ",",
   "rtpp_rtcp_rmt_ip_o", ",", "rtpp_rtcp_rmt_pt_o", ",", "rtpp_rtcp_rmt_ip_a", ",", "rtpp_rtcp_rmt_pt_a", ",",
   "rtpp_hld_sts_o", ",", "rtpp_hld_sts_a", ",", "rtpp_hld_cnt_o", ",", "rtpp_hld_cnt_a", "\n"]

def head : List UInt8 := headStrs.flatMap bytes

/-- The format of `rtpp_acct_csv_do`, rtpp_acct_csv.c:356-361, with the macros of 174-184 expanded. -/
def fmtStrs : List String :=
  ["%s", ",", "%s", ",", "%d", ",", "%ld", ",",
   "%s,%s,%f,%f,%f,%f,%f,%f,%lu,%lu,",
   "%lu,%lu,%lu,%lu,%lu,%lu,%lu,%lu,%lu,%lu,%lu", ",", "%s", ",", "%lu", ",",
   "%d", ",", "%lu,%lu,%lu,%lu,%lu", ",", "%s", ",", "%lu", ",", "%d", ",",
   "%f,%f,%f,%f,%f,%f", ",", "%s", ",", "%s", ",", "%s", ",", "%s", ",",
   "%s", ",", "%s", ",", "%d", ",", "%d", "\n"]

def fmt : List UInt8 := fmtStrs.flatMap bytes

/-- The arguments, rtpp_acct_csv.c:362-377. -/
def args (r : Rec) : List Arg :=
  [.s (bytes "1.2"), .s r.node,
   .d r.pid, .l (toI64 r.seuid), .s (esIfNull r.callId), .s (esIfNull r.fromTag),
   .f r.init, .f r.destroy, .f r.o.first,
   .f r.o.last, .f r.a.first,
   .f r.a.last, .u r.a.rtpIn, .u r.o.rtpIn,
   .u r.rtpRelayed, .u r.rtpDropped, .u r.a.rtcpIn,
   .u r.o.rtcpIn, .u r.rtcpRelayed, .u r.rtcpDropped,
   .u r.o.psent, .u r.o.precvd, .u r.o.pdups, .u r.o.plost,
   .u r.o.pecount, .s (formatSsrc r.o.ssrc), .u r.o.ssrcChanges, .d r.o.lastPt,
   .u r.a.psent, .u r.a.precvd, .u r.a.pdups, .u r.a.plost,
   .u r.a.pecount, .s (formatSsrc r.a.ssrc), .u r.a.ssrcChanges, .d r.a.lastPt,
   .f r.o.jlast, .f r.o.jmax, .f r.o.javg,
   .f r.a.jlast, .f r.a.jmax, .f r.a.javg,
   .s (formatAddr r.o.rtpAddr), .s (formatAddr r.a.rtpAddr), .s (formatAddr r.o.rtcpAddr), .s (formatAddr r.a.rtcpAddr),
   .s (fmtBool r.o.held), .s (fmtBool r.a.held),
   .d r.o.holds, .d r.a.holds]

/-- The row of a session. -/
def row (r : Rec) : Except Fault (List UInt8) := printf fmt (args r)

end Verif.Acct
