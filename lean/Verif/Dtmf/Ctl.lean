import Verif.Str.Num
import Verif.Str.Url

/-!
# Model of the DTMF subcommand and of the queueing of packets (`rtpp_catch_dtmf.c:262-433`)

The configuration of a stream is what is registered with its packet processors under the key of the module: absent, or the payload type,
the action and the tag.
-/

namespace Verif.Dtmf.Ctl

open Str

/-- `struct catch_dtmf_stream_cfg`, lines 92-99.  `drop`: `act` is `PPROC_ACT_DROP_v` rather than `PPROC_ACT_TEE_v`. -/
structure Cfg where
  pt : Int
  drop : Bool
  tag : List UInt8
  deriving DecidableEq, Repr

/-- Outcomes of the environment: memory for the configuration (lines 262-295), registration (line 374). -/
structure Env where
  notify : Bool
  mem : Bool
  reg : Bool
  deriving DecidableEq, Repr

/-- The modifiers, lines 343-355: `none` for one that is not known. -/
def opts : List UInt8 → Bool → Option Bool
  | [], d => some d
  | c :: cs, _ => if c = 104 ∨ c = 72 then opts cs true else none

/-- Lines 336-357: payload type and action. -/
def pars (args : List (List UInt8)) : Option (Int × Bool) :=
  match args[2]? with
  | none => some (101, false)
  | some a =>
    match atoiSaferange a 0 127 with
    | .ok pt =>
      match args[3]? with
      | none => some (pt, false)
      | some o => (opts o false).map fun d => (pt, d)
    | _ => none

/-- The tag, lines 324-334: decoded into a fresh array of `len + 1` bytes.  The argument is followed by a NUL. -/
def tagOf (a : List UInt8) : Except Fault (Option (List UInt8)) :=
  match unquote2 (a ++ [0]) (List.replicate (a.length + 1) 0) a.length with
  | .error e => .error e
  | .ok (none, _) => .ok none
  | .ok (some n, out) => if n.toNat < out.length then .ok (some (out.take n.toNat)) else .error .ub

/-- `rtpp_catch_dtmf_handle_command`, lines 297-392: the configuration afterwards, and whether the command succeeded. -/
def handle (env : Env) (c : Option Cfg) (args : List (List UInt8)) : Except Fault (Option Cfg × Bool) :=
  if !env.notify then .ok (c, false)
  else if args.length < 2 then .ok (c, false)
  else if args.length > 4 then .ok (c, false)
  else match tagOf (args.getD 1 []) with
    | .error e => .error e
    | .ok none => .ok (c, false)
    | .ok (some tag) =>
      match pars args with
      | none => .ok (c, false)
      | some (pt, d) =>
        match c with
        | some old => .ok (some { old with pt := pt, drop := d }, true)
        | none => if env.mem && env.reg then .ok (some ⟨pt, d, tag⟩, true) else .ok (none, false)

/-- `rtp_packet_is_dtmf`, lines 394-407. -/
def taste (c : Cfg) (rtp : Bool) (pt : Nat) : Bool := rtp && decide (c.pt = pt)

/-- `rtpp_catch_dtmf_enqueue`, lines 409-433, given whether memory and room in the queue are found: (the worker gets the packet, the packet is
dropped). -/
def enqueue (c : Cfg) (mem room : Bool) : Bool × Bool :=
  if !mem then (false, true) else if !room then (false, true) else (true, c.drop)

end Verif.Dtmf.Ctl
