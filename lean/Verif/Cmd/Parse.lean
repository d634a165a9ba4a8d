import Verif.Cmd.Split

/-!
# Model of the command admission (src/rtpp_command_parse.c:51-291)

Also the arguments later used by the handlers, as functions of the number of arguments:
`uses` collects every `args.v[i]` evaluated after admission.
Names and hints for the log are left out.
-/

namespace Verif.Cmd

/-- `enum rtpp_cmd_op`, rtpp_command_private.h:38-39. -/
inductive CmdOp where
  | delete | record | play | noplay | copy | update | lookup | info
  | query | verFeature | getVer | deleteAll | getStats | norecord
  deriving DecidableEq, Repr

/-- `struct cmd_props`; positions are 0 if absent (the code uses -1 and tests `> 0`). -/
structure CmdProps where
  op : CmdOp
  maxArgc : Nat
  minArgc : Nat
  hasCmods : Bool
  hasCallId : Bool := true
  hasSubc : Bool := false
  fpos : Nat := 0
  tpos : Nat := 0
  noGlock : Bool := false
  /-- bytes of the first argument that precede the modifiers -/
  skip : Nat := 1
  deriving DecidableEq, Repr

/-- `RTPP_QUERY_NSTATS`, commands/rpcpv1_query.h:28. -/
def queryNstats : Nat := 11

/-- `s[i]` of a NUL-terminated argument. -/
def chr (s : Tok) (i : Nat) : UInt8 := s.getD i 0

/-- `fill_cmd_props`, rtpp_command_parse.c:62-250. -/
def fillProps (v0 : Tok) (nstats : Nat) : Option CmdProps :=
  let c := chr v0 0
  if c = 117 ∨ c = 85 then
    some { op := .update, maxArgc := 8, minArgc := 5, hasCmods := true, fpos := 4, tpos := 5, hasSubc := true }
  else if c = 108 ∨ c = 76 then
    some { op := .lookup, maxArgc := 6, minArgc := 5, hasCmods := true, fpos := 4, tpos := 5, hasSubc := true }
  else if c = 100 ∨ c = 68 then
    some { op := .delete, maxArgc := 4, minArgc := 3, hasCmods := true, fpos := 2, tpos := 3 }
  else if c = 112 ∨ c = 80 then
    some { op := .play, maxArgc := 6, minArgc := 5, hasCmods := true, fpos := 4, tpos := 5 }
  else if c = 114 ∨ c = 82 then
    some { op := .record, maxArgc := 4, minArgc := 3, hasCmods := true, fpos := 2, tpos := 3 }
  else if c = 99 ∨ c = 67 then
    some { op := .copy, maxArgc := 5, minArgc := 4, hasCmods := true, fpos := 3, tpos := 4 }
  else if c = 115 ∨ c = 83 then
    some { op := .noplay, maxArgc := 4, minArgc := 3, hasCmods := false, fpos := 2, tpos := 3 }
  else if c = 110 ∨ c = 78 then
    some { op := .norecord, maxArgc := 4, minArgc := 3, hasCmods := true, fpos := 2, tpos := 3 }
  else if c = 118 ∨ c = 86 then
    if chr v0 1 = 70 ∨ chr v0 1 = 102 then
      some { op := .verFeature, maxArgc := 2, minArgc := 2, hasCmods := false, hasCallId := false, noGlock := true, skip := 2 }
    else some { op := .getVer, maxArgc := 1, minArgc := 1, hasCmods := false, hasCallId := false, noGlock := true }
  else if c = 105 ∨ c = 73 then
    some { op := .info, maxArgc := 1, minArgc := 1, hasCmods := true, hasCallId := false }
  else if c = 113 ∨ c = 81 then
    some { op := .query, maxArgc := 4 + queryNstats, minArgc := 3, hasCmods := true, fpos := 2, tpos := 3, hasSubc := true }
  else if c = 120 ∨ c = 88 then
    some { op := .deleteAll, maxArgc := 1, minArgc := 1, hasCmods := false, hasCallId := false }
  else if c = 103 ∨ c = 71 then
    some { op := .getStats, maxArgc := nstats + 1, minArgc := 1, hasCmods := true, hasCallId := false, noGlock := true }
  else none

/-- Error codes of the admission. -/
inductive PErr where
  | cmdUnkn | nargs | mods | subc
  deriving DecidableEq, Repr

/-- What admission records about a command: `cmd->cca`, by positions in the argument vector. -/
structure Admitted where
  op : CmdOp
  callId : Option Nat
  fromTag : Option Nat
  toTag : Option Nat
  deriving DecidableEq, Repr

/-- `rtpp_command_pre_parse`, rtpp_command_parse.c:252-291. -/
def preParse (v0 : Tok) (argc nsubc nstats : Nat) : Except PErr Admitted :=
  match fillProps v0 nstats with
  | none => .error .cmdUnkn
  | some p =>
    if argc < p.minArgc ∨ argc > p.maxArgc then .error .nargs
    else if p.hasCmods = false ∧ chr v0 p.skip ≠ 0 then .error .mods
    else if p.hasSubc = false ∧ nsubc > 0 then .error .subc
    else .ok ⟨p.op, if p.hasCallId then some 1 else none, if p.fpos > 0 then some p.fpos else none,
      if p.tpos > 0 then some p.tpos else none⟩

/-- `rtpp_command_ul_pre_parse`, commands/rpcpv1_ul.c:521-586: positions of the to-tag and of the notification socket and tag;
`none` is the error. -/
def ulPreParse (op : CmdOp) (argc : Nat) : Option (Option Nat × Option (Nat × Nat)) :=
  match op, argc with
  | .update, 5 => some (none, none)
  | .update, 6 => some (some 5, none)
  | .update, 7 => some (none, some (5, 6))
  | .update, 8 => some (some 5, some (6, 7))
  | .lookup, 5 => some (none, none)
  | .lookup, 6 => some (some 5, none)
  | _, _ => none

/-- The arguments evaluated by the handlers, other than the to-tag recorded at admission:
 `play` rpcpv1_play.c:70-72; `copy` rtpp_command.c:517; `update`/`lookup` rpcpv1_ul.c:528-576;
 `query` rpcpv1_query.c:132-247; `verFeature` rpcpv1_ver.c:93-99; `getStats` rpcpv1_stats.c:59-70; the modifiers `v[0]` of all. -/
def uses (a : Admitted) (argc : Nat) : List Nat :=
  0 :: a.callId.toList ++ a.fromTag.toList ++
  match a.op with
  | .play => [2, 3]
  | .copy => [2]
  | .update | .lookup => [2, 3] ++ match ulPreParse a.op argc with
    | none => []
    | some (t, n) => t.toList ++ (match n with | none => [] | some (x, y) => [x, y])
  | .query => (List.range argc).drop 4
  | .verFeature => [1]
  | .getStats => (List.range argc).drop 1
  | _ => []

end Verif.Cmd
