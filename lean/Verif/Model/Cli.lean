import Verif.Model.BatchCommands

/-!
# Model of the command line (`rf/batch.py` lines 367-447)

The arguments are given as argparse sees them: options in front of the command (written out in full) and the remaining
words.  Help and version output are not modelled.
-/

namespace Verif.Model.Cli
open Verif.Py Verif.Model.Batch

variable {K : Type}

/-- A command line: `--conf`, the other options with their values, the command, `--tutorial` and the words after the
command. -/
structure CmdLine where
  conf : Option Str
  flags : List (Str × Str)
  command : Option Str
  tutorial : Bool
  words : List Str
  deriving DecidableEq, Repr

/-- A sub-parser: the choices for optional further commands (lines 409-414), `objects` with at least one word (line 416),
`--tutorial` (line 404), and the names of the other arguments (lines 418-429). -/
structure SubParser where
  choices : Option (List Str)
  objects : Bool
  tutorial : Bool
  names : List String
  deriving DecidableEq, Repr

/-- The sub-parsers (lines 380-429). -/
def subParsers : List (Str × SubParser) :=
  [("create".toList, ⟨none, false, true, []⟩),
   ("data".toList, ⟨some ["calc".toList, "moveout".toList], false, false, ["path_out"]⟩),
   ("calc".toList, ⟨some ["moveout".toList], false, false, ["path_in", "path_out"]⟩),
   ("moveout".toList, ⟨none, false, false, ["path_in", "path_out"]⟩),
   ("stack".toList, ⟨none, false, false, ["path_in", "path_out"]⟩),
   ("profile".toList, ⟨none, false, false, ["path_in", "path_out"]⟩),
   ("convert".toList, ⟨none, false, false, ["path_in", "path_out", "newformat"]⟩),
   ("print".toList, ⟨none, true, false, []⟩),
   ("plot".toList, ⟨none, false, false, ["path_in", "path_out"]⟩),
   ("plot-profile".toList, ⟨none, false, false, ["path_in", "path_out"]⟩)]

/-- Names of the options with a value and their destination (lines 431-440; argparse replaces `-` by `_`). -/
def flagNames : List (Str × String) :=
  [("events".toList, "events"), ("inventory".toList, "inventory"), ("data".toList, "data"), ("phase".toList, "phase"),
   ("moveout-phase".toList, "moveout_phase"), ("format".toList, "format"), ("client-options".toList, "client_options"),
   ("options".toList, "options"), ("rf".toList, "rf"), ("moveout".toList, "moveout"), ("boxbins".toList, "boxbins"),
   ("boxes".toList, "boxes"), ("profile".toList, "profile"), ("plot".toList, "plot"),
   ("plot-profile".toList, "plot_profile")]

/-- Options given on the command line; an unknown one ends the program. -/
def parseFlags : List (Str × Str) → Dict (Value K) → Option (Dict (Value K))
  | [], d => some d
  | (f, v) :: rest, d =>
    match (flagNames.find? fun p => p.1 = f) with
    | none => none
    | some p => parseFlags rest (d.set p.2 (.leaf (.str v)))

/-- Words for the arguments which need exactly one each. -/
def parseNames : List String → List Str → Dict (Value K) → Option (Dict (Value K))
  | [], [], d => some d
  | n :: ns, w :: ws, d => parseNames ns ws (d.set n (.leaf (.str w)))
  | _, _, _ => none

/-- Words of a sub-parser: the optional commands take as many words as the other arguments leave; without any the default
is the string `moveout` (lines 406-414). -/
def parseWords (p : SubParser) (ws : List Str) (d : Dict (Value K)) : Option (Dict (Value K)) :=
  match p.choices with
  | some cs =>
    let n := ws.length - p.names.length
    let given := ws.take n
    if given.all (fun c => cs.contains c) then
      parseNames p.names (ws.drop n)
        (d.set "commands" (if given = [] then .leaf (.str "moveout".toList) else .leaf (.strs given)))
    else none
  | none =>
    if p.objects then
      if ws = [] then none else some (d.set "objects" (.leaf (.strs ws)))
    else parseNames p.names ws d

/-- What `run` is called with. -/
structure Parsed (K : Type) where
  command : Str
  conf : Str
  tutorial : Bool
  kw : Dict (Value K)
  deriving DecidableEq

/-- Lines 441-443: the second part of the work-around. -/
def fixCommands (d : Dict (Value K)) : Dict (Value K) :=
  match d.get "commands" with
  | some (.leaf (.str s)) => if s = "moveout".toList then d.set "commands" (.leaf (.strs [])) else d
  | _ => d

/-- `run_cli(args)` up to the call of `run` (lines 367-443); `none`: argparse prints a message and exits.  A missing
command is allowed by argparse and gives `None`; as the code only compares commands with names, `None` is the empty
string here. -/
def parse (c : CmdLine) : Option (Parsed K) :=
  match parseFlags c.flags [] with
  | none => none
  | some d =>
    let conf := c.conf.getD "conf.json".toList
    match c.command with
    | none => if c.words = [] ∧ c.tutorial = false then some ⟨[], conf, false, fixCommands d⟩ else none
    | some name =>
      match (subParsers.find? fun p => p.1 = name) with
      | none => none
      | some p =>
        if c.tutorial = true ∧ p.2.tutorial = false then none
        else
          match parseWords p.2 c.words d with
          | none => none
          | some d => some ⟨name, conf, c.tutorial, fixCommands d⟩

/-- The argument `commands` of `run_commands`: default `()`. -/
def commandsOf (kw : Dict (Value K)) : List Str :=
  match kw.get "commands" with
  | some (.leaf (.strs l)) => l
  | _ => []

/-- The argument `objects` of `run_commands`: default `None`. -/
def objectsOf (kw : Dict (Value K)) : Option (List Str) :=
  match kw.get "objects" with
  | some (.leaf (.strs l)) => some l
  | _ => none

/-- Outcome of the program: argparse exits with a message, files are copied, `run` prints a message, `run` raises, or
`run_commands` has been called. -/
inductive Outcome (W : Type)
  | usage
  | copied (files : List (Str × Str))
  | stopped
  | raised (e : PyErr)
  | ran (r : CommandResult W)

/-- `run_cli(args)` (lines 367-447); a `ParseError` is reported by argparse.  `conf` and `open_` as for `run`. -/
def runCli {S T W : Type} [Field K] [LinearOrder K] [FloorRing K] (open_ : Str → Option Str)
    (loadConf : Str → Res (Option (Dict (Value K)))) (loads : Str → Res (Value K)) (P : Parts K S T W) (c : CmdLine) (w : W) :
    Outcome W :=
  match parse (K := K) c with
  | none => .usage
  | some a =>
    match run open_ loadConf a.command (some a.conf) a.tutorial a.kw with
    | .copied fs => .copied fs
    | .stopped => .stopped
    | .raised .parseError => .usage
    | .raised e => .raised e
    | .call command kw =>
      match runCommands loads P command (commandsOf kw) (objectsOf kw) kw w with
      | .raised .parseError => .usage
      | r => .ran r

end Verif.Model.Cli
