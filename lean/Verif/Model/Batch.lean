import Verif.Model.BatchFiles
import Mathlib.Algebra.Order.Floor.Ring
import Mathlib.Algebra.Order.Field.Basic

/-!
# Model of configuration and commands of `rf/batch.py` (lines 135-364)
-/

namespace Verif.Model.Batch
open Verif.Py Verif.Model.EventIter

/-- `ConfigJSONDecoder.decode` without the call of the JSON decoder (lines 182-184):
`'\n'.join(l.split('#', 1)[0] for l in s.split('\n'))`. -/
def stripComments (s : Str) : Str := joinWith '\n' ((splitOn '\n' s).map fun l => l.takeWhile (· ≠ '#'))

/-- Values inside the dictionaries of the configuration: JSON values, as far as used here; anything else is
`other`. -/
inductive Leaf (K : Type)
  | null
  | num (x : K)
  | str (s : Str)
  | nums (l : List K)
  | strs (l : List Str)
  | other (n : Nat)
  deriving DecidableEq, Repr

/-- Values of the configuration. -/
inductive Value (K : Type)
  | leaf (v : Leaf K)
  | obj (d : Dict (Leaf K))
  deriving DecidableEq, Repr

section config
variable {K : Type}

/-- What `run` does: copy files, print a message and return, call `run_commands`, or raise. -/
inductive RunResult (K : Type)
  | copied (files : List (Str × Str))
  | stopped
  | call (command : Str) (kw : Dict (Value K))
  | raised (e : PyErr)
  deriving DecidableEq, Repr

/-- `os.path.join(a, b)` (POSIX) for a `b` that is not absolute. -/
def pathJoin (a b : Str) : Str :=
  if a = [] then b else if a.getLast? = some '/' then a ++ b else a ++ '/' :: b

/-- Lines 196-211: the files of the package which are copied and where to. -/
def createFiles (conf : Option Str) (tutorial : Bool) : List (Str × Str) :=
  let conf := conf.getD "conf.json".toList
  let example_files := ["example_events.xml".toList, "example_inventory.xml".toList, "example_data.mseed".toList]
  ("conf.json".toList, conf) ::
    (if tutorial then example_files.map fun f => (f, pathJoin (dirname conf) f) else [])

/-- `kw.get('objects', [''])[0]` (line 216). -/
def firstObject (kw : Dict (Value K)) : Res Str :=
  match kw.get "objects" with
  | none => .ok []
  | some (.leaf (.strs (o :: _))) => .ok o
  | some (.leaf (.strs [])) => .error .indexError
  | some _ => .error .typeError

/-- Is the configuration read (lines 213-216)?  The name of the file. -/
def confFile (command : Str) (conf : Option Str) (kw : Dict (Value K)) : Res (Option Str) :=
  match conf with
  | none => .ok none
  | some c =>
    if c = "None".toList ∨ c = "none".toList ∨ c = "null".toList ∨ c = [] then .ok none
    else if command ≠ "print".toList then .ok (some c)
    else match firstObject kw with
      | .error e => .error e
      | .ok o => if o = "stations".toList ∨ o = "events".toList then .ok (some c) else .ok none

/-- `run(command, conf, tutorial, **kw)` (lines 191-229).  `open_` is the content of a file (`none`: `IOError`),
`loads` the JSON decoder (`none`: the text is not an object); a `ValueError` of it is printed, as is an
`IOError`. -/
def run (open_ : Str → Option Str) (loads : Str → Res (Option (Dict (Value K)))) (command : Str) (conf : Option Str)
    (tutorial : Bool) (kw : Dict (Value K)) : RunResult K :=
  if command = "create".toList then .copied (createFiles conf tutorial)
  else
    match confFile command conf kw with
    | .error e => .raised e
    | .ok none => .call command kw
    | .ok (some c) =>
      match open_ c with
      | none => .stopped
      | some text =>
        match loads (stripComments text) with
        | .error .valueError => .stopped
        | .error e => .raised e
        | .ok none => .raised .attributeError
        | .ok (some d) => .call command (d.update kw)

end config

/-- The named arguments of `run_commands` (lines 236-240) apart from `command`. -/
def namedOptions : List String :=
  ["commands", "events", "inventory", "objects", "get_waveforms", "data", "plugin", "phase", "moveout_phase",
   "path_in", "path_out", "format", "newformat"]

/-- `DICT_OPTIONS` (lines 232-233). -/
def dictOptions : List String :=
  ["client_options", "options", "rf", "moveout", "boxbins", "boxes", "profile", "plot", "plot_profile"]

section options
variable {K : Type}

/-- Lines 242-244. -/
def checkOptions (kw : Dict (Value K)) : Res Unit :=
  if kw.all (fun p => dictOptions.contains p.1) then .ok () else .error .parseError

/-- One step of the loop of lines 245-249; `loads` is `json.loads`. -/
def fillOption (loads : Str → Res (Value K)) (kw : Dict (Value K)) (opt : String) : Res (Dict (Value K)) :=
  match kw.get opt with
  | none => .ok (kw.set opt (if opt = "boxbins" then .leaf .null else .obj []))
  | some (.leaf (.str t)) =>
    match loads t with
    | .error e => .error e
    | .ok v => .ok (kw.set opt v)
  | some _ => .ok kw

/-- The loop of lines 245-249. -/
def fillOptions (loads : Str → Res (Value K)) (kw : Dict (Value K)) : Res (Dict (Value K)) :=
  dictOptions.foldlM (fillOption loads) kw

/-- `kw[opt][key] = v` (lines 251, 253, 255): `TypeError` if the value is not a dictionary. -/
def setEntry (kw : Dict (Value K)) (opt key : String) (v : Leaf K) : Res (Dict (Value K)) :=
  match kw.get opt with
  | some (.obj d) => .ok (kw.set opt (.obj (d.set key v)))
  | some (.leaf _) => .error .typeError
  | none => .error .keyError

/-- Lines 250-253 for one of the two options. -/
def setOptional (kw : Dict (Value K)) (opt : String) (phase : Option (Leaf K)) : Res (Dict (Value K)) :=
  match phase with
  | none => .ok kw
  | some v => setEntry kw opt "phase" v

variable [Field K] [LinearOrder K] [FloorRing K]

/-- `np.linspace(a, b, n)`. -/
def linspace (a b : K) (n : Nat) : List K :=
  if n = 1 then [a] else (List.range n).map fun (i : Nat) => a + (i : K) * ((b - a) / ((n : K) - 1))

/-- `np.linspace(*boxbins)` for two or three numbers; the third one has to be an integer (`TypeError`) that is not
negative (`ValueError`). -/
def binEdges : Value K → Res (List K)
  | .leaf (.nums [a, b]) => .ok (linspace a b 50)
  | .leaf (.nums [a, b, n]) =>
    if ((⌊n⌋ : Int) : K) ≠ n then .error .typeError
    else if n < 0 then .error .valueError
    else .ok (linspace a b ⌊n⌋.toNat)
  | _ => .error .typeError

/-- Lines 254-255. -/
def setBins (kw : Dict (Value K)) : Res (Dict (Value K)) :=
  match kw.get "boxbins" with
  | none => .error .keyError
  | some (.leaf .null) => .ok kw
  | some v =>
    match binEdges v with
    | .error e => .error e
    | .ok l => setEntry kw "boxes" "bins" (.nums l)

/-- The value of an optional argument; JSON `null` is the default `None`. -/
def argOf (kw : Dict (Value K)) (key : String) : Option (Leaf K) :=
  match kw.get key with
  | some (.leaf .null) => none
  | some (.leaf v) => some v
  | some (.obj _) => some (.other 0)
  | none => none

/-- Lines 242-255 for the keyword arguments `kw` of the call; the result are the dictionaries of options.  A keyword
`command` clashes with the positional argument (`TypeError`). -/
def prepare (loads : Str → Res (Value K)) (kw : Dict (Value K)) : Res (Dict (Value K)) :=
  if kw.has "command" then .error .typeError
  else
    let rest := kw.filter fun p => !namedOptions.contains p.1
    match checkOptions rest with
    | .error e => .error e
    | .ok _ =>
      match fillOptions loads rest with
      | .error e => .error e
      | .ok d =>
        match setOptional d "options" (argOf kw "phase") with
        | .error e => .error e
        | .ok d =>
          match setOptional d "moveout" (argOf kw "moveout_phase") with
          | .error e => .error e
          | .ok d => setBins d

end options

/-- Lines 257-265. -/
def checkCommands (command : Str) (commands : List Str) : Res Unit :=
  if command = "calc".toList then
    if ¬ commands.length < 3 then .error .parseError
    else match commands with
      | [a, b] => if a ≠ b then .ok () else .error .parseError
      | _ => .ok ()
  else if command = "calc".toList then
    if commands.length < 2 then .ok () else .error .parseError
  else .ok ()

/-- An object in a sequence of events: a string or an event. -/
inductive EvItem
  | str (s : Str)
  | event (n : Nat)
  deriving DecidableEq, Repr

/-- The argument `events`. -/
inductive EventsArg
  | none
  | file (s : Str)
  | list (l : List EvItem)
  | tuple (l : List EvItem)
  | catalog (l : List Nat)
  deriving DecidableEq, Repr

/-- `isinstance(events, obspy.Catalog)`; a catalog is not a `list`. -/
def EventsArg.isCatalog : EventsArg → Bool
  | .catalog _ => true
  | _ => false

/-- `isinstance(events, list)`. -/
def EventsArg.isList : EventsArg → Bool
  | .list _ => true
  | _ => false

/-- `len(events) == 2 and isinstance(events[0], basestring)` for a list. -/
def EventsArg.isPair : EventsArg → Bool
  | .list [.str _, _] => true
  | .tuple [.str _, _] => true
  | _ => false

/-- `events, format_ = events`: `TypeError` for `None`, `ValueError` unless there are two items. -/
def EventsArg.unpack : EventsArg → Res (EvItem × EvItem)
  | .none => .error .typeError
  | .file [a, b] => .ok (.str [a], .str [b])
  | .file _ => .error .valueError
  | .list [a, b] => .ok (a, b)
  | .list _ => .error .valueError
  | .tuple [a, b] => .ok (a, b)
  | .tuple _ => .error .valueError
  | .catalog [a, b] => .ok (.event a, .event b)
  | .catalog _ => .error .valueError

/-- Lines 271-279: the catalog used; `rd` is `obspy.read_events(pathname, format)`. -/
def loadEvents {C : Type} (rd : EvItem → Option EvItem → Res C) (given : EventsArg → Res C) (events : EventsArg) :
    Res C :=
  if !events.isCatalog || !events.isList || events.isPair then
    match events with
    | .file s => rd (.str s) none
    | ev =>
      match ev.unpack with
      | .error e => .error e
      | .ok (a, f) => rd a (some f)
  else given events

section commands
variable {K S W : Type}

/-- `RFStream.rf` and `RFStream.moveout` with their options, and `write`. -/
structure Ops (K S W : Type) where
  rf : Dict (Leaf K) → S → Res S
  moveout : Dict (Leaf K) → S → Res S
  out : S → W → W × Option PyErr

/-- `**kw[opt]`: `TypeError` if the value is not a dictionary. -/
def optionDict (kw : Dict (Value K)) (opt : String) : Res (Dict (Leaf K)) :=
  match kw.get opt with
  | some (.obj d) => .ok d
  | some (.leaf _) => .error .typeError
  | none => .error .keyError

/-- One command of lines 356-363. -/
def applyCommand (O : Ops K S W) (kw : Dict (Value K)) (s : S) (command : Str) : Res S :=
  if command = "data".toList then .ok s
  else if command = "calc".toList then
    match optionDict kw "rf" with
    | .error e => .error e
    | .ok d => O.rf d s
  else if command = "moveout".toList then
    match optionDict kw "moveout" with
    | .error e => .error e
    | .ok d => O.moveout d s
  else .error .notImplemented

/-- Lines 355-363. -/
def applyCommands (O : Ops K S W) (kw : Dict (Value K)) (commands : List Str) (s : S) : Res S :=
  commands.foldlM (applyCommand O kw) s

/-- Lines 352-364: process and write the streams of the iterator; an exception ends the program, what was written
before remains.  `err` is the exception with which the iterator ends. -/
def processLoop (O : Ops K S W) (kw : Dict (Value K)) (commands : List Str) (err : Option PyErr) :
    W → List S → W × Option PyErr
  | w, [] => (w, err)
  | w, s :: ss =>
    match applyCommands O kw commands s with
    | .error e => (w, some e)
    | .ok s' =>
      match O.out s' w with
      | (w', some e) => (w', some e)
      | (w', none) => processLoop O kw commands err w' ss

/-- `run_commands` for the commands `data`, `calc` and `moveout`: options, check of the commands, and processing of
the streams yielded by the iterator (lines 242-265 and 352-364); the readers of events, stations and data in between
are `EventsArg`, `loadEvents` and the iterators. -/
def runProcess [Field K] [LinearOrder K] [FloorRing K] (loads : Str → Res (Value K)) (O : Ops K S W)
    (command : Str) (commands : List Str) (kw : Dict (Value K)) (streams : List S) (err : Option PyErr) (w : W) :
    W × Option PyErr :=
  match prepare loads kw with
  | .error e => (w, some e)
  | .ok d =>
    match checkCommands command commands with
    | .error e => (w, some e)
    | .ok _ => processLoop O d (command :: commands) err w streams

end commands

section data
variable {K : Type}

/-- The wrapper of `init_data` (lines 165-176): an exception is printed and `None` returned; a missing keyword in the
message cannot happen for calls with all four codes. -/
def wrapWaveforms (get : Request K → Res (Option (List (WTrace K)))) (r : Request K) :
    Res (Option (List (WTrace K))) :=
  match get r with
  | .ok s => .ok s
  | .error _ => .ok none

end data

end Verif.Model.Batch
