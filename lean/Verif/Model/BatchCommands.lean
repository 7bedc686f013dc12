import Verif.Model.Batch
import Verif.Py.Fnmatch
import Verif.Model.Harmonics

/-!
# Model of the commands of `rf/batch.py` other than `data`, `calc` and `moveout` (lines 50-51 and 267-364)

ObsPy, the plots, stacking and the profile are parameters; they are modelled elsewhere.
-/

namespace Verif.Model.Batch
open Verif.Py Verif.Model

/-- The parts of a pattern. -/
inductive Tok | lit (c : Char) | one | many | set (neg : Bool) (body : Str)

/-- `fnmatch.translate`: the text before the next closing bracket and the text after it. -/
def upTo : Str → Option (Str × Str)
  | [] => none
  | c :: p => if c = ']' then some ([], p) else (upTo p).map fun x => (c :: x.1, x.2)

/-- `fnmatch.translate`: a set has at least one character, a closing bracket as the first one belongs to it. -/
def setBody : Str → Option (Str × Str)
  | [] => none
  | a :: p => (upTo p).map fun x => (a :: x.1, x.2)

/-- `fnmatch.translate`: the set which begins after an opening bracket (negated or not) and the rest of the pattern. -/
def bracket (p : Str) : Option (Bool × Str × Str) :=
  match p with
  | [] => none
  | c :: q => if c = '!' then (setBody q).map fun x => (true, x) else (setBody (c :: q)).map fun x => (false, x)

/-- `fnmatch.translate` for a pattern of at most `n` characters. -/
def tokens : Nat → Str → List Tok
  | 0, _ => []
  | _ + 1, [] => []
  | n + 1, c :: p =>
    if c = '*' then .many :: tokens n p
    else if c = '?' then .one :: tokens n p
    else if c = '[' then
      match bracket p with
      | some (neg, body, rest) => .set neg body :: tokens n rest
      | none => .lit c :: tokens n p
    else .lit c :: tokens n p

/-- The text matches the parts of a pattern. -/
def matchToks : List Tok → Str → Bool
  | [], s => s.isEmpty
  | .many :: p, s => s.tails.any (matchToks p)
  | .one :: p, s => match s with
    | [] => false
    | _ :: s => matchToks p s
  | .lit c :: p, s => match s with
    | [] => false
    | d :: s => decide (c = d) && matchToks p s
  | .set neg body :: p, s => match s with
    | [] => false
    | d :: s => (setHas body d != neg) && matchToks p s

/-- `fnmatch.fnmatch`: `?` is one character, `*` any number of characters, `[...]` a set. -/
def fnmatch (p s : Str) : Bool := matchToks (tokens p.length p) s

section plot
variable {K : Type} [Zero K] [LinearOrder K]

/-- `stream.select(channel=ch)` (ObsPy): upper case channel and pattern. -/
def selectChannel (h : Heap K) (s : List Nat) (ch : Str) : List Nat :=
  s.filter fun r => fnmatch (upper ch) (upper (h r).cha)

/-- Sort key. -/
def bazKey (h : Heap K) (r : Nat) : K := ((h r).getNum "back_azimuth").getD 0

/-- `st2.sort(['back_azimuth'])` (line 332): stable; a missing entry raises `KeyError`, an entry that is not a number
`TypeError` (if there is anything to compare; the difference does not matter here). -/
def sortByBaz (h : Heap K) (l : List Nat) : Res (List Nat) :=
  if l.any (fun r => !(h r).ext.has "back_azimuth") then .error .keyError
  else if l.any (fun r => ((h r).getNum "back_azimuth").isNone) then .error .typeError
  else .ok (l.insertionSort fun a b => bazKey h a ≤ bazKey h b)

/-- A call of `plot_rf` or `plot_profile`. -/
structure PlotCall where
  fname : Str
  traces : List Nat
  deriving DecidableEq, Repr

/-- Directories and plots made. -/
structure PlotState where
  fs : FS
  plots : List PlotCall

/-- `PLOT_FNAMES` (line 50). -/
def plotFnames : List Piece := [.root, .lit ['/']] ++ idPieces ++ [.lit ['.'], .cha, .lit ".pdf".toList]

/-- `PLOT_PROFILE_FNAMES` (line 51). -/
def plotProfileFnames : List Piece := [.root, .lit "/profile_".toList, .cha2, .lit ".pdf".toList]

/-- Header entries used in the names of plots. -/
def fieldsOf (t : Trace K) : Fields := ⟨t.net, t.sta, t.loc, t.cha, none, none⟩

/-- The body of the loops over channels (lines 328-333 and 337-342); `sorted` is true for the command `plot`.  `draw`
is the plot, which may raise. -/
def plotChannel (draw : PlotCall → Option PyErr) (h : Heap K) (root : Str) (pat : List Piece) (sorted : Bool)
    (s : List Nat) (st : PlotState) (ch : Str) : PlotState × Option PyErr :=
  match selectChannel h s ch with
  | [] => (st, some .indexError)
  | r :: l =>
    match fmtPattern root (fieldsOf (h r)) pat with
    | .error e => (st, some e)
    | .ok fname =>
      let st := { st with fs := createDir st.fs fname }
      match (if sorted then sortByBaz h (r :: l) else .ok (r :: l)) with
      | .error e => (st, some e)
      | .ok l =>
        match draw ⟨fname, l⟩ with
        | some e => (st, some e)
        | none => ({ st with plots := st.plots ++ [⟨fname, l⟩] }, none)

/-- The loop over channels. -/
def plotLoop (body : PlotState → Str → PlotState × Option PyErr) : PlotState → List Str → PlotState × Option PyErr
  | st, [] => (st, none)
  | st, ch :: chs =>
    match body st ch with
    | (st, some e) => (st, some e)
    | (st, none) => plotLoop body st chs

/-- Lines 326-333 for one stream; `order` lists the elements of a set. -/
def plotStream (order : List Str → List Str) (draw : PlotCall → Option PyErr) (h : Heap K) (root : Str) (st : PlotState)
    (s : List Nat) : PlotState × Option PyErr :=
  plotLoop (plotChannel draw h root plotFnames true s) st (order (s.map fun r => (h r).cha))

/-- Lines 335-342 for one stream. -/
def plotProfileStream (order : List Str → List Str) (draw : PlotCall → Option PyErr) (h : Heap K) (root : Str)
    (st : PlotState) (s : List Nat) : PlotState × Option PyErr :=
  plotLoop (plotChannel draw h root plotProfileFnames false s) st (order (s.map fun r => (h r).cha))

end plot

/-! ## Dispatch -/

/-- What is read before the command is run (lines 268-289): events and inventory. -/
structure Needs where
  events : Bool
  inventory : Bool
  deriving DecidableEq, Repr

/-- Lines 269-271 and 280: `objects[0]` for `print` (`TypeError` or `IndexError` if there is none). -/
def needs (command : Str) (objects : Option (List Str)) : Res Needs :=
  if command = "stack".toList ∨ command = "plot".toList then .ok ⟨false, true⟩
  else if command ≠ "print".toList then .ok ⟨true, true⟩
  else match objects with
    | none => .error .typeError
    | some [] => .error .indexError
    | some (o :: _) => .ok ⟨decide (o = "events".toList), decide (o = "stations".toList)⟩

/-- What `print` shows (lines 300-310). -/
inductive Printed
  | events
  | stations
  | files (l : List Str)
  deriving DecidableEq, Repr

/-- Lines 302-309; a stream of several files is the sum of their traces, in order. -/
def printed (objects : List Str) : Printed :=
  match objects with
  | [] => .files []
  | o :: l =>
    if o = "events".toList then .events
    else if o = "stations".toList then .stations
    else .files (o :: l)

/-- The iterator (lines 311-320). -/
inductive Source
  | events
  | profileFile
  | processed (yieldTraces : Bool)
  deriving DecidableEq, Repr

/-- Lines 312-320. -/
def sourceOf (command : Str) : Source :=
  if command = "data".toList then .events
  else if command = "plot-profile".toList then .profileFile
  else .processed (decide (command = "profile".toList))

section dispatch
variable {K S T W : Type}

/-- The parts of the program called by `run_commands`: readers for events and inventory, set-up of the data source, the
iterators (streams or traces, and the exception which ends them), and for each command what is done with its stream. -/
structure Parts (K S T W : Type) where
  readEvents : Res Unit
  readInventory : Res Unit
  initData : Res Unit
  streams : Source → List S × Option PyErr
  traces : List T × Option PyErr
  ops : Ops K S W
  convert : S → W → W × Option PyErr
  plot : Dict (Leaf K) → S → W → W × Option PyErr
  plotProfile : Dict (Leaf K) → S → W → W × Option PyErr
  stack : S → Res S
  writeStack : S → W → W × Option PyErr
  profile : Dict (Leaf K) → Dict (Leaf K) → List T × Option PyErr → Res S
  writeProfile : S → W → W × Option PyErr

/-- Outcome of `run_commands`: an exception, a message (nothing done), something printed, or the files written and the
exception which ended the command. -/
inductive CommandResult (W : Type)
  | raised (e : PyErr)
  | message
  | shown (p : Printed)
  | ran (w : W) (err : Option PyErr)

/-- A loop over streams with a body that may raise. -/
def streamLoop (body : S → W → W × Option PyErr) (err : Option PyErr) : W → List S → W × Option PyErr
  | w, [] => (w, err)
  | w, s :: ss =>
    match body s w with
    | (w, some e) => (w, some e)
    | (w, none) => streamLoop body err w ss

/-- Body of the loop of the command `stack` (lines 345-346). -/
def stackBody (P : Parts K S T W) (s : S) (w : W) : W × Option PyErr :=
  match P.stack s with
  | .error e => (w, some e)
  | .ok x => P.writeStack x w

/-- A body which needs a dictionary of options: `**kw[opt]` is evaluated for every stream. -/
def withOptions (kw : Dict (Value K)) (opt : String) (f : Dict (Leaf K) → S → W → W × Option PyErr) (s : S) (w : W) :
    W × Option PyErr :=
  match optionDict kw opt with
  | .error e => (w, some e)
  | .ok d => f d s w

/-- Lines 321-364: the command is run. -/
def dispatch (P : Parts K S T W) (command : Str) (commands : List Str) (kw : Dict (Value K)) (w : W) : W × Option PyErr :=
  let it := P.streams (sourceOf command)
  if command = "convert".toList then streamLoop P.convert it.2 w it.1
  else if command = "plot".toList then streamLoop (withOptions kw "plot" P.plot) it.2 w it.1
  else if command = "plot-profile".toList then streamLoop (withOptions kw "plot_profile" P.plotProfile) it.2 w it.1
  else if command = "stack".toList then streamLoop (stackBody P) it.2 w it.1
  else if command = "profile".toList then
    match optionDict kw "boxes" with
    | .error e => (w, some e)
    | .ok boxes =>
      match optionDict kw "profile" with
      | .error e => (w, some e)
      | .ok opts =>
        match P.profile boxes opts P.traces with
        | .error e => (w, some e)
        | .ok x => P.writeProfile x w
  else processLoop P.ops kw (command :: commands) it.2 w it.1

/-- `run_commands` (lines 236-364); `get_profile_boxes` is part of `Parts.profile`.  What is printed is described, not
formatted. -/
def runCommands [Field K] [LinearOrder K] [FloorRing K] (loads : Str → Res (Value K)) (P : Parts K S T W) (command : Str)
    (commands : List Str) (objects : Option (List Str)) (kw : Dict (Value K)) (w : W) : CommandResult W :=
  match prepare loads kw with
  | .error e => .raised e
  | .ok d =>
    match checkCommands command commands with
    | .error e => .raised e
    | .ok _ =>
      match needs command objects with
      | .error _ => .message
      | .ok n =>
        match (if n.events then P.readEvents else .ok ()) with
        | .error _ => .message
        | .ok _ =>
          match (if n.inventory then P.readInventory else .ok ()) with
          | .error _ => .message
          | .ok _ =>
            match (if command = "data".toList then P.initData else .ok ()) with
            | .error _ => .message
            | .ok _ =>
              if command = "print".toList then .shown (printed (objects.getD []))
              else
                match dispatch P command commands d w with
                | (w, e) => .ran w e

end dispatch

end Verif.Model.Batch
