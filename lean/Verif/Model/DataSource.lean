import Verif.Model.BatchCommands

/-!
# Model of the data sources of the batch program (`rf/batch.py` lines 126-176)

The import system, ObsPy's clients and `read` are parameters.  Importing a module runs its code, which may change
`sys.path`; the path is therefore part of the state.
-/

namespace Verif.Model.DataSource
open Verif.Py Verif.Model.Batch Verif.Model.EventIter

variable {K Ev : Type}

/-- Keyword arguments of a function which delivers data; `event` is optional. -/
structure Kwargs (K Ev : Type) where
  req : Request K
  event : Option Ev

/-- A function which delivers data. -/
abbrev GetWf (K Ev : Type) := Kwargs K Ev → Res (Option (List (WTrace K)))

/-- A module: its functions and, for clients, the class `Client`; an instance is its method `get_waveforms`. -/
structure PyMod (K Ev : Type) where
  func : Str → Option (GetWf K Ev)
  client : Option (Dict (Leaf K) → Res (Request K → Res (Option (List (WTrace K)))))

/-- Outcome of `import_module`. -/
inductive Imported (K Ev : Type)
  | module (m : PyMod K Ev)
  | importError
  | raises (e : PyErr)

/-- The surroundings: `import_module` with `sys.path` before and after, ObsPy's `read`, and `Trace.slice` (`none`: no
samples left). -/
structure Interp (K Ev : Type) where
  importModule : List Str → Str → List Str × Imported K Ev
  read : Option Str → Res (List (WTrace K))
  sliceTrace : K → K → WTrace K → Option (WTrace K)

/-- `s.strip()` for ASCII white space. -/
def strip (s : Str) : Str :=
  ((s.dropWhile Char.isWhitespace).reverse.dropWhile Char.isWhitespace).reverse

/-- `load_func(modulename, funcname)` (lines 126-132): `sys.path` afterwards and the result; `ImportError` is `other`. -/
def loadFunc (I : Interp K Ev) (path : List Str) (modulename funcname : Str) : List Str × Res (GetWf K Ev) :=
  match I.importModule (path ++ [['.']]) modulename with
  | (path, .importError) => (path, .error .other)
  | (path, .raises e) => (path, .error e)
  | (path, .module m) =>
    if path = [] then (path, .error .indexError)
    else
      match m.func funcname with
      | none => (path.dropLast, .error .attributeError)
      | some f => (path.dropLast, .ok f)

/-- `stream.select(network=…, station=…, location=…, channel=…)` (ObsPy): upper case codes and patterns. -/
def select (r : Request K) (s : List (WTrace K)) : List (WTrace K) :=
  s.filter fun w =>
    fnmatch (upper r.network) (upper w.tr.net) && fnmatch (upper r.station) (upper w.tr.sta) &&
      fnmatch (upper r.location) (upper w.tr.loc) && fnmatch (upper r.channel) (upper w.tr.cha)

/-- `get_waveforms` for files (lines 158-163); `st.slice` drops empty traces. -/
def fromFiles (I : Interp K Ev) (stream : List (WTrace K)) (kw : Kwargs K Ev) : Res (Option (List (WTrace K))) :=
  .ok (some ((select kw.req stream).filterMap (I.sliceTrace kw.req.starttime kw.req.endtime)))

/-- `wrapper` (lines 165-174): an exception is printed and `None` returned. -/
def wrapper (get : GetWf K Ev) (kw : Kwargs K Ev) : Res (Option (List (WTrace K))) :=
  match get kw with
  | .ok s => .ok s
  | .error _ => .ok none

/-- `get_waveforms` before it is wrapped (lines 139-163); `sys.path` afterwards and the function.  `data` may be `None`,
which is formatted as `None`. -/
def source (I : Interp K Ev) (path : List Str) (data : Option Str) (clientOptions : Option (Dict (Leaf K)))
    (plugin : Option Str) : List Str × Res (GetWf K Ev) :=
  match I.importModule path ("obspy.clients.".toList ++ data.getD "None".toList) with
  | (path, .raises e) => (path, .error e)
  | (path, .module m) =>
    match m.client with
    | none => (path, .error .attributeError)
    | some mk =>
      match mk (clientOptions.getD []) with
      | .error e => (path, .error e)
      | .ok client => (path, .ok fun kw => client kw.req)
  | (path, .importError) =>
    if data = some "plugin".toList then
      match plugin with
      | none => (path, .error .attributeError)
      | some p =>
        match splitOn ':' p with
        | [m, f] => loadFunc I path (strip m) (strip f)
        | _ => (path, .error .valueError)
    else
      match I.read data with
      | .error e => (path, .error e)
      | .ok stream => (path, .ok (fromFiles I stream))

/-- `init_data(data, client_options, plugin)` (lines 135-176). -/
def initData (I : Interp K Ev) (path : List Str) (data : Option Str) (clientOptions : Option (Dict (Leaf K)))
    (plugin : Option Str) : List Str × Res (GetWf K Ev) :=
  match source I path data clientOptions plugin with
  | (path, .error e) => (path, .error e)
  | (path, .ok get) => (path, .ok (wrapper get))

/-- The call of `get_waveforms` in `iter_event_data` (`rf/util.py` lines 81-85): six keyword arguments. -/
def called (get : GetWf K Ev) (r : Request K) : Res (Option (List (WTrace K))) := get ⟨r, none⟩

end Verif.Model.DataSource
