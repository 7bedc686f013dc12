import Verif.Model.Batch
import Verif.Model.Headers

/-!
# Model of the processing commands of `rf/batch.py` on files, read one by one (lines 77-118 and 352-364)

`Model/Batch.lean` processes a list of streams; here the streams are read while the loop runs, as the generators
do, so that files written by the loop itself may be read by it.  Formats with one file for each stream (`Q`).
-/

namespace Verif.Model.Batch
open Verif.Py

/-- Files by name, with the stream in each of them. -/
abbrev Files (S : Type) := Str → Option S

/-- A file is created or replaced. -/
def Files.put {S : Type} (w : Files S) (n : Str) (s : S) : Files S := fun m => if m = n then some s else w m

/-- The parts of `write` (lines 77-94) for a format with one file: the name made from the first trace (lines 85-87),
what is kept of the stream in the file, and `len(stream) == 0` (line 79). -/
structure OneFile (S : Type) where
  name : S → Res Str
  saved : S → S
  empty : S → Bool

/-- `write(stream, root, 'Q')` (lines 77-91). -/
def OneFile.write {S : Type} (F : OneFile S) (s : S) (w : Files S) : Files S × Option PyErr :=
  if F.empty s then (w, none)
  else match F.name s with
    | .error e => (w, some e)
    | .ok n => (w.put n (F.saved s), none)

/-- The loop over the streams of a generator (lines 354-364): for each pair of event and station the generator gives a
stream or nothing (lines 101-118; `util.iter_event_data`), which is processed and written before the next one is
looked for. -/
def lazyLoop {M S W : Type} (source : M → W → Option S) (step : S → Res S) (out : S → W → W × Option PyErr) :
    W → List M → W × Option PyErr
  | w, [] => (w, none)
  | w, m :: ms =>
    match source m w with
    | none => lazyLoop source step out w ms
    | some s =>
      match step s with
      | .error e => (w, some e)
      | .ok s' =>
        match out s' w with
        | (w', some e) => (w', some e)
        | (w', none) => lazyLoop source step out w' ms

/-- A call of the program which reads files (`iter_event_processed_data`, lines 97-118, a file that cannot be read is
left out): `name` is the file for each pair. -/
def runFiles {K M S W : Type} (O : Ops K S W) (kw : Dict (Value K)) (name : M → Str) (F : OneFile S)
    (commands : List Str) (w : Files S) (ms : List M) : Files S × Option PyErr :=
  lazyLoop (fun m w => w (name m)) (applyCommands O kw commands) F.write w ms

/-- A call of the program which fetches data (`iter_event_data`). -/
def runData {K M S W : Type} (O : Ops K S W) (kw : Dict (Value K)) (data : M → Option S) (F : OneFile S)
    (commands : List Str) (w : Files S) (ms : List M) : Files S × Option PyErr :=
  lazyLoop (fun m _ => data m) (applyCommands O kw commands) F.write w ms

/-- What is kept of a trace in a file: the header entries of `_HEADERS` (`rfstream.py` lines 73-78, see
`Model/Headers.lean`). -/
def keptTrace {K : Type} (t : Trace K) : Trace K :=
  { t with ext := Headers.headers.filterMap fun k => (t.ext.get k).map fun v => (k, v) }

/-- The event time in a file name (`_TF`, line 33) and the codes, for a trace. -/
def traceFields {K : Type} (cal : K → DateTime) (t : Trace K) : Fields :=
  { network := t.net, station := t.sta, location := t.loc, channel := t.cha,
    eventTime := (t.getTime "event_time").map fun x => .time (cal x), boxPos := none }

/-- Streams of receiver functions in files of format `Q`; the trace objects read back are numbered as those written. -/
def qFiles {K : Type} (cal : K → DateTime) (root : Str) : OneFile (Heap K × List Nat) where
  name := fun st => match st.2 with
    | [] => .error .indexError
    | r :: _ => fmtPattern root (traceFields cal (st.1 r)) (fnames .q)
  saved := fun st => (fun r => keptTrace (st.1 r), st.2)
  empty := fun st => st.2.isEmpty

/-- `stream.rf(**kw['rf'])`, `stream.moveout(**kw['moveout'])` as operations of the program: an exception ends it. -/
def asOp {K : Type} (f : Heap K × List Nat → (Heap K × List Nat) × Option PyErr) (st : Heap K × List Nat) :
    Res (Heap K × List Nat) :=
  match f st with
  | (st', none) => .ok st'
  | (_, some e) => .error e

/-- Loop of `write` over the traces for SAC files (rf/batch.py lines 91-94) on a folder with the trace in each file: one
file for each trace, existing files are replaced.  The content of a file is the trace with the entries of `_HEADERS`;
what the format does to numbers is not part of this model. -/
def writeEach {K : Type} (name : Trace K → Res Str) : Files (Trace K) → List (Trace K) → Files (Trace K) × Option PyErr
  | w, [] => (w, none)
  | w, t :: ts =>
    match name t with
    | .error e => (w, some e)
    | .ok n => writeEach name (w.put n (keptTrace t)) ts

/-- `write(stream, root, 'SAC')` (rf/batch.py lines 77-94).  The exception of the name of the first trace, line 85, is that
of the loop. -/
def writeSacFiles {K : Type} (cal : K → DateTime) (root : Str) (w : Files (Trace K)) (ts : List (Trace K)) :
    Files (Trace K) × Option PyErr :=
  writeEach (fun t => fmtPattern root (traceFields cal t) (fnames .sac)) w ts

end Verif.Model.Batch
