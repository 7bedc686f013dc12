import Verif.Model.EventIter

/-!
# Model of file names, writing and reading in `rf/batch.py` (lines 33-127)

Path separator is `/` (POSIX).  The operating system is a set of directories and the list of performed writes.
-/

namespace Verif.Model.Batch
open Verif.Py Verif.Model.EventIter

/-- The calendar time of a `UTCDateTime`, to the second; produced by `UTCDateTime.datetime` (ObsPy). -/
structure DateTime where
  year : Nat
  month : Nat
  day : Nat
  hour : Nat
  minute : Nat
  second : Nat
  deriving DecidableEq, Repr

/-- A decimal digit. -/
def digit (n : Nat) : Char := Char.ofNat (48 + n % 10)

/-- Two digits, as `%m`. -/
def pad2 (n : Nat) : Str := [digit (n / 10), digit n]

/-- Four digits, as `%Y` for years from 1000 to 9999. -/
def pad4 (n : Nat) : Str := [digit (n / 1000), digit (n / 100), digit (n / 10), digit n]

/-- `'{:%Y-%m-%dT%H:%M:%S}'.format(datetime)` (`_TF`, line 33). -/
def timeText (t : DateTime) : Str :=
  pad4 t.year ++ '-' :: pad2 t.month ++ '-' :: pad2 t.day ++ 'T' :: pad2 t.hour ++ ':' :: pad2 t.minute ++
    ':' :: pad2 t.second

/-- What is inserted for `event_time`: a `UTCDateTime` or the dummy of lines 54-65, which is formatted as `*`. -/
inductive TimeField
  | time (t : DateTime)
  | dummy
  deriving DecidableEq, Repr

/-- The entries of `tr.stats` or of a metadata dictionary used for file names; `boxPos` is `str(box_pos)`. -/
structure Fields where
  network : Str
  station : Str
  location : Str
  channel : Str
  eventTime : Option TimeField
  boxPos : Option Str
  deriving DecidableEq, Repr

/-- Replacement fields of the patterns. -/
inductive Piece
  | lit (s : Str)
  | root
  | net
  | sta
  | loc
  | cha
  | cha2
  | time
  | pos

/-- One replacement field; a missing entry raises `KeyError`, `{channel[2]}` of a short channel `IndexError`. -/
def fmtPiece (root : Str) (f : Fields) : Piece → Res Str
  | .lit s => .ok s
  | .root => .ok root
  | .net => .ok f.network
  | .sta => .ok f.station
  | .loc => .ok f.location
  | .cha => .ok f.channel
  | .cha2 => match f.channel[2]? with
    | some c => .ok [c]
    | none => .error .indexError
  | .time => match f.eventTime with
    | some (.time t) => .ok (timeText t)
    | some .dummy => .ok ['*']
    | none => .error .keyError
  | .pos => match f.boxPos with
    | some s => .ok s
    | none => .error .keyError

/-- `pattern.format(root=root, **stats)`. -/
def fmtPattern (root : Str) (f : Fields) : List Piece → Res Str
  | [] => .ok []
  | p :: ps =>
    match fmtPiece root f p with
    | .error e => .error e
    | .ok s =>
      match fmtPattern root f ps with
      | .error e => .error e
      | .ok r => .ok (s ++ r)

/-- The formats known to `FNAMES`, `STACK_FNAMES` and `PROFILE_FNAMES`. -/
inductive Format | q | sac | h5
  deriving DecidableEq, Repr

/-- The keys of these dictionaries. -/
def formatKey (s : Str) : Option Format :=
  if s = "Q".toList then some .q
  else if s = "SAC".toList then some .sac
  else if s = "H5".toList then some .h5
  else none

/-- `'{network}.{station}.{location}'`. -/
def idPieces : List Piece := [.net, .lit ['.'], .sta, .lit ['.'], .loc]

/-- `FNAMES` (lines 35-41). -/
def fnames : Format → List Piece
  | .q => [.root, .lit ['/']] ++ idPieces ++ [.lit ['/']] ++ idPieces ++ [.lit ['_'], .time, .lit ".QHD".toList]
  | .sac => [.root, .lit ['/']] ++ idPieces ++ [.lit ['/']] ++ idPieces ++
      [.lit ['.'], .cha, .lit ['_'], .time, .lit ".SAC".toList]
  | .h5 => [.root, .lit ".h5".toList]

/-- `STACK_FNAMES` (lines 42-45). -/
def stackFnames : Format → List Piece
  | .q => [.root, .lit ['/']] ++ idPieces ++ [.lit ".QHD".toList]
  | .sac => [.root, .lit ['/']] ++ idPieces ++ [.lit ['.'], .cha, .lit ".SAC".toList]
  | .h5 => [.root, .lit ".h5".toList]

/-- `PROFILE_FNAMES` (lines 46-49). -/
def profileFnames : Format → List Piece
  | .q => [.root, .lit ".QHD".toList]
  | .sac => [.root, .lit "/profile_".toList, .cha2, .lit ['_'], .pos, .lit ".SAC".toList]
  | .h5 => [.root, .lit ".h5".toList]

/-- The argument `type` of `write`. -/
inductive Kind | plain | stack | profile
  deriving DecidableEq, Repr

/-- Selection of the dictionary (lines 82-84). -/
def patterns : Kind → Format → List Piece
  | .plain => fnames
  | .stack => stackFnames
  | .profile => profileFnames

/-- `s.rstrip('/')`. -/
def rstripSlash (s : Str) : Str := (s.reverse.dropWhile (· = '/')).reverse

/-- `os.path.dirname` (POSIX): everything before the last slash, without trailing slashes unless there is nothing
else. -/
def dirname (s : Str) : Str :=
  let head := (s.reverse.dropWhile (· ≠ '/')).reverse
  if head.all (· = '/') then head else rstripSlash head

/-- A performed write: file, format and the trace objects in it. -/
structure Written where
  file : Str
  format : Format
  traces : List Nat
  deriving DecidableEq, Repr

/-- The file system: directories and performed writes in order. -/
structure FS where
  dirs : Str → Bool
  writes : List Written

/-- `_create_dir(filename)` (lines 68-74): `os.makedirs` also creates the parents. -/
def createDir (fs : FS) (fname : Str) : FS :=
  let head := dirname fname
  if head ≠ [] ∧ fs.dirs head = false then
    { fs with dirs := fun d => fs.dirs d || d = head || (d ++ ['/']).isPrefixOf head }
  else fs

/-- `stream.write` or `tr.write` (ObsPy): raises `OSError` if the directory is missing; may raise for other reasons
(`wr`). -/
def writeFile (wr : Str → Format → List Nat → Option PyErr) (fs : FS) (w : Written) : FS × Option PyErr :=
  if dirname w.file ≠ [] ∧ fs.dirs (dirname w.file) = false then (fs, some .other)
  else match wr w.file w.format w.traces with
    | some e => (fs, some e)
    | none => ({ fs with writes := fs.writes ++ [w] }, none)

/-- The loop over traces for SAC (lines 92-94). -/
def writeSac (wr : Str → Format → List Nat → Option PyErr) (h : Nat → Fields) (root : Str) (pat : List Piece) :
    FS → List Nat → FS × Option PyErr
  | fs, [] => (fs, none)
  | fs, r :: s =>
    match fmtPattern root (h r) pat with
    | .error e => (fs, some e)
    | .ok fname =>
      match writeFile wr fs ⟨fname, .sac, [r]⟩ with
      | (fs, some e) => (fs, some e)
      | (fs, none) => writeSac wr h root pat fs s

/-- `write(stream, root, format, type)` (lines 77-94); the heap `h` holds the headers of the traces. -/
def write (wr : Str → Format → List Nat → Option PyErr) (h : Nat → Fields) (fs : FS) (stream : List Nat)
    (root : Str) (format : Str) (kind : Kind) : FS × Option PyErr :=
  match stream with
  | [] => (fs, none)
  | r :: _ =>
    match formatKey (upper format) with
    | none => (fs, some .keyError)
    | some f =>
      match fmtPattern root (h r) (patterns kind f) with
      | .error e => (fs, some e)
      | .ok fname =>
        let fs := createDir fs fname
        match f with
        | .h5 => writeFile wr fs ⟨fname, .h5, stream⟩
        | .q => writeFile wr fs ⟨fname, .q, stream⟩
        | .sac => writeSac wr h root (patterns kind .sac) fs stream

/-- The metadata of one event-station pair after lines 101-104. -/
def metaFields {K : Type} (cal : K → DateTime) (m : Meta K) (format : Str) : Fields :=
  { network := m.network, station := m.station, location := m.location, channel := "???".toList,
    eventTime := match m.eventTime with
      | some t => some (.time (cal t))
      | none => if format ≠ "H5".toList then some .dummy else none,
    boxPos := none }

/-- The call of `read_rf` (lines 105-110): file name and, for H5, the metadata used as filter. -/
structure ReadCall (K : Type) where
  fname : Str
  readonly : Option (Meta K)

/-- Lines 101-108. -/
def readCall {K : Type} (cal : K → DateTime) (pin format : Str) (m : Meta K) : Res (ReadCall K) :=
  match formatKey format with
  | none => .error .keyError
  | some f =>
    match fmtPattern pin (metaFields cal m format) (fnames f) with
    | .error e => .error e
    | .ok fname => .ok ⟨fname, if f = .h5 then some m else none⟩

/-- Body of the loop of `iter_event_processed_data` (lines 101-118): exceptions of `read_rf` are swallowed. -/
def processedStep {K S : Type} (read : ReadCall K → Res S) (cal : K → DateTime) (pin format : Str) (m : Meta K) :
    Outcome S :=
  match readCall cal pin format m with
  | .error e => .abort e
  | .ok c =>
    match read c with
    | .error _ => .skip
    | .ok s => .yield s

/-- `iter_event_processed_data(events, inventory, pin, format, yield_traces=False)` (lines 97-118): the streams
yielded, and the exception that ended the generator. -/
def iterProcessed {K Ev S : Type} (originTime : Ev → Res K) (read : ReadCall K → Res S) (cal : K → DateTime)
    (events : Option (List Ev)) (channels : List Str) (pin format : Str) : List S × Option PyErr :=
  let g := iterEventMetadata originTime events channels
  let r := genLoop (processedStep read cal pin format) g.items
  match r.err with
  | some e => (r.items, some e)
  | none => (r.items, g.err)

/-- The file name given to `read_rf` by `_iter_profile(pin, format)` (lines 122-123). -/
def profileReadName (pin format : Str) : Res Str :=
  match formatKey format with
  | none => .error .keyError
  | some f => fmtPattern pin ⟨[], [], [], "???".toList, none, some ['*']⟩ (profileFnames f)

end Verif.Model.Batch
