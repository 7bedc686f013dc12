import Verif.Py.Heap

/-!
# Model of the format specific headers and of writing
(`rf/rfstream.py` lines 50-107, 158-169, 184-214, 476-487, 532-610)

The parts of ObsPy, obspyh5 and `json` used here are collected in `FmtEnv`.  Header values are `Val`;
a `UTCDateTime` is `Val.time`, a `float` is `Val.num`.
-/

namespace Verif.Model.Headers
open Verif.Py

/-- `_HEADERS` (lines 73-78). -/
def headers : List String :=
  ["station_latitude", "station_longitude", "station_elevation",
   "event_latitude", "event_longitude", "event_depth", "event_magnitude", "event_time",
   "onset", "type", "phase", "moveout",
   "distance", "back_azimuth", "inclination", "slowness",
   "pp_latitude", "pp_longitude", "pp_depth",
   "box_pos", "box_length"]

/-- `_FORMATHEADERS['sac']` (lines 83-88). -/
def sacFields : List String :=
  ["stla", "stlo", "stel", "evla", "evlo",
   "evdp", "mag", "o", "a",
   "kuser0", "kuser1", "kuser2",
   "gcarc", "baz", "user0", "user1",
   "user2", "user3", "user4",
   "user5", "user6"]

/-- `_FORMATHEADERS['sh']` (lines 90-96). -/
def shFields : List String :=
  ["COMMENT", "COMMENT", "COMMENT",
   "LAT", "LON", "DEPTH",
   "MAGNITUDE", "ORIGIN", "P-ONSET",
   "COMMENT", "COMMENT", "COMMENT",
   "DISTANCE", "AZIMUTH", "INCI", "SLOWNESS",
   "COMMENT", "COMMENT", "COMMENT",
   "COMMENT", "COMMENT"]

/-- The keys of `_FORMATHEADERS`. -/
inductive Fmt | sac | sh
  deriving DecidableEq, Repr

/-- `zip(_HEADERS, _FORMATHEADERS[format])` (lines 542 and 578). -/
def headerMap : Fmt → Dict String
  | .sac => headers.zip sacFields
  | .sh => headers.zip shFields

/-- The format key after `format.lower()` and the replacement of 'q' by 'sh' (lines 538-540, 570-572);
`none`: no entry in `_FORMATHEADERS` (`KeyError` caught, lines 543-545, 579-581). -/
def fmtOf (format : Str) : Option Fmt :=
  let f := lower format
  if f = "q".toList then some .sh
  else if f = "sh".toList then some .sh
  else if f = "sac".toList then some .sac
  else none

/-- The keys of `_HEADER_CONVERSIONS[format]` (lines 97-98). -/
def hasConversion : Fmt → String → Bool
  | .sac, h => h = "onset" || h = "event_time"
  | .sh, _ => false

/-- `tr.stats`, as far as the format specific headers are concerned: the `_format` entry, the ordinary
entries `top` and the sub-dictionaries `sac` and `sh`. -/
structure FStats (K : Type) where
  format : Option Str
  top : Dict (Val K)
  sac : Option (Dict (Val K))
  sh : Option (Dict (Val K))
  deriving DecidableEq, Repr

/-- External functions: `obspy_to_sac_header`, `get_sac_reftime` (ObsPy), `'-12345' in str(value)`,
`json.dumps` (with the conversion of numpy values) and `json.loads` followed by the check that a
dictionary was decoded; `JSONDecodeError` is `PyErr.parseError`. -/
structure FmtEnv (K : Type) where
  toSac : Dict (Val K) → Option (Dict (Val K)) → Dict (Val K)
  reftime : Dict (Val K) → Res K
  isNull : Val K → Bool
  dumps : Dict (Val K) → Res Str
  loads : Str → Res (Dict (Val K))

variable {K : Type}

/-- `st[format]`, `KeyError` as `none`. -/
def FStats.sub (st : FStats K) : Fmt → Option (Dict (Val K))
  | .sac => st.sac
  | .sh => st.sh

/-- `st[format] = d` -/
def FStats.setSub (st : FStats K) : Fmt → Dict (Val K) → FStats K
  | .sac, d => { st with sac := some d }
  | .sh, d => { st with sh := some d }

/-- `st[head] = v` -/
def FStats.put (st : FStats K) (head : String) (v : Val K) : FStats K :=
  { st with top := st.top.set head v }

section
variable [Field K] (E : FmtEnv K)

/-- `_HEADER_CONVERSIONS[format][head][0]` applied and stored (lines 50-52, 562-566): the reference time
is evaluated first, a missing `stats[head]` is a caught `KeyError`. -/
def convertRead (st : FStats K) (head : String) : Res (FStats K) :=
  match st.sac with
  | none => .error .attributeError
  | some d =>
    match E.reftime d with
    | .error .keyError => .ok st
    | .error e => .error e
    | .ok t0 =>
      match st.top.get head with
      | none => .ok st
      | some (.num x) => .ok (st.put head (.time (t0 + x)))
      | some _ => .error .typeError

/-- Body of the loop of `_read_format_specific_header` (lines 547-566). -/
def readStep (fmt : Fmt) (st : FStats K) (p : String × String) : Res (FStats K) :=
  match (st.sub fmt).bind (fun d => d.get p.2) with
  | none => .ok st
  | some v =>
    if fmt = .sh ∧ p.2 = "COMMENT" then
      match v with
      | .str s =>
        match E.loads s with
        | .ok d => .ok { st with top := st.top.update d }
        | .error .parseError => .ok st
        | .error e => .error e
      | _ => .error .typeError
    else
      let st1 := if fmt = .sac ∧ E.isNull v then st else st.put p.1 v
      if hasConversion fmt p.1 then convertRead E st1 p.1 else .ok st1

/-- `RFTrace._read_format_specific_header()` (lines 532-566). -/
def readHeader (st : FStats K) : Res (FStats K) :=
  match st.format with
  | none => .ok st
  | some f =>
    match fmtOf f with
    | none => .ok st
    | some fmt => (headerMap fmt).foldlM (readStep E fmt) st

/-- `_HEADER_CONVERSIONS[format][head][1](st, head)` (lines 55-57, 597-601), `st[head] = v` given;
a `KeyError` leaves the value. -/
def convertWrite (st : FStats K) (v : Val K) : Res (Val K) :=
  match v with
  | .time x =>
    match st.sac with
    | none => .error .attributeError
    | some d =>
      match E.reftime d with
      | .error .keyError => .ok v
      | .error e => .error e
      | .ok t0 => .ok (.num (x - t0))
  | _ => .error .typeError

/-- Body of the loop of `_write_format_specific_header` (lines 586-602); the second component is the
local variable `comment`. -/
def writeStep (fmt : Fmt) (s : FStats K × Dict (Val K)) (p : String × String) :
    Res (FStats K × Dict (Val K)) :=
  if fmt = .sh ∧ p.2 = "COMMENT" then
    match s.1.top.get p.1 with
    | some v => .ok (s.1, s.2.set p.1 v)
    | none => .ok s
  else
    match s.1.top.get p.1 with
    | none => .ok s
    | some v =>
      match (if hasConversion fmt p.1 then convertWrite E s.1 v else .ok v) with
      | .error e => .error e
      | .ok v' => .ok (s.1.setSub fmt (((s.1.sub fmt).getD []).set p.2 v'), s.2)

/-- The end of `_write_format_specific_header` (lines 603-610). -/
def writeComment (fmt : Fmt) (shCompat : Bool) (s : FStats K × Dict (Val K)) : Res (FStats K) :=
  match fmt with
  | .sac => .ok s.1
  | .sh =>
    if shCompat then .ok (s.1.setSub .sh (((s.1.sub .sh).getD []).erase "COMMENT"))
    else if s.2.length > 0 then
      match E.dumps s.2 with
      | .ok c => .ok (s.1.setSub .sh (((s.1.sub .sh).getD []).set "COMMENT" (.str c)))
      | .error e => .error e
    else .ok s.1

/-- State before the loop of `_write_format_specific_header` (lines 570-585): a SAC header is prepared by
`obspy_to_sac_header`, a missing sub-dictionary is created. -/
def writeInit (fmt : Fmt) (st : FStats K) : FStats K :=
  let st1 := match fmt with
    | .sac => { st with sac := some (E.toSac st.top st.sac) }
    | .sh => st
  match st1.sub fmt with
  | none => st1.setSub fmt []
  | some _ => st1

/-- `RFTrace._write_format_specific_header(format, sh_compat)` (lines 568-610). -/
def writeHeader (format : Str) (shCompat : Bool) (st : FStats K) : Res (FStats K) :=
  match fmtOf format with
  | none => .ok st
  | some fmt =>
    match (headerMap fmt).foldlM (writeStep E fmt) (writeInit E fmt st, []) with
    | .error e => .error e
    | .ok s => writeComment E fmt shCompat s

/-- A trace object: SEED codes and stats (start time and samples play no role here). -/
structure FTrace (K : Type) where
  net : Str
  sta : Str
  loc : Str
  cha : Str
  st : FStats K
  deriving DecidableEq, Repr

/-- `tr.id` -/
def FTrace.id (t : FTrace K) : Str := t.net ++ '.' :: (t.sta ++ '.' :: (t.loc ++ '.' :: t.cha))

/-- `RFTrace.__init__` for a trace or header (lines 476-487): station codes of Q files, then the
format specific header. -/
def initTrace (t : FTrace K) : Res (FTrace K) :=
  let t1 :=
    match t.st.format with
    | none => t
    | some f =>
      if upper f = "Q".toList ∧ t.sta.count '.' > 1 then
        match splitOn '.' t.sta with
        | n :: s :: l :: _ => { t with net := n, sta := s, loc := l }
        | _ => t
      else t
  match readHeader E t1.st with
  | .ok st => .ok { t1 with st := st }
  | .error e => .error e

/-- The heap of these trace objects. -/
abbrev FHeap (K : Type) := Nat → FTrace K

/-- Mutate the object `r`. -/
def FHeap.set (h : FHeap K) (r : Nat) (t : FTrace K) : FHeap K := fun r' => if r' = r then t else h r'

/-- The state seen by `RFStream.write`: trace objects and the module variable `obspyh5._INDEX`. -/
structure WState (K : Type) where
  heap : FHeap K
  index : Str

/-- First loop of `RFStream.write` (lines 197-200), state at the end or at the exception. -/
def writeLoop (format : Str) (shCompat : Bool) : FHeap K → List Nat → FHeap K × Option PyErr
  | h, [] => (h, none)
  | h, r :: s =>
    match writeHeader E format shCompat (h r).st with
    | .error e => (h, some e)
    | .ok st =>
      let t := { h r with st := st }
      let t := if upper format = "Q".toList then { t with sta := t.id } else t
      writeLoop format shCompat (h.set r t) s

/-- Last loop of `RFStream.write` (lines 212-214): `tr.stats.station.split('.')[1]`. -/
def restoreLoop : FHeap K → List Nat → FHeap K × Option PyErr
  | h, [] => (h, none)
  | h, r :: s =>
    match splitOn '.' (h r).sta with
    | _ :: c :: _ => restoreLoop (h.set r { h r with sta := c }) s
    | _ => (h, some .indexError)

/-- `_H5INDEX` (lines 101-107); the two index strings are given as they are after formatting. -/
def h5Index (key : Str) : Option Str :=
  if key = "rf".toList then
    some ("waveforms/{network}.{station}.{location}/{event_time.datetime:%Y-%m-%dT%H:%M:%S}/".toList ++
      "{channel}_{starttime.datetime:%Y-%m-%dT%H:%M:%S}_{endtime.datetime:%Y-%m-%dT%H:%M:%S}".toList)
  else if key = "profile".toList then some "waveforms/{channel[2]}_{box_pos}".toList
  else none

/-- `self.type` (lines 154-165): the common value of the `type` entries, `None` if there is none or if
there are different ones.  Values are compared as `Val`. -/
def streamType [DecidableEq K] (h : FHeap K) (s : List Nat) : Option (Val K) :=
  match (s.filterMap fun r => (h r).st.top.get "type") with
  | [] => none
  | v :: vs => if vs.all (fun w => w = v) then some v else none

/-- The local variable `index` of `RFStream.write` (lines 202-204). -/
def writeIndex [DecidableEq K] (h : FHeap K) (s : List Nat) : Option (Val K) :=
  match streamType h s with
  | some v => some v
  | none =>
    match s with
    | [] => none
    | r :: _ => if (h r).st.top.has "event_time" then some (.str "rf".toList) else none

/-- `RFStream.write(filename, format, sh_compat)` (lines 184-214).  `out` is the outcome of
`Stream.write` for the heap it sees: it may raise, but does not change the traces or the index; it is
recorded in the result what the writer was called with. -/
def write [DecidableEq K] (format : Str) (shCompat : Bool)
    (out : FHeap K → Str → List Nat → Option PyErr) (w : WState K) (s : List Nat) :
    WState K × Option PyErr :=
  match s with
  | [] => (w, none)
  | _ :: _ =>
    match writeLoop E format shCompat w.heap s with
    | (h, some e) => ({ w with heap := h }, some e)
    | (h, none) =>
      let h5 := upper format = "H5".toList
      let idx : Res (Option Str) :=
        if h5 then
          match writeIndex h s with
          | none => .ok none
          | some (.str []) => .ok none
          | some (.str k) => match h5Index k with
            | some i => .ok (some i)
            | none => .error .keyError
          | some _ => .error .keyError
        else .ok none
      match idx with
      | .error e => ({ w with heap := h }, some e)
      | .ok i =>
        let new := i.getD w.index
        match out h new s with
        | some e => (⟨h, new⟩, some e)
        | none =>
          if upper format = "Q".toList then
            let r := restoreLoop h s
            (⟨r.1, w.index⟩, r.2)
          else (⟨h, w.index⟩, none)

end
end Verif.Model.Headers
