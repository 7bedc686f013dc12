import Verif.Model.Iter
import Verif.Model.Simple
import Verif.Model.Deconvolve

/-!
# Model of `rf/rfstream.py: RFStream` (lines 142-182, 216-430) and `RFTrace._seconds2utc` (612-622)

A stream object is the pair of the heap of trace objects and the list of references `self.traces`.
A computation that may raise returns the state at its end or at the moment of the exception.
-/

namespace Verif.Model
open Verif.Py

/-- State of a stream: heap of trace objects and `self.traces`. -/
abbrev SState (K : Type) := Heap K × List Nat

/-- Result of a method that changes a stream in place: final state and exception, if any. -/
abbrev SRes (K : Type) := SState K × Option PyErr

/-- Sequencing of statements: after an exception the rest is not executed. -/
def SRes.andThen {K : Type} (x : SRes K) (f : SState K → SRes K) : SRes K :=
  match x with
  | (s, some e) => (s, some e)
  | (s, none) => f s

/-- rfstream.py 155-160 `__get_unique_header`: the common value of the traces that have the
entry (a warning, which is not modelled, and `None` if there are several values). -/
def uniqueHeader {K : Type} [DecidableEq K] (h : Heap K) (s : List Nat) (k : String) :
    Option (Val K) :=
  match s.filterMap (fun r => (h r).ext.get k) with
  | [] => none
  | v :: vs => if vs.all (fun w => decide (w = v)) then some v else none

/-- rfstream.py 162-165, property `type`. -/
def streamType {K : Type} [DecidableEq K] (h : Heap K) (s : List Nat) : Option (Val K) :=
  uniqueHeader h s "type"

/-- rfstream.py 167-170, setter of `type`. -/
def setType {K : Type} (v : Str) (h : Heap K) (s : List Nat) : Heap K :=
  Heap.forEach (fun t => t.put "type" (.str v)) h s

/-- rfstream.py 172-177, property `method`: `phase[-1].upper()` (`IndexError` for an empty phase;
phases that are not strings have no `upper` or cannot be indexed). -/
def streamMethod {K : Type} [DecidableEq K] (h : Heap K) (s : List Nat) : Res (Option Str) :=
  match uniqueHeader h s "phase" with
  | none => .ok none
  | some (.str p) =>
    match p.getLast? with
    | none => .error .indexError
    | some c => .ok (some (upper [c]))
  | some _ => .error .typeError

/-- rfstream.py 179-182, setter of `method`. -/
def setMethod {K : Type} (v : Str) (h : Heap K) (s : List Nat) : Heap K :=
  Heap.forEach (fun t => t.put "phase" (.str v)) h s

/-- A time argument of `trim2`/`slice2`: `None`, `UTCDateTime` or a number of seconds. -/
inductive TArg (K : Type)
  | none
  | utc (x : K)
  | sec (x : K)
  deriving DecidableEq, Repr

/-- The `reftime` argument: `None`, `UTCDateTime` or the name of a stats entry. -/
inductive RefTime (K : Type)
  | none
  | utc (x : K)
  | key (k : String)
  deriving DecidableEq, Repr

/-- `self.stats[k]` for the entries that can be times; `KeyError` if missing. -/
def statsTime {K : Type} [Field K] (t : Trace K) (k : String) : Res (Val K) :=
  if k = "starttime" then .ok (.time t.start)
  else if k = "endtime" then .ok (.time t.endtime)
  else match t.ext.get k with
    | some v => .ok v
    | none => .error .keyError

/-- rfstream.py 612-622 `_seconds2utc` for a scalar argument (the list case of 616-617 is not used by
`trim2`).  A numeric stats entry gives a number again. -/
def seconds2utc {K : Type} [Field K] (t : Trace K) (x : TArg K) (ref : RefTime K) : Res (TArg K) :=
  match x with
  | .none => .ok .none
  | .utc u => .ok (.utc u)
  | .sec d =>
    match ref with
    | .none => .ok (.sec d)
    | .utc u => .ok (.utc (u + d))
    | .key k =>
      match statsTime t k with
      | .error e => .error e
      | .ok (.time u) => .ok (.utc (u + d))
      | .ok (.num u) => .ok (.sec (u + d))
      | .ok _ => .error .typeError

/-- rfstream.py 229-231 / 244-246: both window ends for one trace and the cut; `trim` is ObsPy's
`Trace.trim` with the remaining keyword arguments (`Trace.slice` cuts a copy in the same way). -/
def cutTrace {K : Type} [Field K] (trim : Trace K → TArg K → TArg K → Res (Trace K))
    (a b : TArg K) (ref : RefTime K) (t : Trace K) : Res (Trace K) :=
  match seconds2utc t a ref with
  | .error e => .error e
  | .ok t1 =>
    match seconds2utc t b ref with
    | .error e => .error e
    | .ok t2 => trim t t1 t2

/-- rfstream.py 216-233 `trim2`. -/
def trim2 {K : Type} [Field K] (trim : Trace K → TArg K → TArg K → Res (Trace K))
    (a b : TArg K) (ref : RefTime K) (st : SState K) : SRes K :=
  match Heap.forEachE (cutTrace trim a b ref) st.1 st.2 with
  | (h, some e) => ((h, st.2), some e)
  | (h, none) => ((h, st.2.filter (fun r => (h r).npts ≠ 0)), none)

/-- rfstream.py 235-250 `slice2`: the returned stream consists of new trace objects, given here by their
values; the traces of the stream itself are not changed. -/
def slice2 {K : Type} [Field K] (trim : Trace K → TArg K → TArg K → Res (Trace K))
    (a b : TArg K) (ref : RefTime K) (keepEmpty : Bool) (h : Heap K) : List Nat → Res (List (Trace K))
  | [] => .ok []
  | r :: s =>
    match cutTrace trim a b ref (h r) with
    | .error e => .error e
    | .ok t =>
      match slice2 trim a b ref keepEmpty h s with
      | .error e => .error e
      | .ok l => .ok (if !keepEmpty && t.npts == 0 then l else t :: l)

/-- ObsPy's limit of processing entries (`Trace._max_processing_info`). -/
def maxProcessing : Nat := 100

/-- ObsPy `Trace._internal_add_processing_info`: append to `stats.processing`, created if missing, as
long as the list is shorter than the limit.  An entry that is no list makes it raise; this
exception is swallowed in `_add_processing_info` (util.py 244-248). -/
def addInfo {K : Type} (info : Str) (t : Trace K) : Res (Trace K) :=
  match t.ext.get "processing" with
  | none => .ok (t.put "processing" (.list [info]))
  | some (.list l) =>
    .ok (if l.length < maxProcessing then t.put "processing" (.list (l ++ [info])) else t)
  | some _ => .error .attributeError

/-- util.py 243-248: after the call the entry is added to the traces of the returned stream; an
exception ends this loop silently. -/
def addInfoAll {K : Type} (info : Str) (h : Heap K) (s : List Nat) : Heap K :=
  (Heap.forEachE (addInfo info) h s).1

/-- External code used by `RFStream.rf`. -/
structure RfEnv (K : Type) where
  /-- ObsPy `tr.filter(**filter)` with the given keyword arguments (`Stream.filter` loops over traces) -/
  filter : Trace K → Res (Trace K)
  /-- ObsPy `tr.trim(t1, t2)` -/
  trim : Trace K → TArg K → TArg K → Res (Trace K)
  /-- ObsPy `tr.decimate(factor)` -/
  decimate : Int → Trace K → Res (Trace K)
  /-- ObsPy `stream3c.rotate(method)`, in place on the traces of the group -/
  rotate : Str → Heap K → List Nat → Heap K × Option PyErr
  /-- `str(UTCDateTime)` -/
  timeStr : K → Str
  /-- kernels and helpers of `deconvolve` -/
  dec : DeconvEnv K
  /-- processing entry of the calls of `deconvolve` -/
  infoDec : Str
  /-- processing entry of `rf` -/
  infoRf : Str

/-- Arguments of `rf` (rfstream.py 264-266).  `none` stands for every falsy value of `trim`,
`downsample`, `rotate`, `deconvolve`; `filter` tells if a filter is given.  `winsrc`, `rspComps`,
`normalize` are the entries of `kwargs` modelled in `deconvolve`. -/
structure RfArgs (K : Type) where
  method : Option Str := none
  filter : Bool := false
  trim : Option (TArg K × TArg K) := none
  downsample : Option K := none
  rotate : Option Str := some "ZNE->LQT".toList
  deconvolve : Option Str := some "time".toList
  srcComps : Option Str := none
  winsrc : Option (Win K) := none
  rspComps : Option Str := none
  normalize : Option Norm := none

section rf
variable {K : Type} [Field K] [LinearOrder K] [FloorRing K]

/-- util.py 152 `str(tr.stats['onset'])`. -/
def onsetKey (timeStr : K → Str) (h : Heap K) (r : Nat) : Res Str :=
  match (h r).ext.get "onset" with
  | some (.time x) => .ok (timeStr x)
  | some _ => .error .other
  | none => .error .keyError

/-- rfstream.py 306-308 `iter3c`. -/
def iter3c (timeStr : K → Str) (h : Heap K) (s : List Nat) : Res (List (List Nat)) :=
  iterMultipleComponents (fun r => (h r).id) (some (onsetKey timeStr h)) (.tuple [2, 3]) s

/-- A loop `for stream3c in iter3c(self): body(stream3c)`; the groups are determined before the first
execution of the body. -/
def groupBody (f : Heap K → List Nat → Heap K × Option PyErr) :
    Heap K → List (List Nat) → Heap K × Option PyErr
  | h, [] => (h, none)
  | h, g :: gs =>
    match f h g with
    | (h', some e) => (h', some e)
    | (h', none) => groupBody f h' gs

/-- `for stream3c in iter3c(self): body(stream3c)` -/
def forGroups (timeStr : K → Str) (f : Heap K → List Nat → Heap K × Option PyErr)
    (st : SState K) : SRes K :=
  match iter3c timeStr st.1 st.2 with
  | .error e => (st, some e)
  | .ok gs => let r := groupBody f st.1 gs; ((r.1, st.2), r.2)

/-- `for tr in self: tr <- f(tr)` where the body may raise. -/
def forTraces (f : Trace K → Res (Trace K)) (st : SState K) : SRes K :=
  let r := Heap.forEachE f st.1 st.2
  ((r.1, st.2), r.2)

/-- rfstream.py 310-311: the explicit method, else that of the stream. -/
def requestedMethod (h : Heap K) (s : List Nat) (m : Option Str) : Res (Option Str) :=
  match m with
  | some m => .ok (some m)
  | none => streamMethod h s

/-- rfstream.py 310-314: the method, or the exception. `method not in 'PS'` is a substring test. -/
def rfMethod (h : Heap K) (s : List Nat) (m : Option Str) : Res Str :=
  match requestedMethod h s m with
  | .error e => .error e
  | .ok none => .error .valueError
  | .ok (some m) => if isSubstr m "PS".toList then .ok m else .error .valueError

/-- rfstream.py 315-316. -/
def rfSource (a : RfArgs K) (m : Str) : Str :=
  match a.srcComps with
  | some c => c
  | none => if m = "P".toList then "LZ".toList else "QR".toList

/-- rfstream.py 317-318 -/
def filterStage (env : RfEnv K) (a : RfArgs K) (st : SState K) : SRes K :=
  if a.filter then forTraces env.filter st else (st, none)

/-- rfstream.py 319-320 -/
def trimStage (env : RfEnv K) (a : RfArgs K) (st : SState K) : SRes K :=
  match a.trim with
  | some (x, y) => trim2 env.trim x y (.key "onset") st
  | none => (st, none)

/-- rfstream.py 323-324: `tr.decimate(int(sr) // downsample)` if `downsample <= sr`. -/
def decimateTrace (env : RfEnv K) (d : K) (t : Trace K) : Res (Trace K) :=
  if d ≤ t.sr then env.decimate ⌊((⌊t.sr⌋ : Int) : K) / d⌋ t else .ok t

/-- rfstream.py 321-324 -/
def decimateStage (env : RfEnv K) (a : RfArgs K) (st : SState K) : SRes K :=
  match a.downsample with
  | some d => forTraces (decimateTrace env d) st
  | none => (st, none)

/-- rfstream.py 325-327 -/
def rotateStage (env : RfEnv K) (a : RfArgs K) (st : SState K) : SRes K :=
  match a.rotate with
  | some m => forGroups env.timeStr (env.rotate m) st
  | none => (st, none)

/-- rfstream.py 336-337: `tr.stats.channel.endswith('Q')` -/
def negQ (t : Trace K) : Trace K :=
  if t.cha.getLast? = some 'Q' then { t with data := t.data.map (fun (x : K) => -x) } else t

/-- rfstream.py 335-337 -/
def qStage (st : SState K) : SRes K := ((Heap.forEach negQ st.1 st.2, st.2), none)

/-- rfstream.py 340-343: arguments of the call of `deconvolve`. -/
def rfDeconvArgs (a : RfArgs K) (m d : Str) : DeconvArgs K :=
  { method := d, srcComps := rfSource a m, rspComps := a.rspComps,
    winsrc := (match a.winsrc with | some w => w | none => .letter m), normalize := a.normalize }

/-- rfstream.py 252-261 `RFStream.deconvolve`, decorated (deconvolve.py 23): the responses get a
processing entry.  `stream3c.traces` becomes the list of responses, which the caller drops. -/
def deconvolveCall (env : RfEnv K) (da : DeconvArgs K) (h : Heap K) (g : List Nat) :
    Heap K × Option PyErr :=
  match deconvolve env.dec h g da with
  | (h', .error e) => (h', some e)
  | (h', .ok rsp) => (addInfoAll env.infoDec h' rsp, none)

/-- rfstream.py 338-343 -/
def deconvolveStage (env : RfEnv K) (a : RfArgs K) (m : Str) (st : SState K) : SRes K :=
  match a.deconvolve with
  | some d => forGroups env.timeStr (deconvolveCall env (rfDeconvArgs a m d)) st
  | none => (st, none)

/-- rfstream.py 349-351 for one trace with onset. -/
def mirrorTrace (o : K) (t : Trace K) : Trace K :=
  ({ t with data := t.data.reverse }).put "onset" (.time (t.start + (t.endtime - o)))

/-- rfstream.py 348-351: data are reversed before `tr.stats.onset` is read. -/
def mirrorLoop : Heap K → List Nat → Heap K × Option PyErr
  | h, [] => (h, none)
  | h, r :: s =>
    match (h r).getTime "onset" with
    | some o => mirrorLoop (h.set r (mirrorTrace o (h r))) s
    | none => (h.set r { h r with data := (h r).data.reverse }, some .attributeError)

/-- rfstream.py 347-351 -/
def mirrorStage (m : Str) (st : SState K) : SRes K :=
  if m = "S".toList then
    let r := mirrorLoop st.1 st.2
    ((r.1, st.2), r.2)
  else (st, none)

/-- rfstream.py 352-354 -/
def labelStage (m : Str) (st : SState K) : SRes K :=
  let h := setType "rf".toList st.1 st.2
  match streamMethod h st.2 with
  | .error e => ((h, st.2), some e)
  | .ok m' => ((if m' ≠ some m then setMethod m h st.2 else h, st.2), none)

/-- Preparation of the data: filter, trim, downsample, rotate (rfstream.py 317-327). -/
def rfPrep (env : RfEnv K) (a : RfArgs K) (st : SState K) : SRes K :=
  (((filterStage env a st).andThen (trimStage env a)).andThen (decimateStage env a)).andThen
    (rotateStage env a)

/-- Everything `rf` does before the mirroring (rfstream.py 317-343). -/
def rfBefore (env : RfEnv K) (a : RfArgs K) (m : Str) (st : SState K) : SRes K :=
  ((rfPrep env a st).andThen qStage).andThen (deconvolveStage env a m)

/-- rfstream.py 263-355, the undecorated `rf`. -/
def rfBody (env : RfEnv K) (a : RfArgs K) (st : SState K) : SRes K :=
  match rfMethod st.1 st.2 a.method with
  | .error e => (st, some e)
  | .ok m => ((rfBefore env a m st).andThen (mirrorStage m)).andThen (labelStage m)

/-- `RFStream.rf` with its decorator (rfstream.py 263, util.py 225-249).  The method returns the
stream itself, whose state is the result here. -/
def rf (env : RfEnv K) (a : RfArgs K) (st : SState K) : SRes K :=
  (rfBody env a st).andThen fun st' => ((addInfoAll env.infoRf st'.1 st'.2, st'.2), none)

/-- rfstream.py 370-371: default phase.  `{'P': 's', 'S': 'p'}[self.method]` raises `KeyError`
for other methods and for `None`. -/
def moveoutPhase (h : Heap K) (s : List Nat) (phase : Option Str) : Res Str :=
  match phase with
  | some p => .ok p
  | none =>
    match streamMethod h s with
    | .error e => .error e
    | .ok none => .error .keyError
    | .ok (some m) =>
      if m = "P".toList then .ok (m ++ "s".toList)
      else if m = "S".toList then .ok (m ++ "p".toList)
      else .error .keyError

/-- rfstream.py 374-377 for one trace; a missing slowness raises `AttributeError` after the first
assignment (which cannot happen after a successful `model.moveout`, so the partial assignment is
not modelled). -/
def moveoutLabel (phase : Str) (ref : K) (t : Trace K) : Res (Trace K) :=
  match (t.put "moveout" (.str phase)).ext.get "slowness" with
  | none => .error .attributeError
  | some v => .ok (((t.put "moveout" (.str phase)).put "slowness_before_moveout" v).put
      "slowness" (.num ref))

/-- rfstream.py 357-378 with its decorator; the loaded model is `m` and is returned because its cache
may have changed. -/
def streamMoveout (sqrt : K → K) (find : List K → K → Nat) (nanCase : Trace K → Res (List K))
    (info : Str) (phase : Option Str) (ref : K) (m : Simple.SimpleModel K) (st : SState K) :
    Simple.SimpleModel K × SRes K :=
  match moveoutPhase st.1 st.2 phase with
  | .error e => (m, st, some e)
  | .ok p =>
    match Simple.moveout sqrt find nanCase p ref m st.1 st.2 with
    | (m', h, some e) => (m', (h, st.2), some e)
    | (m', h, none) =>
      match Heap.forEachE (moveoutLabel p ref) h st.2 with
      | (h, some e) => (m', (h, st.2), some e)
      | (h, none) => (m', (addInfoAll info h st.2, st.2), none)

end rf

section stack
variable {K : Type} [Field K] [LinearOrder K]

/-- `np.mean(rows, axis=0)`; rows of different lengths raise `ValueError`. -/
def npMean (rows : List (List K)) : Res (List K) :=
  match rows with
  | [] => .error .other
  | r :: rs =>
    if rs.all (fun q => q.length == r.length) then
      .ok ((rs.foldl (fun (a b : List K) => List.zipWith (· + ·) a b) r).map
        (fun (x : K) => x / ((rs.length + 1 : Nat) : K)))
    else .error .valueError

/-- rfstream.py 420-424: the entries copied from the first trace. -/
def stackEntries : List String :=
  ["phase", "moveout", "station_latitude", "station_longitude", "station_elevation", "processing"]

/-- rfstream.py 416-428: one stacked trace; `tr` is the first trace of the stream.  The
start time of a new trace is 0. -/
def stackOne (h : Heap K) (s : List Nat) (tr : Trace K) (ident : Str) : Res (Trace K) :=
  match splitOn '.' ident with
  | [net, sta, loc, cha] =>
    match npMean ((s.filter (fun r => (h r).id = ident)).map (fun r => (h r).data)) with
    | .error e => .error e
    | .ok data =>
      let ext : Dict (Val K) := stackEntries.filterMap fun k => (tr.ext.get k).map fun v => (k, v)
      let t2 : Trace K := { net := net, sta := sta, loc := loc, cha := cha, start := 0, sr := tr.sr,
                            data := data, ext := ext }
      match tr.ext.get "onset" with
      | some (.time o) => .ok (t2.put "onset" (.time (0 + (o - tr.start))))
      | some _ => .error .typeError
      | none => .ok t2
  | _ => .error .valueError

/-- rfstream.py 403-430 `stack` (undecorated).  `order` is the iteration order of the set of ids, which
Python does not specify.  `self[0]` of an empty stream raises `IndexError`.  The result consists of new
traces, given by their values. -/
def stack (order : List Str → List Str) (h : Heap K) (s : List Nat) : Res (List (Trace K)) :=
  match s with
  | [] => .error .indexError
  | r0 :: _ => (order (s.map (fun r => (h r).id))).mapM (stackOne h s (h r0))

end stack

end Verif.Model
