import Verif.Py.Heap

/-!
# Model of `obj2stats` and `rfstats` (`rf/rfstream.py` lines 22-47, 60-69, 633-732)

Stats entries may be `None`, hence values are `Option (Val K)`.
-/

namespace Verif.Model.RfStats
open Verif.Py

/-- A stats dictionary; the value `none` is Python's `None`. -/
abbrev SDict (K : Type) := Dict (Option (Val K))

/-- Attributes of an ObsPy origin. -/
structure Origin (K : Type) where
  latitude : Option K
  longitude : Option K
  depth : Option K
  time : Option K
  deriving DecidableEq, Repr

/-- An ObsPy event: `preferred_origin()`, `origins`, `preferred_magnitude()`, `magnitudes` (the attribute
`mag` of each, possibly `None`) and `resource_id`.  An origin or magnitude object without any attribute is
falsy in ObsPy; such a preferred one is `none` here. -/
structure Event (K : Type) where
  preferred : Option (Origin K)
  origins : List (Origin K)
  prefMag : Option (Option K)
  mags : List (Option K)
  resId : Option Str
  deriving DecidableEq, Repr

/-- Station coordinates. -/
structure Station (K : Type) where
  latitude : K
  longitude : K
  elevation : K
  deriving DecidableEq, Repr

/-- What is used of a TauPy arrival. -/
structure Arrival (K : Type) where
  time : K
  inc : K
  slow : K
  deriving DecidableEq, Repr

/-- `dist_range` : the string 'default', `None`, or a pair. -/
inductive DistRange (K : Type) where
  | default
  | none
  | range (lo hi : K)
  deriving DecidableEq, Repr

/-- External functions: `gps2dist_azimuth` (distance in m, back azimuth), TauPy's
`get_travel_times` for a model, and `load_model(model).ppoint(stats, depth, phase)`, which changes the
stats in place and may raise. -/
structure RayEnv (K : Type) where
  gps : K → K → K → K → Res (K × K)
  arrivals : Str → K → K → Str → Res (List (Arrival K))
  ppoint : Str → SDict K → K → Str → SDict K × Option PyErr

variable {K : Type}

/-- `(event.preferred_origin() or event.origins[0])`, `IndexError` -> `ValueError` (lines 24-27). -/
def originOf (e : Event K) : Res (Origin K) :=
  match e.preferred with
  | some o => .ok o
  | none =>
    match e.origins with
    | o :: _ => .ok o
    | [] => .error .valueError

/-- `__get_event_origin_prop(h)` (lines 22-34), without the division for depths: `None` raises
`ValueError`. -/
def originProp (p : Origin K → Option K) (e : Event K) : Res K :=
  match originOf e with
  | .error err => .error err
  | .ok o =>
    match p o with
    | none => .error .valueError
    | some x => .ok x

/-- `__get_event_magnitude` (lines 36-40); an existing magnitude without value gives `None`. -/
def magnitudeOf (e : Event K) : Res (Option K) :=
  match e.prefMag with
  | some m => .ok m
  | none =>
    match e.mags with
    | m :: _ => .ok m
    | [] => .error .valueError

/-- The event part of `obj2stats` (lines 643-645) with the getters in the order of `_EVENT_GETTER`
(lines 63-69). -/
def eventStats [Field K] (e : Event K) : Res (SDict K) :=
  match originProp Origin.latitude e with
  | .error err => .error err
  | .ok lat =>
  match originProp Origin.longitude e with
  | .error err => .error err
  | .ok lon =>
  match originProp Origin.depth e with
  | .error err => .error err
  | .ok dep =>
  match magnitudeOf e with
  | .error err => .error err
  | .ok mag =>
  match originProp Origin.time e with
  | .error err => .error err
  | .ok t =>
    .ok [("event_latitude", some (.num lat)), ("event_longitude", some (.num lon)),
      ("event_depth", some (.num (dep / 1000))), ("event_magnitude", mag.map .num),
      ("event_time", some (.time t)), ("event_id", e.resId.map .str)]

/-- The station part of `obj2stats` (lines 646-648). -/
def stationStats (s : Station K) : SDict K :=
  [("station_latitude", some (.num s.latitude)), ("station_longitude", some (.num s.longitude)),
   ("station_elevation", some (.num s.elevation))]

/-- `obj2stats(event, station)` (lines 633-649). -/
def obj2stats [Field K] (e : Option (Event K)) (s : Option (Station K)) : Res (SDict K) :=
  match e with
  | none => .ok ((s.map stationStats).getD [])
  | some e =>
    match eventStats e with
    | .error err => .error err
    | .ok d => .ok (d ++ (s.map stationStats).getD [])

/-- `stats.<k>` used as a number: `AttributeError` if absent, `TypeError` if it is something else. -/
def numAttr (st : SDict K) (k : String) : Res K :=
  match st.get k with
  | none => .error .attributeError
  | some (some (.num x)) => .ok x
  | some _ => .error .typeError

/-- `stats.<k>` used as a time. -/
def timeAttr (st : SDict K) (k : String) : Res K :=
  match st.get k with
  | none => .error .attributeError
  | some (some (.time x)) => .ok x
  | some _ => .error .typeError

/-- The distance range used (lines 698-701): with 'default', `phase.upper() in 'PS'` is a substring
test. -/
def effRange [Field K] (phase : Str) : DistRange K → Res (Option (K × K))
  | .none => .ok none
  | .range lo hi => .ok (some (lo, hi))
  | .default =>
    if isSubstr (upper phase) "PS".toList then
      if upper phase = "P".toList then .ok (some (30, 90)) else .ok (some (50, 85))
    else .error .valueError

section
variable [Field K] [LinearOrder K] (E : RayEnv K)

/-- Arguments of `rfstats` apart from `obj` (lines 652-654). -/
structure Args (K : Type) where
  event : Option (Event K)
  station : Option (Station K)
  phase : Str
  distRange : DistRange K
  ttModel : Str
  ppDepth : Option K
  ppPhase : Option Str
  model : Str

/-- `DEG2KM = 111.2` (`rf/util.py` line 14). -/
def deg2km : K := 1112 / 10

/-- Distance in degrees and back azimuth from the entries of the stats (lines 705-709). -/
def distBaz (st : SDict K) : Res (K × K) :=
  match numAttr st "station_latitude" with
  | .error e => .error e
  | .ok slat =>
  match numAttr st "station_longitude" with
  | .error e => .error e
  | .ok slon =>
  match numAttr st "event_latitude" with
  | .error e => .error e
  | .ok elat =>
  match numAttr st "event_longitude" with
  | .error e => .error e
  | .ok elon =>
  match E.gps slat slon elat elon with
  | .error e => .error e
  | .ok (d, baz) => .ok (d / 1000 / deg2km, baz)

/-- The `pp_phase` used (lines 729-730): `phase.upper().endswith('P')`. -/
def ppPhaseOf (a : Args K) : Str :=
  match a.ppPhase with
  | some p => p
  | none => if (upper a.phase).getLast? = some 'P' then "S".toList else "P".toList

/-- `rfstats` from the travel times on (lines 712-732): stats at the end or at the exception. -/
def rfstatsRay (a : Args K) (dist baz : K) (st : SDict K) : SDict K × Res Bool :=
  match numAttr st "event_depth" with
  | .error e => (st, .error e)
  | .ok dep =>
  match E.arrivals a.ttModel dep dist a.phase with
  | .error e => (st, .error e)
  | .ok [] => (st, .error .other)
  | .ok (arr :: _) =>
  match timeAttr st "event_time" with
  | .error e => (st, .error e)
  | .ok t =>
    let st1 := st.update [("distance", some (.num dist)), ("back_azimuth", some (.num baz)),
      ("inclination", some (.num arr.inc)), ("onset", some (.time (t + arr.time))),
      ("slowness", some (.num arr.slow)), ("phase", some (.str a.phase))]
    match a.ppDepth with
    | none => (st1, .ok true)
    | some z =>
      match E.ppoint a.model st1 z (ppPhaseOf a) with
      | (st2, none) => (st2, .ok true)
      | (st2, some e) => (st2, .error e)

/-- The stats after `stats.update(obj2stats(...))`, done only if event and station are both given
(lines 702-704). -/
def rfInput (a : Args K) (st : SDict K) : Res (SDict K) :=
  match a.event, a.station with
  | some ev, some sta =>
    match obj2stats (some ev) (some sta) with
    | .error e => .error e
    | .ok d => .ok (st.update d)
  | _, _ => .ok st

/-- `rfstats(obj, ...)` for a stats object (lines 698-732).  The result `.ok true` is the stats object,
`.ok false` is `None`; the first component is the state of the stats object, which is changed in place.
For `obj=None` take the empty dictionary. -/
def rfstats (a : Args K) (st : SDict K) : SDict K × Res Bool :=
  match effRange a.phase a.distRange with
  | .error e => (st, .error e)
  | .ok rng =>
    match rfInput a st with
    | .error e => (st, .error e)
    | .ok st1 =>
      match distBaz E st1 with
      | .error e => (st1, .error e)
      | .ok (dist, baz) =>
        match rng with
        | some (lo, hi) =>
          if lo ≤ dist ∧ dist ≤ hi then rfstatsRay E a dist baz st1 else (st1, .ok false)
        | none => rfstatsRay E a dist baz st1

/-- The loop of `rfstats` for a stream (lines 686-697): stats of the trace objects in a heap, kept traces in
order; an exception leaves `stream.traces` alone. -/
def rfstatsLoop (a : Args K) : (Nat → SDict K) → List Nat → List Nat →
    (Nat → SDict K) × Res (List Nat)
  | h, acc, [] => (h, .ok acc)
  | h, acc, r :: s =>
    match rfstats E a (h r) with
    | (st, .ok true) => rfstatsLoop a (fun r' => if r' = r then st else h r') (acc ++ [r]) s
    | (st, .ok false) => rfstatsLoop a (fun r' => if r' = r then st else h r') acc s
    | (st, .error e) => (fun r' => if r' = r then st else h r', .error e)

/-- `rfstats(stream, ...)`: final stats, final `stream.traces` and exception. -/
def rfstatsStream (a : Args K) (h : Nat → SDict K) (s : List Nat) :
    (Nat → SDict K) × List Nat × Option PyErr :=
  match rfstatsLoop E a h [] s with
  | (h', .ok t) => (h', t, none)
  | (h', .error e) => (h', s, some e)

end
end Verif.Model.RfStats
