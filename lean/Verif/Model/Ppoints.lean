import Verif.Model.Stream

/-!
# Model of `load_model`, `SimpleModel.ppoint` (`rf/simple_model.py` lines 12-46, 68-78, 215-237),
`direct_geodetic` (`rf/util.py` 167-179) and `RFStream.ppoints` (`rf/rfstream.py` 380-401)

`numpy.loadtxt` and geographiclib are parameters.  A ray which is evanescent above the interface (NaN coordinates in
Python) is the outcome `other`.
-/

namespace Verif.Model.Ppoints
open Verif.Py Verif.Model

/-! ## Models and their cache -/

/-- Result of `np.loadtxt(fname, unpack=True)`: the columns, or a single row or column, which NumPy squeezes to
an array of numbers. -/
inductive Table (K : Type) where
  | columns (c : List (List K))
  | flat (x : List K)
  deriving DecidableEq, Repr

/-- `_MODEL_CACHE` (line 12): the model objects by name; they are shared by all callers, hence the cache holds
their current state. -/
abbrev Models (K : Type) := List (Str × Simple.SimpleModel K)

section cache
variable {K : Type}

/-- `_MODEL_CACHE[fname]` -/
def Models.get (c : Models K) (fname : Str) : Option (Simple.SimpleModel K) :=
  (c.find? (fun p => p.1 = fname)).map Prod.snd

/-- The object stored under a name is created or has changed. -/
def Models.put (c : Models K) (fname : Str) (m : Simple.SimpleModel K) : Models K :=
  (fname, m) :: c.filter (fun p => decide (p.1 ≠ fname))

variable [Field K] [LinearOrder K] [FloorRing K]

/-- `n.astype(int)`: rounding towards zero. -/
def toInt (x : K) : Int := if 0 ≤ x then ⌊x⌋ else ⌈x⌉

/-- Lines 39-45: four columns, or three columns if the first assignment raises `ValueError`.  Numbers instead of
arrays have no `len` (`TypeError` in `SimpleModel`). -/
def fromTable : Table K → Res (Simple.SimpleModel K)
  | .columns [z, vp, vs, n] => Simple.SimpleModel.init z vp vs (some (n.map toInt))
  | .columns [z, vp, vs] => Simple.SimpleModel.init z vp vs none
  | .columns _ => .error .valueError
  | .flat x => if x.length = 4 ∨ x.length = 3 then .error .typeError else .error .valueError

/-- Lines 35-37: the file that is read. -/
def modelFile (pkg fname : Str) : Str := if fname = "iasp91".toList then pkg else fname

/-- `load_model(fname)` (lines 15-46); `pkg` is the path of the file of the package, `loadtxt` the content of the
files at this moment. -/
def loadModel (pkg : Str) (loadtxt : Str → Res (Table K)) (c : Models K) (fname : Str) :
    Models K × Res (Simple.SimpleModel K) :=
  match c.get fname with
  | some m => (c, .ok m)
  | none =>
    match loadtxt (modelFile pkg fname) with
    | .error e => (c, .error e)
    | .ok t =>
      match fromTable t with
      | .error e => (c, .error e)
      | .ok m => (c.put fname m, .ok m)

end cache

/-! ## Sequences given as list or array -/

/-- An argument of `SimpleModel`: NumPy array or list. -/
inductive Seq (K : Type) where
  | array (l : List K)
  | list (l : List K)
  deriving DecidableEq, Repr

section seq
variable {K : Type}

/-- The items. -/
def Seq.items : Seq K → List K
  | .array l => l
  | .list l => l

/-- `x[:-1]` -/
def Seq.dropLast : Seq K → Seq K
  | .array l => .array l.dropLast
  | .list l => .list l.dropLast

/-- The velocity attributes of a model object after `SimpleModel(z, vp, vs, n)` (lines 68-78): arrays if `n` is
given (`np.hstack`), otherwise of the type of the argument. -/
def velAttr [Field K] (v : Seq K) (n : Option (List Int)) : Res (Seq K) :=
  match n with
  | none => .ok v.dropLast
  | some n =>
    match Simple.interpolateN v.items n with
    | .error e => .error e
    | .ok l => .ok (.array l.dropLast)

variable [Field K] [LinearOrder K] (sqrt : K → K)

/-- Lines 96-99 of `calculate_vertical_slowness` for one type of wave: `v ** (-2)` is not defined for lists. -/
def vertSlowSeq (c : Char) (v : Seq K) (slowness : K) (phase : Str) : Res (List (Option K)) :=
  if (upper phase).contains c then
    match v with
    | .array l => .ok (Simple.vertSlow sqrt c l slowness phase)
    | .list _ => .error .typeError
  else .ok (Simple.vertSlow sqrt c v.items slowness phase)

/-- `SimpleModel(z, vp, vs, n).calculate_delay_times(slowness, phase)` (lines 68-114) for arrays or lists. -/
def delayTimesOf (z vp vs : Seq K) (n : Option (List Int)) (slowness : K) (phase : Str) :
    Res (List (Option K)) := do
  let m ← Simple.SimpleModel.init z.items vp.items vs.items n
  let vp ← velAttr vp n
  let vs ← velAttr vs n
  let _ ← vertSlowSeq sqrt 'P' vp slowness phase
  let _ ← vertSlowSeq sqrt 'S' vs slowness phase
  Simple.delayTimes sqrt m slowness phase

end seq

/-! ## Piercing points -/

section pp
variable {K : Type} [Field K] [LinearOrder K] [FloorRing K] (sqrt : K → K)

/-- `Geodesic.WGS84.Direct(lat1, lon1, azi1, s12)`, distance in m; the result is `(lat2, lon2)`. -/
abbrev Geodesic (K : Type) := K → K → K → K → K × K

/-- `direct_geodetic(latlon, azi, dist)` (`rf/util.py` 167-179), distance in km. -/
def directGeodetic (geo : Geodesic K) (latlon : K × K) (azi dist : K) : K × K :=
  geo latlon.1 latlon.2 azi (dist * 1000)

/-- `stats[k]` used as a number: `KeyError` if absent. -/
def keyNum (d : Dict (Val K)) (k : String) : Res K :=
  match d.get k with
  | some (.num x) => .ok x
  | some _ => .error .typeError
  | none => .error .keyError

/-- Lines 229-233 of `SimpleModel.ppoint`. -/
def ppointCoords (geo : Geodesic K) (m : Simple.SimpleModel K) (depth : K) (phase : Str) (d : Dict (Val K)) :
    Res (K × K) :=
  match keyNum d "slowness" with
  | .error e => .error e
  | .ok slowness =>
    match Simple.ppointDistance sqrt m depth slowness phase with
    | .error e => .error e
    | .ok none => .error .other
    | .ok (some dr) =>
      match keyNum d "station_latitude" with
      | .error e => .error e
      | .ok lat =>
        match keyNum d "station_longitude" with
        | .error e => .error e
        | .ok lon =>
          match keyNum d "back_azimuth" with
          | .error e => .error e
          | .ok az => .ok (directGeodetic geo (lat, lon) az dr)

/-- `SimpleModel.ppoint(stats, depth, phase)` (lines 215-237) for the stats of a trace. -/
def ppoint (geo : Geodesic K) (m : Simple.SimpleModel K) (depth : K) (phase : Str) (t : Trace K) : Res (Trace K) :=
  match ppointCoords sqrt geo m depth phase t.ext with
  | .error e => .error e
  | .ok p =>
    .ok (((t.put "pp_depth" (.num depth)).put "pp_latitude" (.num p.1)).put "pp_longitude" (.num p.2))

/-- `(tr.stats.pp_latitude, tr.stats.pp_longitude)` -/
def ppPair (t : Trace K) : Res (K × K) :=
  match t.getNum "pp_latitude", t.getNum "pp_longitude" with
  | some a, some b => .ok (a, b)
  | _, _ => .error .attributeError

/-- Lines 395-396 of `ppoints`. -/
def ppPhase (h : Heap K) (s : List Nat) (phase : Option Str) : Res Str :=
  match phase with
  | some p => .ok p
  | none =>
    match streamMethod h s with
    | .error e => .error e
    | .ok none => .error .keyError
    | .ok (some m) =>
      if m = "P".toList then .ok "S".toList
      else if m = "S".toList then .ok "P".toList
      else .error .keyError

/-- `RFStream.ppoints(pp_depth, pp_phase, model)` (`rf/rfstream.py` 380-401): cache and heap afterwards, and the
returned coordinates. -/
def ppoints (geo : Geodesic K) (pkg : Str) (loadtxt : Str → Res (Table K)) (depth : K) (phase : Option Str)
    (model : Str) (c : Models K) (st : SState K) : Models K × Heap K × Res (List (K × K)) :=
  match ppPhase st.1 st.2 phase with
  | .error e => (c, st.1, .error e)
  | .ok p =>
    match loadModel pkg loadtxt c model with
    | (c, .error e) => (c, st.1, .error e)
    | (c, .ok m) =>
      match Heap.forEachE (ppoint sqrt geo m depth p) st.1 st.2 with
      | (h, some e) => (c, h, .error e)
      | (h, none) => (c, h, st.2.mapM fun r => ppPair (h r))

/-! ## RFStream.moveout with the cached model -/

/-- `RFStream.moveout(phase, ref, model)` (`rf/rfstream.py` 357-378) including `load_model`: the shared model
object may change. -/
def moveoutCall (find : List K → K → Nat) (nanCase : Trace K → Res (List K)) (info pkg : Str)
    (loadtxt : Str → Res (Table K)) (phase : Option Str) (ref : K) (model : Str) (c : Models K) (st : SState K) :
    Models K × SRes K :=
  match moveoutPhase st.1 st.2 phase with
  | .error e => (c, st, some e)
  | .ok _ =>
    match loadModel pkg loadtxt c model with
    | (c, .error e) => (c, st, some e)
    | (c, .ok m) =>
      match streamMoveout sqrt find nanCase info phase ref m st with
      | (m', r) => (c.put model m', r)

end pp

end Verif.Model.Ppoints
