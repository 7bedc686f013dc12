import Verif.Model.Profile
import Verif.Py.Heap
import Mathlib.Data.List.Sort

/-!
# Model of the maps (`rf/imaging.py` lines 190-286)

A map is the list of what is drawn into its axes.  Coordinates are always given as (longitude, latitude) of the plate
carrée projection (`transform=__pc()`, `crs=__pc()`); the transformation into the projection of the axes is cartopy's.
-/

namespace Verif.Model.Maps
open Verif.Py Verif.Model

variable {K : Type}

/-- Options of a drawing call. -/
abbrev Style (K : Type) := Dict (Val K)

/-- What is drawn. -/
inductive Elem (K : Type)
  | points (xy : List (K × K)) (style : Style K)
  | label (text : Str) (xy : K × K)
  | polygon (corners : List (K × K)) (style : Style K)
  deriving DecidableEq

/-- Projection of new axes: the one given, or azimuthal equidistant with a centre (longitude, latitude). -/
inductive Proj (K : Type)
  | given
  | centred (lon lat : K)
  deriving DecidableEq, Repr

/-- Axes with their content. -/
structure MapAx (K : Type) where
  proj : Proj K
  elems : List (Elem K)
  deriving DecidableEq

section median
variable [Field K] [LinearOrder K]

/-- `np.median` of a list that is not empty. -/
def median (l : List K) : K :=
  let s := l.insertionSort (· ≤ ·)
  if s.length % 2 = 1 then s.getD (s.length / 2) 0
  else (s.getD (s.length / 2 - 1) 0 + s.getD (s.length / 2) 0) / 2

/-- `_get_geoaxes(crs, latlons)` (lines 190-196): `crs` is given or not.  The median of no points is no pair
(`IndexError` in line 195). -/
def getGeoaxes (crs : Bool) (latlons : List (K × K)) : Res (MapAx K) :=
  if crs then .ok ⟨.given, []⟩
  else if latlons = [] then .error .indexError
  else .ok ⟨.centred (median (latlons.map Prod.snd)) (median (latlons.map Prod.fst)), []⟩

/-- The argument `inventory`: a stream, or networks of stations (latitude, longitude and code). -/
inductive Stations (K : Type)
  | stream (l : List (Trace K))
  | inventory (nets : List (List ((K × K) × Str)))

/-- Lines 217-218: attributes of a trace, `AttributeError` if one is missing. -/
def stationOf (t : Trace K) : Res ((K × K) × Str) :=
  match t.getNum "station_latitude", t.getNum "station_longitude" with
  | some a, some b => .ok ((a, b), t.sta)
  | _, _ => .error .attributeError

/-- Lines 215-223: the stations to draw.  `order` lists the elements of a set.  If a trace has no coordinates, the stream is
taken for an inventory: its traces are iterated like networks, and samples have no coordinates (`AttributeError`); without
any sample, and without any station at all, there is nothing to unpack (`ValueError`). -/
def stationList (order : List ((K × K) × Str) → List ((K × K) × Str)) : Stations K → Res (List ((K × K) × Str))
  | .stream l =>
    match l.mapM stationOf with
    | .ok [] => .error .valueError
    | .ok data => .ok (order data)
    | .error _ => if l.all (fun t => t.data.isEmpty) then .error .valueError else .error .attributeError
  | .inventory nets =>
    match nets.flatten with
    | [] => .error .valueError
    | l => .ok l

/-- `latlon[::-1]` -/
def lonlat (p : K × K) : K × K := (p.2, p.1)

/-- The default style of stations (line 226). -/
def stationStyle : Style K :=
  [("s", .num 200), ("marker", .str "v".toList), ("c", .str "darkred".toList), ("linewidth", .num (1 / 2)), ("zorder", .num 3)]

/-- The default style of piercing points (line 255). -/
def ppointStyle : Style K :=
  [("s", .num 50), ("marker", .str "x".toList), ("color", .str "k".toList), ("alpha", .num (1 / 5)), ("zorder", .num 2)]

/-- The default style of boxes (line 282). -/
def boxStyle : Style K :=
  [("facecolor", .str "none".toList), ("edgecolor", .str "0.8".toList), ("zorder", .num 1)]

/-- `if ax is None: ax = _get_geoaxes(crs, latlons)` (lines 224-225, 251-252). -/
def axesOr (ax : Option (MapAx K)) (crs : Bool) (latlons : List (K × K)) : Res (MapAx K) :=
  match ax with
  | some a => .ok a
  | none => getGeoaxes crs latlons

/-- `plot_stations(inventory, label_stations, ax, crs, **kwargs)` (lines 204-236).  Options that matplotlib
refuses, like a second `transform` or `color` beside the default `c`, are outside the model. -/
def plotStations (order : List ((K × K) × Str) → List ((K × K) × Str)) (inv : Stations K) (labels : Bool)
    (ax : Option (MapAx K)) (crs : Bool) (kwargs : Style K) : Res (MapAx K) :=
  match stationList order inv with
  | .error e => .error e
  | .ok l =>
    match axesOr ax crs (l.map Prod.fst) with
    | .error e => .error e
    | .ok a =>
      .ok { a with elems := a.elems ++ [.points (l.map fun p => lonlat p.1) (stationStyle.update kwargs)] ++
        (if labels then l.map fun p => .label p.2 (lonlat p.1) else []) }

/-- `if inventory is not None: plot_stations(inventory, label_stations=label_stations, ax=ax)` (lines 253-254, 278-279) -/
def withStations (order : List ((K × K) × Str) → List ((K × K) × Str)) (inv : Option (Stations K)) (labels : Bool)
    (a : MapAx K) : Res (MapAx K) :=
  match inv with
  | none => .ok a
  | some i => plotStations order i labels (some a) false []

/-- `plot_ppoints(ppoints, inventory, label_stations, ax, crs, **kwargs)` (lines 239-258); `scatter` needs points
(`TypeError`). -/
def plotPpoints (order : List ((K × K) × Str) → List ((K × K) × Str)) (pps : List (K × K)) (inv : Option (Stations K))
    (labels : Bool) (ax : Option (MapAx K)) (crs : Bool) (kwargs : Style K) : Res (MapAx K) :=
  match axesOr ax crs pps with
  | .error e => .error e
  | .ok a =>
    match withStations order inv labels a with
    | .error e => .error e
    | .ok a =>
      if pps = [] then .error .typeError
      else .ok { a with elems := a.elems ++ [.points (pps.map lonlat) (ppointStyle.update kwargs)] }

/-- `if ppoints is not None: plot_ppoints(ppoints, ax=ax)` (lines 280-281) -/
def withPpoints (order : List ((K × K) × Str) → List ((K × K) × Str)) (pps : Option (List (K × K))) (a : MapAx K) :
    Res (MapAx K) :=
  match pps with
  | none => .ok a
  | some l => plotPpoints order l none true (some a) false []

/-- The axes of a profile map (lines 275-277). -/
def profileAxes (boxes : List (Profile.Box K)) (ax : Option (MapAx K)) (crs : Bool) : Res (MapAx K) :=
  match ax with
  | some a => .ok a
  | none =>
    match boxes[boxes.length / 2]? with
    | none => .error .indexError
    | some b => getGeoaxes crs [b.latlon]

/-- `plot_profile_map(boxes, inventory, label_stations, ppoints, ax, crs, **kwargs)` (lines 261-286). -/
def plotProfileMap (order : List ((K × K) × Str) → List ((K × K) × Str)) (boxes : List (Profile.Box K))
    (inv : Option (Stations K)) (labels : Bool) (pps : Option (List (K × K))) (ax : Option (MapAx K)) (crs : Bool)
    (kwargs : Style K) : Res (MapAx K) :=
  match profileAxes boxes ax crs with
  | .error e => .error e
  | .ok a =>
    match withStations order inv labels a with
    | .error e => .error e
    | .ok a =>
      match withPpoints order pps a with
      | .error e => .error e
      | .ok a => .ok { a with elems := a.elems ++ boxes.map fun b => .polygon b.poly (boxStyle.update kwargs) }

end median

end Verif.Model.Maps
