import Verif.Py.Heap
import Mathlib.Algebra.Order.Floor.Ring
import Mathlib.Data.List.Sort
import Mathlib.Data.List.Lex
import Mathlib.Data.Char

/-!
# Model of `rf/profile.py`

`direct_geodetic` (geographiclib) and the test `crs.project_geometry(Point) within
crs.project_geometry(poly)` (shapely, cartopy) are parameters.  A polygon is the list of its corners.
-/

namespace Verif.Model.Profile
open Verif.Py

/-- profile.py 50-54, the dictionary `box['profile']`. -/
structure ProfileInfo (K : Type) where
  latlon : K × K
  azimuth : K
  length : K
  width : K
  deriving DecidableEq, Repr

/-- profile.py 26-29, a box; `poly` is the list of corners (longitude, latitude). -/
structure Box (K : Type) where
  poly : List (K × K)
  length : K
  pos : K
  latlon : K × K
  profile : Option (ProfileInfo K)
  deriving DecidableEq, Repr

section boxes
variable {K : Type} [Field K] [LinearOrder K] [FloorRing K]

/-- Python's `x % m` for floats with `m > 0`. -/
def pyMod (x m : K) : K := x - m * (⌊x / m⌋ : Int)

/-- profile.py 22-25: the loop over the corners. -/
def boxCorners (geo : K × K → K → K → K × K) : K × K → List (K × K) → List (K × K)
  | _, [] => []
  | latlon, (a, d) :: rest =>
    let next := geo latlon a d
    (next.2, next.1) :: boxCorners geo next rest

/-- profile.py 13-30 `_get_box`; `geo` is `direct_geodetic(latlon, azimuth, distance)`. -/
def getBox (geo : K × K → K → K → K × K) (latlon0 : K × K) (azimuth length width offset : K) : Box K :=
  let start := geo latlon0 azimuth offset
  { poly := boxCorners geo start
      [(pyMod (azimuth - 90) 360, width / 2), (azimuth, length),
       (pyMod (azimuth + 90) 360, width), (pyMod (azimuth + 180) 360, length)],
    length := length, pos := offset + length / 2,
    latlon := geo start azimuth (length / 2), profile := none }

/-- profile.py 46-56, loop over `i`; the argument is `bins[i:]`. -/
def boxLoop (geo : K × K → K → K → K × K) (latlon0 : K × K) (azimuth width : K) : List K → List (Box K)
  | a :: b :: rest =>
    getBox geo latlon0 azimuth (b - a) width a :: boxLoop geo latlon0 azimuth width (b :: rest)
  | _ => []

/-- profile.py 32-56 `get_profile_boxes`: the first box gets the profile dictionary. -/
def getProfileBoxes (geo : K × K → K → K → K × K) (latlon0 : K × K) (azimuth : K) (bins : List K)
    (width : K) : List (Box K) :=
  match boxLoop geo latlon0 azimuth width bins with
  | [] => []
  | b :: bs =>
    { b with profile := some { latlon := latlon0, azimuth := azimuth,
                               length := bins.getLast?.getD 0 - bins.head?.getD 0, width := width } } :: bs

end boxes

section profile
variable {K : Type} [Field K] [LinearOrder K]

/-- profile.py 59-72 `_find_box`.  Without `crs` the middle box is read first, so an empty list raises
`IndexError`; otherwise the first box that encloses the point, or `None`. -/
def findBox (within : K × K → List (K × K) → Bool) (boxes : List (Box K)) (crs : Bool) (p : K × K) :
    Res (Option (Box K)) :=
  if crs = false ∧ boxes = [] then .error .indexError
  else .ok (boxes.find? (fun b => within p b.poly))

/-- Key of the dictionary `stack` (line 93). -/
abbrev Key (K : Type) := K × Char

/-- Line 87: piercing point of a trace; a missing entry raises `AttributeError`. -/
def piercingPoint (t : Trace K) : Res (K × K) :=
  match t.getNum "pp_latitude", t.getNum "pp_longitude" with
  | some a, some b => .ok (a, b)
  | _, _ => .error .attributeError

/-- Lines 106-108: the entries copied from the first trace of a bin. -/
def copiedEntries : List String := ["slowness", "phase", "moveout", "processing"]

/-- Lines 95-112: a new trace of the profile.  Codes other than the channel are empty, the start time is 0
(defaults of ObsPy).  ObsPy copies the header deeply; the data array is shared with the input
until line 115 or 118 rebinds it (arrays are never changed in place).  A first box without
profile dictionary raises `KeyError`. -/
def newTrace (boxes : List (Box K)) (box : Box K) (comp : Char) (t : Trace K) : Res (Trace K) :=
  match boxes with
  | [] => .error .indexError
  | b0 :: _ =>
    match b0.profile with
    | none => .error .keyError
    | some pr =>
      let ext : Dict (Val K) :=
        [("box_pos", .num box.pos), ("box_length", .num box.length),
         ("box_latitude", .num box.latlon.1), ("box_longitude", .num box.latlon.2),
         ("profile_latitude", .num pr.latlon.1), ("profile_longitude", .num pr.latlon.2),
         ("profile_azimuth", .num pr.azimuth), ("profile_length", .num pr.length), ("num", .num 1)]
        ++ copiedEntries.filterMap fun k => (t.ext.get k).map fun v => (k, v)
      let t2 : Trace K := { net := [], sta := [], loc := [], cha := ['?', '?', comp], start := 0,
                            sr := t.sr, data := t.data, ext := ext }
      match t.ext.get "onset" with
      | some (.time o) => .ok (t2.put "onset" (.time (0 + (o - t.start))))
      | some _ => .error .typeError
      | none => .ok t2

/-- `a + b` of NumPy arrays: equal lengths, or one of them has length 1 (broadcasting); otherwise
`ValueError`. -/
def npAdd (a b : List K) : Res (List K) :=
  if a.length = b.length then .ok (List.zipWith (· + ·) a b)
  else match a, b with
    | [x], b => .ok (b.map (x + ·))
    | a, [y] => .ok (a.map (· + y))
    | _, _ => .error .valueError

/-- Local variables of `profile`: heap, the dictionary `stack` and the next free reference. -/
structure PState (K : Type) where
  heap : Heap K
  stack : List (Key K × Nat)
  next : Nat

/-- `stack[key]` -/
def lookup (st : List (Key K × Nat)) (k : Key K) : Option Nat :=
  (st.find? (fun e => e.1 = k)).map Prod.snd

/-- Lines 113-116: add the data of a trace to an existing profile trace. -/
def addTrace (t2 t : Trace K) : Res (Trace K) :=
  match npAdd t2.data t.data with
  | .error e => .error e
  | .ok d =>
    match t2.getNum "num" with
    | none => .error .attributeError
    | some n => .ok ({ t2 with data := d }.put "num" (.num (n + 1)))

/-- Lines 87-116: body of the loop for the trace object `r`. -/
def step (within : K × K → List (K × K) → Bool) (boxes : List (Box K)) (crs : Bool)
    (st : PState K) (r : Nat) : Res (PState K) :=
  let t := st.heap r
  match piercingPoint t with
  | .error e => .error e
  | .ok p =>
    match findBox within boxes crs p with
    | .error e => .error e
    | .ok none => .ok st
    | .ok (some box) =>
      match t.comp with
      | none => .error .indexError
      | some comp =>
        match lookup st.stack (box.pos, comp) with
        | none =>
          match newTrace boxes box comp t with
          | .error e => .error e
          | .ok t2 => .ok { heap := st.heap.set st.next t2,
                            stack := st.stack ++ [((box.pos, comp), st.next)], next := st.next + 1 }
        | some q =>
          match addTrace (st.heap q) t with
          | .error e => .error e
          | .ok t2 => .ok { st with heap := st.heap.set q t2 }

/-- Lines 86-116: the loop. -/
def loop (within : K × K → List (K × K) → Bool) (boxes : List (Box K)) (crs : Bool) :
    PState K → List Nat → Res (PState K)
  | st, [] => .ok st
  | st, r :: s =>
    match step within boxes crs st r with
    | .error e => .error e
    | .ok st' => loop within boxes crs st' s

/-- Line 118: `tr2.data = tr2.data / tr2.stats.num` (`num` is at least 1). -/
def divide (t : Trace K) : Trace K :=
  { t with data := t.data.map (fun (x : K) => x / (t.getNum "num").getD 1) }

/-- Line 128, ObsPy `Stream.sort(['channel', 'box_pos'])`: stable sorts by the keys in reversed
order. -/
def sortProfile (h : Heap K) (l : List Nat) : List Nat :=
  (l.insertionSort (fun a b => ((h a).getNum "box_pos").getD 0 ≤ ((h b).getNum "box_pos").getD 0)).insertionSort
    (fun a b => (h a).cha ≤ (h b).cha)

/-- profile.py 75-130 `profile` (undecorated).  `next` is a reference from which on the heap is free.
Returns the heap and the traces of the new stream.  If an exception is raised the new trace objects are
unreachable; all other objects are as before. -/
def profile (within : K × K → List (K × K) → Bool) (boxes : List (Box K)) (crs : Bool) (h : Heap K)
    (s : List Nat) (next : Nat) : Res (Heap K × List Nat) :=
  match loop within boxes crs ⟨h, [], next⟩ s with
  | .error e => .error e
  | .ok st =>
    let refs := st.stack.map Prod.snd
    let h1 := Heap.forEach divide st.heap refs
    let l := sortProfile h1 refs
    .ok (Heap.forEach (fun t => t.put "type" (.str "profile".toList)) h1 l, l)

end profile

end Verif.Model.Profile
