import Verif.Model.Stream
import Verif.Model.DeconvFreq
import Mathlib.Analysis.SpecialFunctions.Trigonometric.Basic
import Mathlib.Data.List.Sort

/-!
# Model of `rf/harmonics.py`

Exact real arithmetic.  `numpy.linalg.lstsq` is a parameter (real matrix; real or complex right hand side), with
its cut-off of small singular values it is only an approximation of the contract assumed in the theorems.  The
stream is a list of references into the heap; the function does not change the heap and returns new trace
objects, given by their values.
-/

namespace Verif.Model.Harmonics
open Verif.Py Verif.Model

/-- `numpy.linalg.lstsq(jac, rhs, rcond=None)[0]` for as many rows as entries of the right hand side. -/
structure LstsqEnv where
  real : List (List ℝ) → List ℝ → List ℝ
  cplx : List (List ℝ) → List ℂ → List ℂ

/-- Arguments of `harmonics` (line 11); `scalars` is the only keyword argument of the functions that build the
Jacobians. -/
structure HArgs where
  components : Str := "R".toList
  azim : ℝ := 0
  method : Str := "time".toList
  scalars : Option (ℝ × ℝ) := none

/-- `np.radians` -/
noncomputable def radians (x : ℝ) : ℝ := x * (Real.pi / 180)

/-- Lines 172-185 `decomp_one`: the row of the (transposed) matrix for one back azimuth. -/
noncomputable def rowOne (azim baz : ℝ) : List ℝ :=
  [1, Real.cos (radians (baz - azim)), Real.sin (radians (baz - azim)),
   Real.cos (2 * radians (baz - azim)), Real.sin (2 * radians (baz - azim))]

/-- Lines 148-157: row of the first component. -/
noncomputable def rowR (s0 azim baz : ℝ) : List ℝ :=
  [s0, Real.cos (radians (baz - azim)), Real.sin (radians (baz - azim)),
   Real.cos (2 * radians (baz - azim)), Real.sin (2 * radians (baz - azim)),
   0, Real.cos (radians (baz - azim)), Real.sin (radians (baz - azim)),
   Real.cos (2 * radians (baz - azim)), Real.sin (2 * radians (baz - azim))]

/-- Lines 158-167: row of the transverse component. -/
noncomputable def rowT (s1 azim baz : ℝ) : List ℝ :=
  [0, -Real.sin (radians (baz - azim)), Real.cos (radians (baz - azim)),
   -Real.sin (2 * radians (baz - azim)), Real.cos (2 * radians (baz - azim)),
   s1, Real.sin (radians (baz - azim)), -Real.cos (radians (baz - azim)),
   Real.sin (2 * radians (baz - azim)), -Real.cos (2 * radians (baz - azim))]

/-- Lines 81-84 with `decomp_two` and `decomp_one` (lines 136-185): `decomp_one` takes no `scalars`. -/
noncomputable def jacobian (a : HArgs) (two : Bool) (baz : List ℝ) : Res (List (List ℝ)) :=
  if two then
    let s := a.scalars.getD (3, 3 / 10)
    .ok (baz.map (rowR s.1 a.azim) ++ baz.map (rowT s.2 a.azim))
  else match a.scalars with
    | some _ => .error .typeError
    | none => .ok (baz.map (rowOne a.azim))

section
variable {K : Type} [Zero K] [LinearOrder K]

/-- `stream.select(channel='*c')`: ObsPy compares the upper case channel with the pattern. -/
def selectLast (h : Heap K) (s : List Nat) (c : Char) : List Nat :=
  s.filter fun r => decide ((upper (h r).cha).getLast? = some c)

/-- `tr.stats['event_time']` as sort key. -/
def timeKey (h : Heap K) (r : Nat) : K := ((h r).getTime "event_time").getD 0

/-- `.sort(['event_time'])`: stable sort; a missing entry raises `KeyError`, entries which are no times
`TypeError`. -/
def sortByTime (h : Heap K) (l : List Nat) : Res (List Nat) :=
  if l.any (fun r => !(h r).ext.has "event_time") then .error .keyError
  else if l.any (fun r => ((h r).getTime "event_time").isNone) then .error .typeError
  else .ok (l.insertionSort fun a b => timeKey h a ≤ timeKey h b)

/-- Lines 67-68: back azimuths. -/
def backAzimuths (h : Heap K) (l : List Nat) : Res (List K) :=
  l.mapM fun r =>
    match (h r).ext.get "back_azimuth" with
    | some (.num x) => .ok x
    | some _ => .error .typeError
    | none => .error .attributeError

/-- `np.array([tr.data for tr in ...])`: traces of different lengths raise `ValueError`. -/
def dataMatrix (h : Heap K) (l : List Nat) : Res (List (List K)) :=
  if l.all (fun r => (h r).data.length = ((l.head?.map fun q => (h q).data.length).getD 0)) then
    .ok (l.map fun r => (h r).data)
  else .error .valueError

end

/-- `rf[:, i]` -/
def column {α : Type} (rows : List (List α)) (i : Nat) : Res (List α) :=
  rows.mapM fun row => match row[i]? with | some x => .ok x | none => .error .indexError

/-- Lines 75-78: `np.fft.fft` of the rows; an empty row raises `ValueError`. -/
noncomputable def fftRows (rows : List (List ℝ)) : Res (List (List ℂ)) :=
  if rows.any (fun r => r.isEmpty) then .error .valueError
  else .ok (rows.map fun r => fft (toC r) r.length)

/-- Lines 96-100 for one sample: `lstsq` raises `LinAlgError` if the numbers of rows differ. -/
def fit {α : Type} (lstsq : List (List ℝ) → List α → List α) (jac : List (List ℝ)) (rows : List (List α)) (i : Nat) :
    Res (List α) :=
  match column rows i with
  | .error e => .error e
  | .ok rhs => if rhs.length = jac.length then .ok (lstsq jac rhs) else .error .other

/-- Lines 86-105: the harmonics, `nharm` arrays of `npts` samples.  `rows` are the traces of the first component
followed by those of the second one. -/
noncomputable def decompose (E : LstsqEnv) (freq : Bool) (jac : List (List ℝ)) (rowsR rowsT : List (List ℝ))
    (npts nharm : Nat) : Res (List (List ℝ)) :=
  if freq then do
    let r ← fftRows rowsR
    let t ← fftRows rowsT
    let cols ← (List.range npts).mapM (fit E.cplx jac (r ++ t))
    if npts = 0 then .error .valueError
    else .ok ((List.range nharm).map fun (k : Nat) =>
      (ifft (cols.map fun c => c.getD k 0) npts).map Complex.re)
  else do
    let cols ← (List.range npts).mapM (fit E.real jac (rowsR ++ rowsT))
    .ok ((List.range nharm).map fun (k : Nat) => cols.map fun c => c.getD k 0)

section
variable {K : Type}

/-- Lines 109-110: entries removed from the header of the first trace. -/
def poppedKeys : List String :=
  ["processing", "event_id", "event_depth", "event_latitude", "event_longitude",
   "event_magnitude", "inclination", "slowness", "event_time", "back_azimuth"]

/-- Lines 108-115: header of the first trace after removal of these entries, with the type. -/
def cleanTrace (t : Trace K) : Trace K :=
  ({ t with ext := poppedKeys.foldl (fun d k => d.erase k) t.ext }).put "type" (.str "harmonic".toList)

/-- Line 121 -/
def terms : List String := ["constant", "cos", "sin", "cos2", "sin2"]

/-- Lines 116-132 for the trace with index `i`. -/
def harmTrace (t : Trace K) (comps : Str) (two : Bool) (i : Nat) (d : List K) : Trace K :=
  let t1 := { t with data := d }
  if i < 5 then
    (({ t1 with cha := (toString i).toList, loc := "mod".toList }).put "term"
      (.str (terms.getD i "").toList)).put "components" (.str comps)
  else if two then
    let t2 := ({ t1 with cha := (toString (i - 5)).toList, loc := "unmod".toList }).put "term"
      (.str (terms.getD (i - 5) "").toList)
    if i = 9 then t2.put "components" (.str comps) else t2
  else t1

/-- Lines 107-133: the returned traces. -/
def harmOut (first : Trace K) (comps : Str) (two : Bool) (hd : List (List K)) : List (Trace K) :=
  hd.zipIdx.map fun p => harmTrace (cleanTrace first) comps two p.2 p.1

end

/-- Line 49: the supported components. -/
def supported : List Str := ["RT".toList, "R".toList, "Q".toList, "QT".toList, "T".toList]

/-- Lines 49-58: the checks, with the components in order. -/
def check (h : Heap ℝ) (s : List Nat) (a : HArgs) : Option PyErr :=
  if a.components ∉ supported then some .notImplemented
  else if a.components.any (fun c => (selectLast h s c).isEmpty) then some .valueError
  else if a.method ≠ "time".toList ∧ a.method ≠ "freq".toList then some .notImplemented
  else none

/-- Lines 71-72: the transverse traces of a call for two components. -/
noncomputable def transverse (h : Heap ℝ) (s : List Nat) (two : Bool) : Res (List Nat) :=
  if two then sortByTime h (selectLast h s 'T') else .ok []

/-- harmonics.py 10-133 `harmonics`, undecorated. -/
noncomputable def harmonicsBody (E : LstsqEnv) (a : HArgs) (h : Heap ℝ) (s : List Nat) : Res (List (Trace ℝ)) :=
  match check h s a with
  | some e => .error e
  | none => do
    let two := a.components.length = 2
    let lr ← sortByTime h (selectLast h s (a.components.headD ' '))
    let baz ← backAzimuths h lr
    let rowsR ← dataMatrix h lr
    let lt ← transverse h s two
    let rowsT ← dataMatrix h lt
    let freq := decide (a.method = "freq".toList)
    if freq && (rowsR ++ rowsT).any (fun r => r.isEmpty) then .error .valueError
    else
      let jac ← jacobian a two baz
      match s.head? with
      | none => .error .indexError
      | some f =>
        let hd ← decompose E freq jac rowsR rowsT (h f).npts (5 * a.components.length)
        .ok (harmOut (h f) a.components two hd)

/-- `harmonics` with its decorator (lines 10, util.py 225-249): the traces get a processing entry. -/
noncomputable def harmonics (E : LstsqEnv) (info : Str) (a : HArgs) (h : Heap ℝ) (s : List Nat) :
    Res (List (Trace ℝ)) :=
  match harmonicsBody E a h s with
  | .error e => .error e
  | .ok out => .ok (out.map fun t => match addInfo info t with | .ok t' => t' | .error _ => t)

end Verif.Model.Harmonics
