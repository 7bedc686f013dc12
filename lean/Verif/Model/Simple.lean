import Verif.Py.Heap
import Verif.Py.Interp
import Mathlib.Algebra.Order.Floor.Ring

/-!
# Model of `rf/simple_model.py`

Numbers are elements of an ordered field `K`; `np.sqrt` on non-negative numbers is the parameter
`sqrt` (`Real.sqrt` for `K = ℝ`).  `NaN` is `none`.  Velocities are assumed to be non-zero (NumPy
would give `inf`).
-/

namespace Verif.Model.Simple
open Verif.Py

/-- rf/util.py:14 `DEG2KM = 111.2` -/
def deg2km {K : Type} [Field K] : K := 1112 / 10

section model
variable {K : Type} [Field K]

/-- `np.linspace(a, b, num, endpoint=False)` -/
def linspaceOpen (a b : K) (num : Nat) : List K :=
  (List.range num).map fun (k : Nat) => a + (k : K) * ((b - a) / (num : K))

/-- rf/simple_model.py:50-52, the loop over `i`; the second argument is `n[i+1:]`. -/
def interpolateGo : List K → List Int → Res (List K)
  | [], _ => .error .indexError
  | [a], _ => .ok [a]
  | _ :: _ :: _, [] => .error .indexError
  | a :: b :: r, m :: ms =>
    if m + 1 < 0 then .error .valueError
    else match interpolateGo (b :: r) ms with
      | .ok rest => .ok (linspaceOpen a b (m + 1).toNat ++ rest)
      | .error e => .error e

/-- rf/simple_model.py:49-52 `_interpolate_n(val, n)`. `val[-1]` of an empty array and a too short
`n` raise `IndexError`, `linspace` raises `ValueError` for a negative number. -/
def interpolateN (val : List K) (n : List Int) : Res (List K) := interpolateGo val n.tail

/-- `np.diff` -/
def diff (l : List K) : List K := List.zipWith (fun a b => b - a) l l.tail

/-- rf/simple_model.py:55-78, attributes of a model instance.  `tRef` is the cache
`self.t_ref` (phase name → delay times). -/
structure SimpleModel (K : Type) where
  z : List K
  dz : List K
  vp : List K
  vs : List K
  tRef : List (Str × List (Option K))
  deriving DecidableEq, Repr

/-- rf/simple_model.py:68-78 `SimpleModel.__init__` for arrays. -/
def SimpleModel.init (z vp vs : List K) (n : Option (List Int)) : Res (SimpleModel K) := do
  if ¬ (z.length = vp.length ∧ vp.length = vs.length) then throw .assertionError
  let (z, vp, vs) ← match n with
    | none => .ok (z, vp, vs)
    | some n => do
      let z ← interpolateN z n
      let vp ← interpolateN vp n
      let vs ← interpolateN vs n
      .ok (z, vp, vs)
  .ok { z := z.dropLast, dz := diff z, vp := vp.dropLast, vs := vs.dropLast, tRef := [] }

variable [LinearOrder K] (sqrt : K → K)

/-- rf/simple_model.py:91, 97/99: `np.sqrt(v ** (-2) - hslow ** 2)` for one layer (NaN if negative). -/
def vslow (v slowness : K) : Option K :=
  let x := (v⁻¹) ^ 2 - (slowness / deg2km) ^ 2
  if x < 0 then none else some (sqrt x)

/-- rf/simple_model.py:80-100 `calculate_vertical_slowness`; the letter `c` is `'P'` or `'S'`. If the
letter is not in the phase the scalar 0 is returned (here broadcast). -/
def vertSlow (c : Char) (v : List K) (slowness : K) (phase : Str) : List (Option K) :=
  v.map fun v => if (upper phase).contains c then vslow sqrt v slowness else some 0

/-- rf/simple_model.py:112-113, one layer; NaN propagates. -/
def layerDelay (phase : Str) (qp qs : Option K) (dz : K) : Option K :=
  match qp, qs with
  | some a, some b =>
    some ((a * (phase.count 'P' : K) + b * (phase.count 'S' : K)
      - 2 * (if phase.head? = some 'P' then a else b)) * dz)
  | _, _ => none

/-- `np.cumsum` with NaN, starting from the accumulated value. -/
def cumsumO : Option K → List (Option K) → List (Option K)
  | _, [] => []
  | acc, x :: xs =>
    let s := match acc, x with
      | some a, some b => some (a + b)
      | _, _ => none
    s :: cumsumO s xs

/-- rf/simple_model.py:102-114 `calculate_delay_times`; `phase[0]` of the empty string raises. -/
def delayTimes (m : SimpleModel K) (slowness : K) (phase : Str) : Res (List (Option K)) :=
  let phase := upper phase
  if phase = [] then .error .indexError
  else
    let qp := vertSlow sqrt 'P' m.vp slowness phase
    let qs := vertSlow sqrt 'S' m.vs slowness phase
    .ok (cumsumO (some 0) ((List.zip qp (List.zip qs m.dz)).map
      fun x => layerDelay phase x.1 x.2.1 x.2.2))

/-- `self.t_ref[phase]` -/
def lookupRef (c : List (Str × List (Option K))) (phase : Str) : Option (List (Option K)) :=
  (c.find? (fun p => p.1 = phase)).map Prod.snd

/-- rf/simple_model.py:145: index of the first NaN, if any. -/
def firstNaN (t : List (Option K)) : Option Nat :=
  t.findIdx? (fun x => x.isNone)

/-- `-t` elementwise -/
def negO (t : List (Option K)) : List (Option K) := t.map (Option.map fun x => -x)

/-- rf/simple_model.py:150: `np.hstack((-t[1:10][::-1], t))` -/
def mirror (t : List (Option K)) : List (Option K) := (negO (slice t 1 10)).reverse ++ t

/-- rf/simple_model.py:116-151 `stretch_delay_times`; returns the model with the possibly
extended cache and the two tables. -/
def stretch (m : SimpleModel K) (slowness : K) (phase : Str) (ref : K) :
    SimpleModel K × Res (List (Option K) × List (Option K)) :=
  if phase.length % 2 = 1 then (m, .error .valueError)
  else
    let phase := upper phase
    let r : SimpleModel K × Res (List (Option K)) :=
      match lookupRef m.tRef phase with
      | some t => (m, .ok t)
      | none =>
        match delayTimes sqrt m ref phase with
        | .ok t => ({ m with tRef := m.tRef ++ [(phase, t)] }, .ok t)
        | .error e => (m, .error e)
    match r.2 with
    | .error e => (r.1, .error e)
    | .ok tref =>
      match delayTimes sqrt m slowness phase with
      | .error e => (r.1, .error e)
      | .ok t =>
        let tref := if phase.head? = some 'S' then negO tref else tref
        let t := if phase.head? = some 'S' then negO t else t
        let index : Int := match firstNaN t with
          | some i => (i : Int) - 1
          | none => t.length
        (r.1, .ok (mirror (sliceTo t index), mirror (sliceTo tref index)))

/-- All entries if none is NaN. -/
def allSome {α : Type} : List (Option α) → Option (List α)
  | [] => some []
  | none :: _ => none
  | some a :: l => (allSome l).map (a :: ·)

variable [FloorRing K] (find : List K → K → Nat)

/-- rf/simple_model.py:169 `phase[0].upper() == 'S' and len(phase) > 3` -/
def isSMultiple (phase : Str) : Bool := (upper phase).head? = some 'S' && decide (3 < phase.length)

/-- rf/simple_model.py:166 `index0` -/
def index0 (tr : Trace K) (onset : K) : Int := ⌊(onset - tr.start) * tr.sr⌋

/-- rf/simple_model.py:170-176: samples before the onset of an S multiple. -/
def moveoutS (tr : Trace K) (onset : K) (t0 t1 : List K) : Res (List K) := do
  let i0 := index0 tr onset
  let n := i0.toNat
  let time0 := tr.start - onset + (i0 : K) * tr.delta
  let old := (sliceTo tr.data i0).reverse
  let mt := (List.range n).map fun (k : Nat) => -(-time0 - (k : K) * tr.delta)
  let newt ← interpAll find mt (t0.map fun x => -x) (t1.map fun x => -x) (some 0) (some 0)
  let newt := newt.map fun x => -x
  let data ← interpAll find mt (newt.map fun x => -x) old (some 0) (some 0)
  .ok (data.reverse ++ sliceFrom tr.data i0)

/-- rf/simple_model.py:178-187: samples after the onset for all other phases.  `t0[-1]` of an empty
table raises `IndexError`. -/
def moveoutP (tr : Trace K) (onset : K) (t0 t1 : List K) : Res (List K) := do
  let a ← getItem t0 (-1)
  let b ← getItem t1 (-1)
  let i0 : Int := if a > b then index0 tr onset + 1 else index0 tr onset
  let time0 := tr.start - onset + (i0 : K) * tr.delta
  let old := sliceFrom tr.data i0
  let t := (List.range (tr.npts - i0.toNat)).map fun (k : Nat) => time0 + (k : K) * tr.delta
  let newt ← interpAll find t t0 t1 (some 0) none
  let data ← interpAll find t newt old none (some 0)
  .ok (sliceTo tr.data i0 ++ data)

/-- rf/simple_model.py:169-187 for given tables. -/
def moveoutData (tr : Trace K) (onset : K) (phase : Str) (t0 t1 : List K) : Res (List K) :=
  if isSMultiple phase then moveoutS find tr onset t0 t1 else moveoutP find tr onset t0 t1

/-- rf/simple_model.py:161-187, body of the loop of `moveout` for one trace; `nanCase` stands for the
behaviour with NaN in the tables (which NumPy does not specify). Missing `onset`
or `slowness` entries raise `AttributeError`. -/
def moveoutStep (nanCase : Trace K → Res (List K)) (phase : Str) (ref : K)
    (m : SimpleModel K) (tr : Trace K) : SimpleModel K × Res (Trace K) :=
  match tr.getTime "onset" with
  | none => (m, .error .attributeError)
  | some onset =>
    if ¬ (tr.start ≤ onset ∧ onset ≤ tr.endtime) then (m, .error .valueError)
    else match tr.getNum "slowness" with
      | none => (m, .error .attributeError)
      | some slowness =>
        match stretch sqrt m slowness phase ref with
        | (m', .error e) => (m', .error e)
        | (m', .ok (t0, t1)) =>
          let r := match allSome t0, allSome t1 with
            | some t0, some t1 => moveoutData find tr onset phase t0 t1
            | _, _ => nanCase tr
          match r with
          | .error e => (m', .error e)
          | .ok d => (m', .ok { tr with data := d })

/-- rf/simple_model.py:153-188 `moveout(stream, phase, ref)`: in-place loop over the traces; the
result is the state of model and heap at the end or at the moment of the exception. -/
def moveout (nanCase : Trace K → Res (List K)) (phase : Str) (ref : K) :
    SimpleModel K → Heap K → List Nat → SimpleModel K × Heap K × Option PyErr
  | m, h, [] => (m, h, none)
  | m, h, r :: s =>
    match moveoutStep sqrt find nanCase phase ref m (h r) with
    | (m', .ok tr) => moveout nanCase phase ref m' (h.set r tr) s
    | (m', .error e) => (m', h, some e)

/-- rf/simple_model.py:205-208: `np.cumsum(self.dz * slowness / DEG2KM / q)`; division by
`q = 0` (inf or NaN in NumPy) gives `none` here, like NaN. -/
def ppCumsum (dz : List K) (slowness : K) (q : List (Option K)) : List (Option K) :=
  cumsumO (some 0) (List.zipWith (fun d q => q.bind fun q =>
    if q = 0 then none else some (d * slowness / deg2km / q)) dz q)

/-- rf/simple_model.py:209: `xp * count('P') + xs * count('S')` where a letter that does not occur
contributes 0. -/
def ppX (m : SimpleModel K) (slowness : K) (phase : Str) : List (Option K) :=
  let phase := upper phase
  let part (c : Char) (v : List K) : List (Option K) :=
    if phase.contains c then
      (ppCumsum m.dz slowness (vertSlow sqrt c v slowness phase)).map
        (Option.map fun x => x * (phase.count c : K))
    else m.dz.map fun _ => some 0
  List.zipWith (fun a b => match a, b with
    | some a, some b => some (a + b)
    | _, _ => none) (part 'P' m.vp) (part 'S' m.vs)

/-- rf/simple_model.py:190-213 `ppoint_distance`; `IndexError` if no tabulated depth is larger than
`depth`; index `-1` wraps around as in Python. The result is `none` for NaN. If the phase contains
neither P nor S, `x` is the float 0 and indexing it raises `IndexError`. -/
def ppointDistance (m : SimpleModel K) (depth slowness : K) (phase : Str) : Res (Option K) :=
  if phase.length % 2 = 0 then .error .valueError
  else
    let x := ppX sqrt m slowness phase
    match m.z.findIdx? (fun z => depth < z) with
    | none => .error .indexError
    | some i => do
      if ¬ ((upper phase).contains 'P' ∨ (upper phase).contains 'S') then throw .indexError
      let index : Int := (i : Int) - 1
      let x0 ← getItem x index
      let x1 ← getItem x (index + 1)
      let z0 ← getItem m.z index
      let z1 ← getItem m.z (index + 1)
      match x0, x1 with
      | some x0, some x1 => .ok (some (x0 + (x1 - x0) * (depth - z0) / (z1 - z0)))
      | _, _ => .ok none

end model

end Verif.Model.Simple
