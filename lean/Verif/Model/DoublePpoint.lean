import Verif.Model.DoubleDelay

/-!
# Distances of piercing points in double precision (`rf/simple_model.py` lines 190-213)

Rounding and library functions as in `Model/DoubleDelay.lean`.
-/

namespace Verif.Model.DoublePpoint
open Verif.Py Verif.Model Verif.Model.Simple Verif.Model.DoubleDelay

/-- rf/simple_model.py:205-208: `np.cumsum(self.dz * slowness / DEG2KM / q)`, from left to right; `q = 0` as NaN like in `ppCumsum`. -/
def ppSum64 (dz : List ℚ) (slowness : ℚ) (q : List (Option ℚ)) : List (Option ℚ) :=
  cumsum64 (some 0) (List.zipWith (fun d q => q.bind fun q =>
    if q = 0 then none else some (fl64 (fl64 (fl64 (d * slowness) / fl64 deg2km) / q))) dz q)

/-- rf/simple_model.py:203-209: `xp * count('P') + xs * count('S')`, where a letter that does not occur contributes 0. -/
def ppX64 (pw sq sqr : ℚ → ℚ) (m : SimpleModel ℚ) (slowness : ℚ) (phase : Str) : List (Option ℚ) :=
  let phase := upper phase
  let part (c : Char) (v : List ℚ) : List (Option ℚ) :=
    if phase.contains c then
      (ppSum64 m.dz slowness (vertSlow64 pw sq sqr c v slowness phase)).map (Option.map fun x => fl64 (x * (phase.count c : ℚ)))
    else m.dz.map fun _ => some 0
  List.zipWith (fun a b => match a, b with
    | some a, some b => some (fl64 (a + b))
    | _, _ => none) (part 'P' m.vp) (part 'S' m.vs)

/-- rf/simple_model.py:190-213 `ppoint_distance`, as `ppointDistance`. -/
def ppointDistance64 (pw sq sqr : ℚ → ℚ) (m : SimpleModel ℚ) (depth slowness : ℚ) (phase : Str) : Res (Option ℚ) :=
  if phase.length % 2 = 0 then .error .valueError
  else
    let x := ppX64 pw sq sqr m slowness phase
    match m.z.findIdx? (fun z => depth < z) with
    | none => .error .indexError
    | some i => do
      if ¬ ((upper phase).contains 'P' ∨ (upper phase).contains 'S') then throw .indexError
      let index : Int := (i : Int) - 1
      let x0 ← getItem x index
      let x1 ← getItem x (index + 1)
      let z0 ← getItem m.z index
      let z1 ← getItem m.z (index + 1)
      match x0, x1 with
      | some x0, some x1 => .ok (some (fl64 (x0 + fl64 (fl64 (fl64 (x1 - x0) * fl64 (depth - z0)) / fl64 (z1 - z0)))))
      | _, _ => .ok none

end Verif.Model.DoublePpoint
