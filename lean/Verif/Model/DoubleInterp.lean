import Verif.Model.Simple
import Verif.Py.Double

/-!
# Interpolation of move out in double precision (`rf/simple_model.py` lines 169-187)

`np.interp` with each operation rounded to 53 bits (`fl64`; exponents are not bounded).  Comparisons are exact.  NumPy computes the slopes
either before or within the loop, with the same operations.
-/

namespace Verif.Model.DoubleInterp
open Verif.Py Verif.Model Verif.Model.Simple

/-- One value of `np.interp` for non-empty `xp` (`Py.interp1` with roundings):
`slope = (fp[j+1] - fp[j]) / (xp[j+1] - xp[j])`, `slope * (x - xp[j]) + fp[j]`. -/
def interp64 (find : List ℚ → ℚ → Nat) (xp fp : List ℚ) (left right : Option ℚ) (x : ℚ) : ℚ :=
  if x < xp.getD 0 0 then left.getD (fp.getD 0 0)
  else if xp.getD (xp.length - 1) 0 < x then right.getD (fp.getD (xp.length - 1) 0)
  else
    let j := find xp x
    if j + 1 = xp.length then fp.getD j 0
    else if xp.getD j 0 = x then fp.getD j 0
    else
      let slope := fl64 (fl64 (fp.getD (j + 1) 0 - fp.getD j 0) / fl64 (xp.getD (j + 1) 0 - xp.getD j 0))
      fl64 (fl64 (slope * fl64 (x - xp.getD j 0)) + fp.getD j 0)

/-- `np.interp(xs, xp, fp, left, right)`; `ValueError` for empty `xp` or different lengths. -/
def interpAll64 (find : List ℚ → ℚ → Nat) (xs xp fp : List ℚ) (left right : Option ℚ) : Res (List ℚ) :=
  if xp.length ≠ fp.length then .error .valueError
  else if xp = [] then .error .valueError
  else .ok (xs.map (interp64 find xp fp left right))

/-- simple_model.py 173-174 and 184-186 in exact arithmetic: new times of the samples at times `t`, then the samples `old`, given at the
new times, at the times `t`.  The values outside of the tables are parameters. -/
def stretch2 (find : List ℚ → ℚ → Nat) (l1 r1 l2 r2 : Option ℚ) (t t0 t1 old : List ℚ) : Res (List ℚ × List ℚ) := do
  let newt ← interpAll find t t0 t1 l1 r1
  let data ← interpAll find t newt old l2 r2
  .ok (newt, data)

/-- The same lines in double precision. -/
def stretch2_64 (find : List ℚ → ℚ → Nat) (l1 r1 l2 r2 : Option ℚ) (t t0 t1 old : List ℚ) : Res (List ℚ × List ℚ) := do
  let newt ← interpAll64 find t t0 t1 l1 r1
  let data ← interpAll64 find t newt old l2 r2
  .ok (newt, data)

/-- simple_model.py 180 and 182: times of the samples from index `i0` on relative to the onset, each operation rounded. -/
def sampleTimes64 (i0 : ℤ) (tr : Trace ℚ) (onset : ℚ) : List ℚ :=
  let time0 := fl64 (fl64 (tr.start - onset) + fl64 ((i0 : ℚ) * fl64 tr.delta))
  (List.range (tr.npts - i0.toNat)).map fun (k : Nat) => fl64 (time0 + fl64 ((k : ℚ) * fl64 tr.delta))

/-- simple_model.py 178-187: the samples after the onset in double precision; sample times are rounded too. -/
def moveoutP64 (find : List ℚ → ℚ → Nat) (index0 : ℤ) (tr : Trace ℚ) (onset : ℚ) (t0 t1 : List ℚ) : Res (List ℚ) := do
  let a ← getItem t0 (-1)
  let b ← getItem t1 (-1)
  let i0 : Int := if a > b then index0 + 1 else index0
  let r ← stretch2_64 find (some 0) none none (some 0) (sampleTimes64 i0 tr onset) t0 t1 (sliceFrom tr.data i0)
  .ok (sliceTo tr.data i0 ++ r.2)

end Verif.Model.DoubleInterp
