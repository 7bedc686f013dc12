import Verif.Model.DeconvTime
import Verif.Py.Double

/-!
# Normalisation of receiver functions in double precision

`rf/deconvolve.py` lines 375-378 (time domain), 516-519 (iterative) and 678-681 (multitaper) are the same code.  Each operation is rounded to
53 bits (`fl64`; exponents are not bounded); the maximum of absolute values is exact.
-/

namespace Verif.Model.DoubleNorm
open Verif.Py Verif.Model

/-- deconvolve.py 375-378, 516-519, 678-681: `norm = 1 / np.max(np.abs(RF_list[normalize]))`, `RF *= norm` for all results
(`normalizeAll` with roundings; NaN for vanishing data is the outcome `other`). -/
def normalizeAll64 (rf : List (List ℚ)) (i : Int) : Res (List (List ℚ)) := do
  let x ← getItem rf i
  let m ← maxAbs x
  if m = 0 then .error .other
  else
    let norm := fl64 (1 / m)
    .ok (rf.map (·.map (fun v => fl64 (v * norm))))

end Verif.Model.DoubleNorm
