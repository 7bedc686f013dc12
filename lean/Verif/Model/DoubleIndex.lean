import Verif.Model.Simple
import Verif.Py.Double

/-!
# Numbers of samples computed from times in double precision

The other models use exact arithmetic.  Here the two places are modelled in double precision at which the package turns
a time into a number of samples by cutting off (`floor`, `int`) instead of rounding.  Sampling rates are doubles, times
are multiples of a microsecond.
-/

namespace Verif.Model.DoubleIndex
open Verif.Py Verif.Model Verif.Model.Simple

/-- Difference of two times as a double (`UTCDateTime.__sub__` of ObsPy: the difference in ns divided by 1e9; its
rounding to 6 digits changes nothing for multiples of a microsecond). -/
def secondsBetween (a b : ℚ) : ℚ := fl64 (a - b)

/-- rf/simple_model.py:166 `index0 = int(floor((st.onset - st.starttime) * st.sampling_rate))`. -/
def index0 (tr : Trace ℚ) (onset : ℚ) : ℤ := ⌊fl64 (secondsBetween onset tr.start * tr.sr)⌋

/-- rf/deconvolve.py:492 `mute_max = nfft - int(tshift*sampling_rate)` for doubles `tshift ≥ 0` and `sampling_rate`. -/
def muteMax (nfft : ℕ) (tshift sr : ℚ) : ℤ := nfft - ⌊fl64 (tshift * sr)⌋

/-- rf/simple_model.py:178-187 with the given value of `index0`; all else as in `Simple.moveoutP`. -/
def moveoutPAt {K : Type} [Field K] [LinearOrder K] (find : List K → K → Nat) (index0 : ℤ) (tr : Trace K) (onset : K)
    (t0 t1 : List K) : Res (List K) := do
  let a ← getItem t0 (-1)
  let b ← getItem t1 (-1)
  let i0 : Int := if a > b then index0 + 1 else index0
  let time0 := tr.start - onset + (i0 : K) * tr.delta
  let old := sliceFrom tr.data i0
  let t := (List.range (tr.npts - i0.toNat)).map fun (k : Nat) => time0 + (k : K) * tr.delta
  let newt ← interpAll find t t0 t1 (some 0) none
  let data ← interpAll find t newt old none (some 0)
  .ok (sliceTo tr.data i0 ++ data)

end Verif.Model.DoubleIndex
