import Verif.Model.Deconvolve
import Verif.Py.Double

/-!
# The windows of the multitaper method in double precision (`rf/deconvolve.py` lines 571-649)

The model of the method (Model/DeconvMt) uses exact arithmetic.  Here the numbers of samples which follow from the options
`T` and `olap` are modelled in double precision; the arguments are doubles.
-/

namespace Verif.Model.DoubleWindows
open Verif.Py Verif.Model

/-- Lines 571, 574 `dt = 1./sampling_rate`, `ntap = int(round(T/dt))`. -/
def taperPoints (T sr : ℚ) : ℤ := pyRound (fl64 (T / fl64 (1 / sr)))

/-- Line 584 `ofac = 1 / (1 - olap)`. -/
def overlapFactor (olap : ℚ) : ℚ := fl64 (1 / fl64 (1 - olap))

/-- Lines 592, 623 `nwin = int(ofac*n/ntap)`, line 646 the same less 1, for `olap < 1`. -/
def windowCount (olap : ℚ) (n ntap : ℕ) : ℤ := ⌊fl64 (fl64 (overlapFactor olap * n) / ntap)⌋

/-- Lines 597, 625, 648 `js = int(j*ntap/ofac)`, for `olap < 1`. -/
def windowStart (olap : ℚ) (ntap j : ℕ) : ℤ := ⌊fl64 ((j * ntap : ℕ) / overlapFactor olap)⌋

end Verif.Model.DoubleWindows
