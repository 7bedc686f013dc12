import Verif.Model.Deconvolve
import Verif.Model.DoubleIndex

/-!
# Onset and shift of `deconvolve` in double precision (rf/deconvolve.py 13-20, 96-100 and 126-127)

Sampling rates and windows are doubles, times are whole numbers of nanoseconds.
-/

namespace Verif.Model.DoubleSnap
open Verif.Py Verif.Model Verif.Model.DoubleIndex

/-- `src.times()` (ObsPy: `np.arange(npts) / sampling_rate`). -/
def times64 (t : Trace ℚ) : List ℚ := (List.range t.npts).map fun (j : Nat) => fl64 ((j : ℚ) / t.sr)

/-- deconvolve.py 98: `idx = __find_nearest(src.times(), src.stats.onset - src.stats.starttime)`. -/
def snapIndex (t : Trace ℚ) (onset : ℚ) : Res Nat := findNearest (times64 t) (secondsBetween onset t.start)

/-- ObsPy `UTCDateTime.__add__`: the seconds are converted to a whole number of nanoseconds, `int(round(value * 1e9))`. -/
def addSeconds (start x : ℚ) : ℚ := start + (roundEven (fl64 (x * 10 ^ 9)) : ℚ) / 10 ^ 9

/-- deconvolve.py 98-99: `src.stats.onset = onset = src.stats.starttime + idx * src.stats.delta` with
`delta = 1.0 / sampling_rate`. -/
def snapOnset (t : Trace ℚ) (onset : ℚ) : Res ℚ :=
  (snapIndex t onset).map fun (i : Nat) => addSeconds t.start (fl64 ((i : ℚ) * fl64 (1 / t.sr)))

/-- deconvolve.py 127: `shift = int(round(tshift * sr - len(src) // 2))` for a source of `n` samples. -/
def timeShift (tshift sr : ℚ) (n : Nat) : ℤ := roundEven (fl64 (fl64 (tshift * sr) - ((n / 2 : Nat) : ℚ)))

end Verif.Model.DoubleSnap
