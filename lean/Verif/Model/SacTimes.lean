import Verif.Model.DoubleSnap
import Verif.Py.Single

/-!
# Times in the header of SAC files (rf/rfstream.py 50-57, 97-98, 562-564 and 597-599)

A SAC header holds times as single precision numbers of seconds after the reference time of the file.
-/

namespace Verif.Model.SacTimes
open Verif.Py Verif.Model Verif.Model.DoubleIndex Verif.Model.DoubleSnap

/-- rfstream.py 55-57 `__UTC2SAC`: `stats[head] - get_sac_reftime(stats.sac)`, stored as single precision number when the
file is written (ObsPy). -/
def toSac (reftime time : ℚ) : ℚ := fl32 (secondsBetween time reftime)

/-- rfstream.py 50-52 `__SAC2UTC`: `get_sac_reftime(stats.sac) + stats[head]`, that is `reftime + int(round(value * 1e9))`
nanoseconds (ObsPy `UTCDateTime.__add__`).  The product with a single precision number is of single precision with newer
versions of NumPy and of double precision with older ones: `rnd` is the rounding. -/
def fromSac (rnd : ℚ → ℚ) (reftime value : ℚ) : ℚ := reftime + (roundEven (rnd (value * 1000000000)) : ℚ) / 1000000000

/-- A time written to a SAC header and read back. -/
def sacTime (rnd : ℚ → ℚ) (reftime time : ℚ) : ℚ := fromSac rnd reftime (toSac reftime time)

end Verif.Model.SacTimes
