import Verif.Model.DoubleSnap

/-!
# Onsets of mirrored and stacked records in double precision (rf/rfstream.py 347-351 and 426-428)

Times are whole numbers of nanoseconds.  Differences of times are rounded to microseconds by ObsPy.
-/

namespace Verif.Model.DoubleOnset
open Verif.Py Verif.Model Verif.Model.DoubleSnap

/-- Difference of two times (ObsPy `UTCDateTime.__sub__`): `round((self._ns - value._ns) / 1e9, 6)`.  Python's `round`
takes the nearest number with 6 decimal digits (ties to even) and returns the double next to it. -/
def secondsBetween6 (a b : ℚ) : ℚ := fl64 ((roundEven (fl64 (a - b) * 10 ^ 6) : ℚ) / 10 ^ 6)

/-- `stats.endtime` (ObsPy `Stats.__setitem__`): `starttime + float(npts - 1) * delta` with `delta = 1.0 / sampling_rate`,
the start time itself for empty data. -/
def endTime64 (start sr : ℚ) (npts : ℕ) : ℚ :=
  addSeconds start (if npts = 0 then 0 else fl64 (((npts - 1 : ℕ) : ℚ) * fl64 (1 / sr)))

/-- rf/rfstream.py 350-351: `tr.stats.onset = tr.stats.starttime + (tr.stats.endtime - tr.stats.onset)`. -/
def mirrorOnset64 (start sr : ℚ) (npts : ℕ) (onset : ℚ) : ℚ :=
  addSeconds start (secondsBetween6 (endTime64 start sr npts) onset)

/-- rf/rfstream.py 427-428: `onset = tr.stats.onset - tr.stats.starttime`, `tr2.stats.onset = tr2.stats.starttime + onset`,
where `start2` is the start time of the stack (ObsPy's default, 1970-01-01). -/
def stackOnset64 (start onset start2 : ℚ) : ℚ := addSeconds start2 (secondsBetween6 onset start)

end Verif.Model.DoubleOnset
