import Verif.Model.LoadTxt
import Mathlib.Data.Rat.Cast.Defs

/-!
# The velocity model of the package, `rf/data/iasp91.dat`
-/

namespace Verif.Model.Iasp91
open Verif.Py Verif.Model.Ppoints

/-- The lines of `rf/data/iasp91.dat`. -/
def fileLines : List String := [
  "#IASP91 velocity model",
  "#depth    vp      vs     n",
  "   0.00  5.800 3.360 0",
  "   0.00  5.800 3.360 0",
  "  10.00  5.800 3.360 4",
  "  20.00  5.800 3.360 4",
  "  20.00  6.500 3.750 0",
  "  35.00  6.500 3.750 5",
  "  35.00  8.040 4.470 0",
  "  71.00  8.044 4.483 10",
  " 120.00  8.050 4.500 10",
  " 171.00  8.192 4.510 10",
  " 210.00  8.300 4.518 10",
  " 210.00  8.300 4.522 0",
  " 271.00  8.523 4.628 10",
  " 371.00  8.888 4.802 20",
  " 410.00  9.030 4.870 10",
  " 410.00  9.360 5.070 0",
  " 471.00  9.565 5.199 10",
  " 571.00  9.901 5.411 15",
  " 660.00 10.200 5.600 13",
  " 660.00 10.790 5.950 0",
  " 671.00 10.819 5.979 3",
  " 760.00 11.056 6.209 10",
  " 760.00 11.056 6.210 0",
  " 771.00 11.076 6.218 3",
  " 821.00 11.164 6.256 5",
  " 871.00 11.251 6.293 5",
  " 921.00 11.335 6.329 5",
  " 971.00 11.417 6.364 5",
  "1021.00 11.498 6.397 5",
  "1071.00 11.576 6.430 5",
  "1121.00 11.653 6.462 5",
  "1171.00 11.728 6.493 5",
  "1221.00 11.801 6.524 5",
  "1271.00 11.873 6.553 5",
  "1321.00 11.944 6.582 5",
  "1371.00 12.013 6.610 5",
  "1421.00 12.080 6.637 5",
  "1471.00 12.147 6.664 5",
  "1521.00 12.212 6.691 5",
  "1571.00 12.276 6.716 5",
  "1621.00 12.340 6.742 5",
  "1671.00 12.402 6.766 5",
  "1721.00 12.463 6.791 5",
  "1771.00 12.524 6.815 5",
  "1821.00 12.584 6.838 5",
  "1871.00 12.643 6.862 5",
  "1921.00 12.702 6.885 5",
  "1971.00 12.761 6.908 5",
  "2021.00 12.819 6.931 5",
  "2071.00 12.876 6.953 5",
  "2121.00 12.934 6.976 5",
  "2171.00 12.991 6.998 5",
  "2221.00 13.048 7.021 5",
  "2271.00 13.106 7.043 5",
  "2321.00 13.163 7.066 5",
  "2371.00 13.220 7.089 5",
  "2421.00 13.278 7.112 5",
  "2471.00 13.336 7.135 5",
  "2521.00 13.394 7.158 5",
  "2571.00 13.453 7.182 5",
  "2621.00 13.513 7.206 5",
  "2671.00 13.572 7.230 5",
  "2740.00 13.656 7.265 5",
  "2771.00 13.664 7.272 5",
  "2871.00 13.687 7.297 5",
  "2889.00 13.691 7.302 5",
  "2889.00  8.009 0.100 0",
  "2971.00  8.150 0.100 6",
  "3071.00  8.317 0.100 6",
  "3171.00  8.477 0.100 6",
  "3271.00  8.630 0.100 6",
  "3371.00  8.777 0.100 6",
  "3471.00  8.917 0.100 6",
  "3571.00  9.050 0.100 6",
  "3671.00  9.176 0.100 6",
  "3771.00  9.295 0.100 6",
  "3871.00  9.408 0.100 6",
  "3971.00  9.514 0.100 6",
  "4071.00  9.614 0.100 6",
  "4171.00  9.706 0.100 6",
  "4271.00  9.792 0.100 6",
  "4371.00  9.871 0.100 6",
  "4471.00  9.944 0.100 6",
  "4571.00 10.009 0.100 6",
  "4671.00 10.068 0.100 6",
  "4771.00 10.120 0.100 6",
  "4871.00 10.166 0.100 6",
  "4971.00 10.204 0.100 6",
  "5071.00 10.236 0.100 6",
  "5153.90 10.258 0.100 6",
  "5153.90 10.971 3.439 0",
  "5171.00 10.976 3.442 6",
  "5271.00 10.999 3.462 6",
  "5371.00 11.020 3.479 6",
  "5471.00 11.039 3.496 6",
  "5571.00 11.056 3.510 6",
  "5671.00 11.071 3.523 6",
  "5771.00 11.085 3.534 6",
  "5871.00 11.096 3.543 6",
  "5971.00 11.105 3.551 6",
  "6071.00 11.112 3.557 6",
  "6171.00 11.117 3.561 6",
  "6271.00 11.120 3.564 6"]

/-- A table of numbers of the file as table of numbers of `K`. -/
def castTable {K : Type} [Field K] : Table ℚ → Table K
  | .columns cols => .columns (cols.map fun c => c.map fun (x : ℚ) => (x : K))
  | .flat row => .flat (row.map fun (x : ℚ) => (x : K))

/-- `np.loadtxt(fname, unpack=True)` for the file of the package (`rf/simple_model.py` line 38), with exact values
instead of floats. -/
def loadShipped {K : Type} [Field K] : Res (Table K) :=
  (LoadTxt.loadTxt (fileLines.map String.toList)).map castTable

end Verif.Model.Iasp91
