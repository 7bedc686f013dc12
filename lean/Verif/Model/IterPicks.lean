import Verif.Model.DeconvIter

/-!
# The positions of the spikes in `deconv_iterative`, `rf/deconvolve.py` lines 493-508
-/

namespace Verif.Model
open Verif.Py

open Classical in
/-- deconvolve.py 493-508: the positions of the spikes picked by the `while` loop (`i1` of line 497), in the order of the passes. -/
noncomputable def picks (e : ItEnv) (minderr : ℝ) : ℕ → ItState → List ℕ
  | 0, _ => []
  | k + 1, st =>
    if |st.dErr| > minderr then
      match iterStep e st with
      | .ok st' => argmaxAbs (e.corr st.rem) :: picks e minderr k st'
      | .error _ => []
    else []

/-- deconvolve.py 476-508: the positions picked for one response. -/
noncomputable def picksOf (fastLen : ℕ → ℕ) (r0 src : List ℝ) (sr tshift gauss : ℝ) (itmax : ℕ)
    (minderr : ℝ) (muteShift : Bool) : List ℕ :=
  let e := iterEnv fastLen r0 src sr tshift gauss muteShift
  picks e minderr itmax (iterInit e itmax minderr)

end Verif.Model
