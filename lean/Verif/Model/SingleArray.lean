import Verif.Py.Arr
import Verif.Model.DeconvTime
import Verif.Model.DeconvFreq
import Verif.Model.DeconvIter

/-!
# Model of the kernels called with a single array, `rf/deconvolve.py` lines 164-245, 293-382, 433-521

The kernels for lists are those of `DeconvTime`, `DeconvFreq` and `DeconvIter`; here the branches for one
array and the branch `return_info` are added.
-/

namespace Verif.Model
open Verif.Py

/-- The variable of a loop `for x in l` after the loop (deconvolve.py 229 `rf`, 370/377 `RF`): the last
element, unbound for an empty list. -/
def loopVar {α : Type} (l : List α) : Res α :=
  match l.getLast? with
  | some x => .ok x
  | none => .error .nameError

/-- deconvolve.py 293-382 `deconv_time`.  Lines 367-369: one array is wrapped in a list; its length is that of
the array (164-167).  Lines 379-380 return the loop variable. -/
def deconvTimeArg {K : Type} [Field K] [LinearOrder K] (solve : List K → List K → Res (List K))
    (rsp : Arr K) (src : List K) (shift : Int) (spiking : K) (length : Option Nat)
    (normalize : Option Int) : Res (Arr K) :=
  match rsp with
  | .many l => (deconvTime solve l src shift spiking length normalize).map .many
  | .one x =>
    match deconvTime solve [x] src shift spiking length normalize with
    | .error e => .error e
    | .ok rf => (loopVar rf).map .one

/-- deconvolve.py 170-245 `deconv_waterlevel` with `return_info=False`.  Lines 221-223: one array is wrapped
in a list.  Line 243 returns the variable of the loop in line 229, which is only executed for
`normalize is not None`; the variable of the comprehension in 224 is `rsp` and local to it. -/
noncomputable def deconvWaterArg (fastLen : ℕ → ℕ) (rsp : Arr ℝ) (src : List ℝ)
    (sr waterlevel : ℝ) (gauss : Option ℝ) (tshift : ℝ) (length : Option ℕ) (normalize : Norm)
    (nfft : Option ℕ) : Res (Arr ℂ) :=
  match rsp with
  | .many l => (deconvWaterlevel fastLen l src sr waterlevel gauss tshift length normalize nfft).map .many
  | .one x =>
    match deconvWaterlevel fastLen [x] src sr waterlevel gauss tshift length normalize nfft with
    | .error e => .error e
    | .ok rf => if normalize = .none then .error .nameError else (loopVar rf).map .one

/-- What `info` says about the source (lines 237-240): `rf_src` and `norm`. -/
structure WaterInfo where
  rfSrc : List ℂ
  norm : ℂ

open Classical in
/-- deconvolve.py 170-245 `deconv_waterlevel` with `return_info=True`: the list of results and two entries of
`info`.  For an index as `normalize` the source is normalised for itself and `norm` is assigned again
(lines 232-236); for `normalize=None` the variables `rf_src` and `norm` of line 237 are unbound. -/
noncomputable def deconvWaterInfo (fastLen : ℕ → ℕ) (rsp : List (List ℝ)) (src : List ℝ)
    (sr waterlevel : ℝ) (gauss : Option ℝ) (tshift : ℝ) (length : Option ℕ) (normalize : Norm)
    (nfft : Option ℕ) : Res (List (List ℂ) × WaterInfo) :=
  match deconvWaterlevel fastLen rsp src sr waterlevel gauss tshift length normalize nfft with
  | .error e => .error e
  | .ok rf =>
    match normalize with
    | .none => .error .nameError
    | _ =>
      let N := match length with
        | some n => n
        | none => (rsp.headD []).length
      let nfft := nfft.getD (fastLen N)
      let S := fft (toC src) nfft
      let x := (ifft (waterSpec (waterFilter nfft (1 / sr) tshift gauss) S S
        (waterPower S waterlevel)) nfft).take N
      match maxC x with
      | .error e => .error e
      | .ok m =>
        if m = 0 then .error .other
        else .ok (rf, { rfSrc := x.map (1 / m * ·), norm := 1 / m })

/-- deconvolve.py 433-521 `deconv_iterative`.  Nothing distinguishes one array from a list: `rsp[c]` in line
476 is a number, of which `len` in line 477 raises `TypeError`.  An empty array has no elements. -/
noncomputable def deconvIterArg (fastLen : ℕ → ℕ) (rsp : Arr ℝ) (src : List ℝ)
    (sr tshift gauss : ℝ) (itmax : ℕ) (minderr : ℝ) (muteShift : Bool) (normalize : Option ℤ) :
    Res (List (List ℝ) × List ℕ × List (List ℝ)) :=
  match rsp with
  | .many l => deconvIterative fastLen l src sr tshift gauss itmax minderr muteShift normalize
  | .one [] => deconvIterative fastLen [] src sr tshift gauss itmax minderr muteShift normalize
  | .one (_ :: _) => open Classical in if sr = 0 then .error .zeroDivision else .error .typeError

end Verif.Model
