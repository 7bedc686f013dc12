import Verif.Model.DeconvFreq

/-!
# Model of `deconv_iterative`, `rf/deconvolve.py` lines 433-521

Exact real arithmetic.  Where `numpy` produces arrays of NaN (division by zero power) the outcome is the
exceptional value `other`.
-/

namespace Verif.Model
open Verif.Py Complex

/-- `numpy.argmax(numpy.abs(x))`: the first position of the largest modulus (0 for an empty list; the
function is only called with `nfft > 0` samples). -/
noncomputable def argmaxAbs (x : List ℝ) : ℕ :=
  x.findIdx (fun v => decide (∀ w ∈ x, |w| ≤ |v|))

/-- Python `int(x)`: rounding towards zero. -/
noncomputable def pyIntR (x : ℝ) : ℤ := if 0 ≤ x then ⌊x⌋ else ⌈x⌉

/-- `x[a:b] = 0` -/
def zeroSlice (x : List ℝ) (a b : ℤ) : List ℝ :=
  (List.range x.length).map fun (k : ℕ) =>
    if clampIdx x.length a ≤ k ∧ k < clampIdx x.length b then 0 else x.getD k 0

/-- Real part of an inverse transform. -/
noncomputable def ifftRe (X : List ℂ) (n : ℕ) : List ℝ := (ifft X n).map Complex.re

/-- Sum of squares. -/
noncomputable def power (x : List ℝ) : ℝ := (x.map (· ^ 2)).sum

/-- State of the `while` loop: spike train, what is left of the response, iteration count, last misfit, last
change of the misfit in percent, recorded misfits. -/
structure ItState where
  p0 : List ℝ
  rem : List ℝ
  it : ℕ
  sumsq : ℝ
  dErr : ℝ
  rms : List ℝ

/-- What stays fixed in the loop for one component. -/
structure ItEnv where
  nfft : ℕ
  dt : ℝ
  rFlt : List ℝ
  sSpec : List ℂ
  powerS : ℝ
  powerR : ℝ
  muteMin : ℤ
  muteMax : ℤ

/-- Lines 494-496: the correlation, scaled and muted. -/
noncomputable def ItEnv.corr (e : ItEnv) (rem : List ℝ) : List ℝ :=
  let rs := ifftRe (mulL (fft (toC rem) e.nfft) (e.sSpec.map (starRingEnd ℂ))) e.nfft
  zeroSlice (rs.map (fun v => v / e.powerS / e.dt)) e.muteMin e.muteMax

/-- Line 500: the spike train convolved with the source. -/
noncomputable def ItEnv.predict (e : ItEnv) (p0 : List ℝ) : List ℝ :=
  (ifftRe (mulL (fft (toC p0) e.nfft) e.sSpec) e.nfft).map (· * e.dt)

open Classical in
/-- One pass through the loop, lines 494-508.  The divisions by `powerS` (line 495) and `powerR` (line 503)
give NaN if the power is zero. -/
noncomputable def iterStep (e : ItEnv) (st : ItState) : Res ItState :=
  if e.powerS = 0 ∨ e.powerR = 0 then .error .other
  else
    let rs := e.corr st.rem
    let i1 := argmaxAbs rs
    let p0 := st.p0.set i1 (st.p0.getD i1 0 + rs.getD i1 0)
    let rem := List.zipWith (· - ·) e.rFlt (e.predict p0)
    let sumsq := power rem / e.powerR
    .ok { p0 := p0, rem := rem, it := st.it + 1, sumsq := sumsq, dErr := 100 * (st.sumsq - sumsq),
          rms := st.rms.set st.it sumsq }

open Classical in
/-- The `while` loop of line 493; the first argument is the number `itmax - it` of passes left. -/
noncomputable def iterLoop (e : ItEnv) (minderr : ℝ) : ℕ → ItState → Res ItState
  | 0, st => .ok st
  | k + 1, st =>
    if |st.dErr| > minderr then do
      let st ← iterStep e st
      iterLoop e minderr k st
    else .ok st

/-- Lines 470, 476-477, 481-485, 491-492: set-up for one component. -/
noncomputable def iterEnv (fastLen : ℕ → ℕ) (r0 src : List ℝ) (sr tshift gauss : ℝ) (muteShift : Bool) :
    ItEnv :=
  let dt := 1 / sr
  let nfft := fastLen (2 * r0.length)
  let g := toC (gaussFilter dt nfft gauss none)
  let rFlt := applyFilter r0 g
  let sSpec := mulL (fft (toC src) nfft) g
  { nfft := nfft, dt := dt, rFlt := rFlt, sSpec := sSpec, powerS := power (ifftRe sSpec nfft),
    powerR := power rFlt, muteMin := r0.length,
    muteMax := if muteShift then nfft else nfft - pyIntR (tshift * sr) }

/-- Lines 478-479, 486-490: the state before the first pass. -/
noncomputable def iterInit (e : ItEnv) (itmax : ℕ) (minderr : ℝ) : ItState :=
  { p0 := List.replicate e.nfft 0, rem := e.rFlt, it := 0, sumsq := 1, dErr := 100 * e.powerR + minderr,
    rms := List.replicate itmax 0 }

/-- The loop body for one component, lines 476-508: set-up and final state. -/
noncomputable def iterComp (fastLen : ℕ → ℕ) (r0 src : List ℝ) (sr tshift gauss : ℝ) (itmax : ℕ)
    (minderr : ℝ) (muteShift : Bool) : Res ItState :=
  let e := iterEnv fastLen r0 src sr tshift gauss muteShift
  if e.nfft = 0 then .error .valueError
  else iterLoop e minderr itmax (iterInit e itmax minderr)

/-- Lines 510-512: the receiver function. -/
noncomputable def iterOut (fastLen : ℕ → ℕ) (r0 : List ℝ) (sr tshift gauss : ℝ) (p0 : List ℝ) : List ℝ :=
  let dt := 1 / sr
  let nfft := fastLen (2 * r0.length)
  let filt := mulL (toC (gaussFilter dt nfft gauss none)) (phaseShiftFilter nfft dt tshift)
  (applyFilter p0 filt).take r0.length

/-- `numpy.max(numpy.abs(x))`; `ValueError` for an empty array. -/
noncomputable def maxAbsR : List ℝ → Res ℝ
  | [] => .error .valueError
  | x :: xs => .ok (xs.foldl (fun m v => max m |v|) |x|)

open Classical in
/-- deconvolve.py 433-521 `deconv_iterative` for a list of responses, `itmax ≥ 0`, `gauss ≠ 0`:
results, iteration counts, recorded misfits. -/
noncomputable def deconvIterative (fastLen : ℕ → ℕ) (rsp : List (List ℝ)) (src : List ℝ)
    (sr tshift gauss : ℝ) (itmax : ℕ) (minderr : ℝ) (muteShift : Bool) (normalize : Option ℤ) :
    Res (List (List ℝ) × List ℕ × List (List ℝ)) :=
  if sr = 0 then .error .zeroDivision
  else do
    let sts ← rsp.mapM fun r0 => do
      let st ← iterComp fastLen r0 src sr tshift gauss itmax minderr muteShift
      pure (iterOut fastLen r0 sr tshift gauss st.p0, st)
    let rf := sts.map Prod.fst
    let its := sts.map (·.2.it)
    let rmss := sts.map (·.2.rms)
    match normalize with
    | none => .ok (rf, its, rmss)
    | some i => do
      let x ← getItem rf i
      let m ← maxAbsR x
      if m = 0 then .error .other
      else .ok (rf.map (·.map (· * (1 / m))), its, rmss)

end Verif.Model
