import Verif.Py.Dft
import Verif.Model.Deconvolve

/-!
# Model of the filters and of the water level deconvolution, `rf/deconvolve.py` lines 170-245, 385-430

Exact real and complex arithmetic.  `numpy` turns a division by zero into NaN; in `deconvWaterlevel` this is
the exceptional outcome `other`.
-/

namespace Verif.Model
open Verif.Py Complex

/-- Real samples as complex numbers. -/
noncomputable def toC (x : List ℝ) : List ℂ := x.map (fun (v : ℝ) => (v : ℂ))

/-- deconvolve.py 385-402 `_gauss_filter` (width `f0 ≠ 0`). -/
noncomputable def gaussFilter (dt : ℝ) (nft : ℕ) (f0 : ℝ) (waterlevel : Option ℝ) : List ℝ :=
  (fftfreq nft dt).map fun f =>
    let arg := -(1 / 2) * (f / f0) ^ 2
    Real.exp (match waterlevel with | some w => max arg w | none => arg)

/-- deconvolve.py 405-415 `_phase_shift_filter` -/
noncomputable def phaseShiftFilter (nft : ℕ) (dt tshift : ℝ) : List ℂ :=
  (fftfreq nft dt).map fun (f : ℝ) => Complex.exp (-2 * I * Real.pi * f * tshift)

/-- Element-wise product of two arrays of the same length. -/
noncomputable def mulL (a b : List ℂ) : List ℂ := List.zipWith (· * ·) a b

/-- deconvolve.py 418-430 `_apply_filter` -/
noncomputable def applyFilter (x : List ℝ) (filt : List ℂ) : List ℝ :=
  let nfft := filt.length
  (ifft (mulL (fft (toC x) nfft) filt) nfft).map Complex.re

/-- `max` of a non-empty real array. -/
noncomputable def maxR : List ℝ → ℝ
  | [] => 0
  | x :: xs => xs.foldl max x

open Classical in
/-- builtin `max` of a complex array: maximum with respect to the lexicographic order (real part first);
`ValueError` for an empty array. -/
noncomputable def maxC : List ℂ → Res ℂ
  | [] => .error .valueError
  | x :: xs => .ok (xs.foldl (fun m y => if m.re < y.re ∨ (m.re = y.re ∧ m.im < y.im) then y else m) x)

/-- Lines 210-212: source power spectrum raised to the water level. -/
noncomputable def waterPower (S : List ℂ) (waterlevel : ℝ) : List ℝ :=
  let p := S.map (fun z => ‖z * (starRingEnd ℂ) z‖)
  p.map (fun v => max v (maxR p * waterlevel))

/-- Lines 205-207: the filter. -/
noncomputable def waterFilter (nfft : ℕ) (dt tshift : ℝ) (gauss : Option ℝ) : List ℂ :=
  match gauss with
  | none => phaseShiftFilter nfft dt tshift
  | some g => mulL (toC (gaussFilter dt nfft g (some (-700)))) (phaseShiftFilter nfft dt tshift)

/-- Spectrum of one result, lines 215, 224: `ffilt * R * conj(S) / water`. -/
noncomputable def waterSpec (filt R S : List ℂ) (water : List ℝ) : List ℂ :=
  List.zipWith (fun z (w : ℝ) => z / w) (mulL (mulL filt R) (S.map (starRingEnd ℂ))) water

/-- Lines 226-230: scale all results. -/
noncomputable def scaleAll (norm : ℂ) (rf : List (List ℂ)) : List (List ℂ) :=
  rf.map (·.map (· * norm))

open Classical in
/-- deconvolve.py 170-245 `deconv_waterlevel` for a list of responses (without `return_info`);
`fastLen` is `next_fast_len`.  Only the real parts of the results are used by `deconvolve()`. -/
noncomputable def deconvWaterlevel (fastLen : ℕ → ℕ) (rsp : List (List ℝ)) (src : List ℝ)
    (sr waterlevel : ℝ) (gauss : Option ℝ) (tshift : ℝ) (length : Option ℕ) (normalize : Norm)
    (nfft : Option ℕ) : Res (List (List ℂ)) := do
  let N ← match length with
    | some n => .ok n
    | none =>
      match rsp with
      | [] => .error .indexError
      | r :: _ => .ok r.length
  let nfft := nfft.getD (fastLen N)
  if nfft = 0 then .error .valueError
  else if sr = 0 then .error .zeroDivision
  else
    let filt := waterFilter nfft (1 / sr) tshift gauss
    let S := fft (toC src) nfft
    let water := waterPower S waterlevel
    if 0 ∈ water then .error .other
    else
      let rf := rsp.map (fun r => (ifft (waterSpec filt (fft (toC r) nfft) S water) nfft).take N)
      match normalize with
      | .none => .ok rf
      | .src => do
        let m ← maxC ((ifft (waterSpec filt S S water) nfft).take N)
        if m = 0 then .error .other else .ok (scaleAll (1 / m) rf)
      | .idx i => do
        let x ← getItem rf i
        let m ← maxC x
        if m = 0 then .error .other else .ok (scaleAll (1 / m) rf)

end Verif.Model
