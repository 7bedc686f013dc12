import Verif.Model.DeconvIter

/-!
# Model of `deconv_multitaper`, `rf/deconvolve.py` lines 524-683

Exact real arithmetic.  The Slepian tapers with their eigenvalues (`multitaper.MTSpec`) and
`scipy.signal.detrend` are parameters.  A vanishing denominator `denom + s0` gives NaN, here the exceptional
outcome `other`.
-/

namespace Verif.Model
open Verif.Py Complex

/-- External code: tapers (with the sign convention of lines 577-582 already applied) and their
eigenvalues for a number of points and a number of tapers, and removal of mean and trend. -/
structure MtEnv where
  tapers : ℕ → ℕ → List (List ℝ) × List ℝ
  detrend : List ℝ → List ℝ

/-- Lines 600-602, 629-631, 652-654: `bit = zeros(nft); bit[js:js+ntap] = tap; bit = bit * x`.
`numpy` raises ValueError if the slice is shorter than the taper (a taper with one point is broadcast) or
if `x` does not have `nft` samples. -/
noncomputable def mtBit (nft js : ℕ) (tap x : List ℝ) : Res (List ℝ) :=
  let je := js + tap.length
  if (min je nft - min js nft ≠ tap.length ∧ tap.length ≠ 1) ∨ x.length ≠ nft then .error .valueError
  else .ok ((List.range nft).map fun (m : ℕ) =>
    (if js ≤ m ∧ m < je then (if tap.length = 1 then tap.getD 0 0 else tap.getD (m - js) 0) else 0) * x.getD m 0)

/-- `int(j*ntap/ofac)`: first sample of window `j`. -/
noncomputable def mtStart (ntap : ℕ) (ofac : ℝ) (j : ℕ) : ℕ := (pyIntR (j * ntap / ofac)).toNat

/-- `acc + b`, element-wise. -/
noncomputable def addL (a b : List ℂ) : List ℂ := List.zipWith (· + ·) a b

/-- One window, lines 599-604: all tapers. -/
noncomputable def mtWindow (nft js : ℕ) (taps : List (List ℝ)) (x : List ℝ) (acc : List (List ℂ)) :
    Res (List (List ℂ)) := do
  let bits ← taps.mapM fun tap => mtBit nft js tap x
  .ok (List.zipWith (fun a bit => addL a (fft (toC bit) nft)) acc bits)

/-- Lines 596-604 (`guard = false`), 624-633 and 647-656 (`guard = true`: `if je < nft`): the sum over all
windows, for each taper. -/
noncomputable def mtSum (guard : Bool) (nft ntap nwin : ℕ) (ofac : ℝ) (taps : List (List ℝ)) (x : List ℝ) :
    Res (List (List ℂ)) :=
  (List.range nwin).foldlM (fun acc (j : ℕ) =>
    let js := mtStart ntap ofac j
    if guard && !(decide (js + ntap < nft)) then .ok acc else mtWindow nft js taps x acc)
    (taps.map fun _ => List.replicate nft 0)

/-- `fac * arr` -/
noncomputable def mtScale (fac : ℝ) (a : List (List ℂ)) : List (List ℂ) := a.map (·.map (· * (fac : ℂ)))

/-- Array with zeros appended up to length `nft` (lines 594-595, 621-622); ValueError if it is too long. -/
noncomputable def mtPad (nft : ℕ) (x : List ℝ) : Res (List ℝ) :=
  if x.length ≤ nft then .ok (x ++ List.replicate (nft - x.length) 0) else .error .valueError

/-- `int(ofac*len/ntap)` -/
noncomputable def mtNwin (ofac : ℝ) (len ntap : ℕ) : ℤ := pyIntR (ofac * len / ntap)

/-- Lines 639-641: noise power. -/
noncomputable def mtNoise (nft : ℕ) (N : List (List ℂ)) (el : List ℝ) : List ℝ :=
  (List.range nft).map fun (m : ℕ) =>
    (List.zipWith (fun n (l : ℝ) => ((n.getD m 0).re ^ 2 + (n.getD m 0).im ^ 2) / l) N el).sum

/-- Lines 662-666: numerator (`D`: response) and denominator (`D`: source). -/
noncomputable def mtNum (nft : ℕ) (S D : List (List ℂ)) : List ℂ :=
  (List.range nft).map fun (m : ℕ) =>
    (List.zipWith (fun s d => s.getD m 0 * (starRingEnd ℂ) (d.getD m 0)) S D).sum

/-- Line 667: the quotient. -/
noncomputable def mtQuot (nft : ℕ) (S D : List (List ℂ)) (s0 : List ℝ) : List ℂ :=
  (List.range nft).map fun (m : ℕ) =>
    (mtNum nft S D).getD m 0 / ((mtNum nft S S).getD m 0 + (s0.getD m 0 : ℝ))

/-- Lines 670-671: low-pass filter. -/
noncomputable def mtLow (nft : ℕ) (dt : ℝ) (gauss : Option ℝ) (Q : List ℂ) : List ℂ :=
  match gauss with
  | some g => mulL Q (toC (gaussFilter dt nft g none))
  | none => Q

/-- Lines 670-676: low-pass filter, phase shift by `tshift - dt`, inverse transform, reversal. -/
noncomputable def mtOut (nft : ℕ) (dt tshift : ℝ) (gauss : Option ℝ) (Q : List ℂ) : List ℝ :=
  ((ifft (mulL (mtLow nft dt gauss Q) (phaseShiftFilter nft dt (tshift - dt))) nft).map Complex.re).reverse

/-- Division by a window count as Python float division: ZeroDivisionError for 0. -/
noncomputable def mtFac (num : ℝ) (nwin : ℤ) (nft : ℕ) : Res ℝ :=
  if nwin * (nft : ℤ) = 0 then .error .zeroDivision else .ok (num / (nwin * nft))

open Classical in
/-- Lines 614-676: one component. -/
noncomputable def mtComp (env : MtEnv) (nft ntap nwav : ℕ) (dt ofac tshift : ℝ) (gauss : Option ℝ)
    (taps : List (List ℝ)) (el : List ℝ) (S : List (List ℂ)) (dat nos : List ℝ) : Res (List ℝ) := do
  let nos := env.detrend nos
  let nosPad ← mtPad nft nos
  let nwinN := mtNwin ofac nos.length ntap
  let N ← mtSum true nft ntap nwinN.toNat ofac taps nosPad
  let fac ← mtFac nwav nwinN nft
  let s0 := mtNoise nft (mtScale fac N) el
  let dat := env.detrend dat
  let nwinD := mtNwin ofac nft ntap - 1
  let D ← mtSum true nft ntap nwinD.toNat ofac taps dat
  let fac ← mtFac nft nwinD nft
  let D := mtScale fac D
  if ∃ m < nft, (mtNum nft S S).getD m 0 + (s0.getD m 0 : ℝ) = 0 then .error .other
  else .ok (mtOut nft dt tshift gauss (mtQuot nft S D s0))

open Classical in
/-- deconvolve.py 524-683 `deconv_multitaper`. -/
noncomputable def deconvMultitaper (env : MtEnv) (rsp : List (List ℝ)) (src : List ℝ) (nse : List (List ℝ))
    (sr tshift : ℝ) (gauss : Option ℝ) (K : ℕ) (T olap : ℝ) (normalize : Option ℤ) :
    Res (List (List ℝ)) := do
  let r0 ← getItem rsp 0
  if ¬ src.length < r0.length then .error .assertionError
  else
    let n0 ← getItem nse 0
    if ¬ n0.length ≤ r0.length then .error .assertionError
    else if sr = 0 then .error .zeroDivision
    else
      let nft := r0.length
      let dt := 1 / sr
      let ntap := (pyRound (T / dt)).toNat
      let (taps, el) := env.tapers ntap K
      if 1 - olap = 0 then .error .zeroDivision
      else
        let ofac := 1 / (1 - olap)
        let src := env.detrend src
        let nwav := src.length
        if ntap = 0 then .error .zeroDivision
        else
          let nwin := mtNwin ofac nwav ntap
          let pad ← mtPad nft src
          let S ← mtSum false nft ntap nwin.toNat ofac taps pad
          let fac ← mtFac nwav nwin nft
          let S := mtScale fac S
          let rf ← (List.range rsp.length).mapM fun (c : ℕ) => do
            let nos ← getItem nse c
            mtComp env nft ntap nwav dt ofac tshift gauss taps el S (rsp.getD c []) nos
          match normalize with
          | none => .ok rf
          | some i => do
            let x ← getItem rf i
            let m ← maxAbsR x
            if m = 0 then .error .other
            else .ok (rf.map (·.map (· * (1 / m))))

end Verif.Model
