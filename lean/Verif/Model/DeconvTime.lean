import Verif.Py.Basic
import Verif.Model.Deconvolve
import Mathlib.Algebra.Order.Field.Basic

/-!
# Model of the time domain deconvolution, `rf/deconvolve.py` lines 248-382
-/

namespace Verif.Model
open Verif.Py

section
variable {K : Type} [Field K] [LinearOrder K]

/-- deconvolve.py 248-250 `_add_zeros` -/
def addZeros (a : List K) (l r : Nat) : List K :=
  List.replicate l 0 ++ a ++ List.replicate r 0

/-- `scipy.signal.correlate(a, b, 'valid')` for real `a`, `b` with `len(a) >= len(b)` -/
def correlateLong (a b : List K) : List K :=
  (List.range (a.length + 1 - b.length)).map fun (k : Nat) =>
    ((List.range b.length).map fun (m : Nat) => a.getD (k + m) 0 * b.getD m 0).sum

/-- `scipy.signal.correlate(a, b, 'valid')`: if `b` is longer, SciPy swaps the arguments and reverses
the result. -/
def correlateValid (a b : List K) : List K :=
  if b.length ≤ a.length then correlateLong a b else (correlateLong b a).reverse

/-- deconvolve.py 253-264 `_acorrt`; `np.zeros(num - 1)` raises `ValueError` for `num = 0`. -/
def acorrt (a : List K) (num : Nat) : Res (List K) :=
  if num = 0 then .error .valueError else .ok (correlateValid (addZeros a 0 (num - 1)) a)

/-- deconvolve.py 279-282: pad `a` according to the sign of `zero_sample`. -/
def xcorrPad (a : List K) (z : Int) : List K :=
  if 0 < z then addZeros a (2 * z.natAbs) 0
  else if z < 0 then addZeros a 0 (2 * z.natAbs) else a

/-- deconvolve.py 267-288 `_xcorrt` -/
def xcorrt (a b : List K) (num : Nat) (z : Int) : List K :=
  let a := xcorrPad a z
  let dif : Int := (a.length : Int) - b.length + 1 - num
  if 0 < dif then correlateValid a (addZeros b ((dif + 1) / 2).toNat (dif / 2).toNat)
  else correlateValid (addZeros a ((-dif + 1) / 2).toNat ((-dif) / 2).toNat) b

/-- Largest absolute value, `np.max(np.abs(x))`; `ValueError` for an empty array. -/
def maxAbs : List K → Res K
  | [] => .error .valueError
  | x :: xs => .ok (xs.foldl (fun m y => max m |y|) |x|)

/-- Lines 375-378: `norm = 1 / np.max(np.abs(RF_list[normalize]))`, scale all results.  NumPy returns
NaN if that maximum is 0; this is modelled as the exceptional outcome `other`. -/
def normalizeAll (rf : List (List K)) (i : Int) : Res (List (List K)) := do
  let x ← getItem rf i
  let m ← maxAbs x
  if m = 0 then .error .other else .ok (rf.map (·.map (fun v => v * (1 / m))))

/-- Lines 364-366: normalised autocorrelation plus white noise.  A source without energy gives NaN in
NumPy (division by `STS[0] = 0`), modelled as the exceptional outcome `other`. -/
def stsVec (src : List K) (length : Nat) (spiking : K) : Res (List K) := do
  let sts ← acorrt src length
  match sts with
  | [] => .error .indexError
  | r0 :: _ =>
    if r0 = 0 then .error .other
    else
      match sts.map (· / r0) with
      | [] => .error .indexError
      | x :: xs => .ok ((x + spiking) :: xs)

/-- Lines 370-374: solve one system per response. -/
def timeLoop (solve : List K → List K → Res (List K)) (sts src : List K) (length : Nat) (shift : Int) :
    List (List K) → Res (List (List K))
  | [] => .ok []
  | rsp :: rest => do
    let str := xcorrt rsp src length shift
    if str.length ≠ sts.length then .error .assertionError
    else
      let x ← solve sts str
      let xs ← timeLoop solve sts src length shift rest
      .ok (x :: xs)

/-- deconvolve.py 293-382 `deconv_time` for a list of responses; `solve sts str` is the chosen Toeplitz
solver (lines 341-359, external code), `normalize = none` is `normalize=None`. -/
def deconvTime (solve : List K → List K → Res (List K)) (rsp : List (List K)) (src : List K)
    (shift : Int) (spiking : K) (length : Option Nat) (normalize : Option Int) :
    Res (List (List K)) := do
  let length ← match length with
    | some n => .ok n
    | none =>
      match rsp with
      | [] => .error .indexError
      | r :: _ => .ok r.length
  let sts ← stsVec src length spiking
  let rf ← timeLoop solve sts src length shift rsp
  match normalize with
  | none => .ok rf
  | some i => normalizeAll rf i

end
end Verif.Model
