import Verif.Model.Stream

/-!
# Divisions by zero in the deconvolution kernels of `rf/deconvolve.py`

A division by zero in a NumPy array raises no exception: NumPy prints a warning and the results hold NaN or infinite
values.  The kernels of `Model/DeconvFreq`, `Model/DeconvIter` and `Model/DeconvMt` give the outcome `other` in this
case.  In this file `deconvolve` goes on, as the code does.
-/

namespace Verif.Model
open Verif.Py

variable {K : Type}

/-- The arrays which a kernel leaves after a division by zero: arrays of NaN or infinite numbers (with the number of
iterations, deconvolve.py 486-511).  `K` has no such numbers, so they are represented by arbitrary ones: what is proved
for every `NanFill` does not depend on them. -/
structure NanFill (K : Type) where
  arrays : List (List K) → List K → List (List K × Nat)

/-- One array for each response (deconvolve.py 221-223, 475, 509, 665-677). -/
def NanFill.Sized (fill : NanFill K) : Prop := ∀ rd src, (fill.arrays rd src).length = rd.length

/-- deconvolve.py 213-231 (water level), 486-519 (iterative), 655-681 (multitaper): division by zero is no exception. -/
def onDivision {α : Type} (x : α) (r : Res α) : Res α :=
  match r with
  | .error .other => .ok x
  | r => r

/-- The kernels of the methods waterlevel, iterative and multitaper without exception for a division by zero.  The time
domain method hands NaN to the Toeplitz solver (deconvolve.py 346-352), what happens then depends on the solver; it
stays an exception. -/
def nanEnv (fill : NanFill K) (dec : DeconvEnv K) : DeconvEnv K :=
  { dec with
    water := fun rd src sr t n => onDivision ((fill.arrays rd src).map Prod.fst) (dec.water rd src sr t n)
    iter := fun rd src sr t n => onDivision (fill.arrays rd src) (dec.iter rd src sr t n)
    mt := fun rd src nse sr t n => onDivision ((fill.arrays rd src).map Prod.fst) (dec.mt rd src nse sr t n) }

/-- `RFStream.rf` (rfstream.py 263-355) with these kernels. -/
def nanRfEnv (fill : NanFill K) (env : RfEnv K) : RfEnv K := { env with dec := nanEnv fill env.dec }

end Verif.Model
