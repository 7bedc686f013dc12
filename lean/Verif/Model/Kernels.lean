import Verif.Model.DeconvTime
import Verif.Model.DeconvMt

/-!
# The calls of the deconvolution kernels in `deconvolve`, `rf/deconvolve.py` lines 126-159

`deconvolve` hands its remaining keyword arguments to the kernel.  `KernelArgs` holds them together with the external
code the kernels use; the kernels of `DeconvEnv` become the functions modelled in `DeconvTime`, `DeconvFreq`,
`DeconvIter` and `DeconvMt`.
-/

namespace Verif.Model
open Verif.Py

/-- Keyword arguments (lines 170-172, 293-294, 433-434, 524-525) and external functions of the kernels. -/
structure KernelArgs where
  solve : List ℝ → List ℝ → Res (List ℝ)
  spiking : ℝ
  lengthT : Option ℕ
  fastLen : ℕ → ℕ
  waterlevel : ℝ
  gaussW : Option ℝ
  lengthW : Option ℕ
  nfft : Option ℕ
  gaussI : ℝ
  itmax : ℕ
  minderr : ℝ
  muteShift : Bool
  mt : MtEnv
  gaussM : Option ℝ
  tapers : ℕ
  taperLength : ℝ
  olap : ℝ

/-- The index meant by the keyword `normalize`: 0 if it is not given (lines 171, 293, 434, 525); `none` is `None`. -/
def normIdx : Option Norm → Option ℤ
  | none => some 0
  | some (.idx i) => some i
  | some _ => none

/-- Line 129; `RF_list['src']` (line 376) is a `TypeError`, raised after the loop. -/
noncomputable def timeKernel (ka : KernelArgs) (rd : List (List ℝ)) (src : List ℝ) (shift : ℤ) (n : Option Norm) :
    Res (List (List ℝ)) :=
  match n with
  | some .src => (deconvTime ka.solve rd src shift ka.spiking ka.lengthT none).bind fun _ => .error .typeError
  | n => deconvTime ka.solve rd src shift ka.spiking ka.lengthT (normIdx n)

/-- Lines 134-137: the real parts are written to the traces. -/
noncomputable def waterKernel (ka : KernelArgs) (rd : List (List ℝ)) (src : List ℝ) (sr tshift : ℝ) (n : Option Norm) :
    Res (List (List ℝ)) :=
  (deconvWaterlevel ka.fastLen rd src sr ka.waterlevel ka.gaussW tshift ka.lengthW (n.getD (.idx 0)) ka.nfft).map
    (·.map (·.map Complex.re))

/-- Lines 140-144: results with iteration counts; `RF_out['src']` (line 517) is a `TypeError`, raised after the loop. -/
noncomputable def iterKernel (ka : KernelArgs) (rd : List (List ℝ)) (src : List ℝ) (sr tshift : ℝ) (n : Option Norm) :
    Res (List (List ℝ × ℕ)) :=
  match n with
  | some .src =>
    (deconvIterative ka.fastLen rd src sr tshift ka.gaussI ka.itmax ka.minderr ka.muteShift none).bind
      fun _ => .error .typeError
  | n =>
    (deconvIterative ka.fastLen rd src sr tshift ka.gaussI ka.itmax ka.minderr ka.muteShift (normIdx n)).map
      fun out => out.1.zip out.2.1

/-- Lines 155-156; `RF_out['src']` (line 679) is an `IndexError` for a NumPy array, raised after the loop. -/
noncomputable def mtKernel (ka : KernelArgs) (rd : List (List ℝ)) (src : List ℝ) (nse : List (List ℝ)) (sr tshift : ℝ)
    (n : Option Norm) : Res (List (List ℝ)) :=
  match n with
  | some .src =>
    (deconvMultitaper ka.mt rd src nse sr tshift ka.gaussM ka.tapers ka.taperLength ka.olap none).bind
      fun _ => .error .indexError
  | n => deconvMultitaper ka.mt rd src nse sr tshift ka.gaussM ka.tapers ka.taperLength ka.olap (normIdx n)

/-- An environment with the kernels of the package. -/
noncomputable def withKernels (ka : KernelArgs) (dec : DeconvEnv ℝ) : DeconvEnv ℝ :=
  { dec with
    time := timeKernel ka
    water := waterKernel ka
    iter := iterKernel ka
    mt := mtKernel ka }

end Verif.Model
