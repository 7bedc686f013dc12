import Verif.Model.Stream

/-!
# Keyword arguments of the deconvolution (`rf/deconvolve.py` lines 24-26, 126-160; `rf/rfstream.py` lines 252-266, 338-343)

Keywords which neither `rf` nor `deconvolve` names are passed to the function of the method.  A call with a keyword that the
function does not have, or that is also given by `deconvolve` itself, raises `TypeError`.
-/

namespace Verif.Model.Keywords
open Verif.Py Verif.Model

/-- The keywords which can be passed on to the function of a method: the parameters of `deconv_time` (line 293),
`deconv_waterlevel` (line 170), `deconv_iterative` (line 433) and `deconv_multitaper` (line 524) without those given by
`deconvolve` (lines 129, 135, 141, 158); `noise` is removed before (line 146).  `normalize`, which is treated separately
in the model, belongs to all of them.  `none`: a function of the user. -/
def kernelKeywords : DMethod → Option (List String)
  | .time => some ["spiking", "length", "normalize", "solve_toeplitz"]
  | .waterlevel => some ["waterlevel", "gauss", "length", "normalize", "nfft", "return_info"]
  | .iterative => some ["gauss", "itmax", "minderr", "mute_shift", "normalize"]
  | .multitaper => some ["noise", "gauss", "K", "tband", "T", "olap", "normalize"]
  | .func => none

/-- Does the function of the method accept all these keywords? -/
def accepts (m : DMethod) (kw : List String) : Bool :=
  match kernelKeywords m with
  | none => true
  | some l => kw.all fun k => l.contains k

section
variable {K : Type}

/-- The functions called with further keywords `kw`. -/
def withKeywords (kw : List String) (env : DeconvEnv K) : DeconvEnv K :=
  { env with
    time := fun r s n m => if accepts .time kw then env.time r s n m else .error .typeError
    water := fun r s a b m => if accepts .waterlevel kw then env.water r s a b m else .error .typeError
    iter := fun r s a b m => if accepts .iterative kw then env.iter r s a b m else .error .typeError
    mt := fun r s n a b m => if accepts .multitaper kw then env.mt r s n a b m else .error .typeError }

/-- `rf` with further keywords. -/
def rfWith [Field K] [LinearOrder K] [FloorRing K] (kw : List String) (env : RfEnv K) (a : RfArgs K) (st : SState K) :
    SRes K :=
  rf { env with dec := withKeywords kw env.dec } a st

end

end Verif.Model.Keywords
