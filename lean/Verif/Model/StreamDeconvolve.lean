import Verif.Model.Stream

/-!
# Model of `rf/rfstream.py: RFStream.deconvolve` (lines 252-261) called by the user
-/

namespace Verif.Model
open Verif.Py

/-- rfstream.py 252-261: `deconvolve` (decorated, deconvolve.py 23, util.py 243-248) and
`self.traces = rsp.traces`; after an exception `self.traces` is not assigned. -/
def streamDeconvolve {K : Type} [Field K] [LinearOrder K] [FloorRing K] (env : DeconvEnv K) (info : Str)
    (a : DeconvArgs K) (st : SState K) : SRes K :=
  match deconvolve env st.1 st.2 a with
  | (h, .error e) => ((h, st.2), some e)
  | (h, .ok rsp) => ((addInfoAll info h rsp, rsp), none)

end Verif.Model
