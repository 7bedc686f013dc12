import Verif.Spec.RecordRf

/-!
# Specification vocabulary: a conversion in a series of amplitudes
-/

namespace Verif.Spec
open Verif.Py

variable {K : Type} [Field K] [LinearOrder K]

/-- The amplitudes `x` on the samples of the trace `t0` belong to a conversion with delay time `τ`: the time `τ` after
(method P) or before (method S) the onset lies between two samples with a distance of `δ` in time, at which the
amplitudes are between `lo` and `hi`. -/
def Conversion (m : Str) (t0 : Trace K) (onset : K) (x : List K) (τ δ lo hi : K) : Prop :=
  ∃ (i i' : Nat) (v v' : K), x[i]? = some v ∧ x[i']? = some v' ∧ lo ≤ v ∧ v ≤ hi ∧ lo ≤ v' ∧ v' ≤ hi ∧
    0 < lagSign m * (t0.start + (i : K) / t0.sr - onset) ∧
    lagSign m * (t0.start + (i : K) / t0.sr - onset) ≤ τ ∧
    τ < lagSign m * (t0.start + (i' : K) / t0.sr - onset) ∧
    lagSign m * (t0.start + (i' : K) / t0.sr - onset) = lagSign m * (t0.start + (i : K) / t0.sr - onset) + δ

end Verif.Spec
