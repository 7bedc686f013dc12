import Verif.Spec.RecordRf
import Verif.Spec.Iterative

/-!
# Specification vocabulary: receiver functions made of Gaussian pulses
-/

namespace Verif.Spec
open Verif.Py Finset

/-- The source window starts `w0` seconds after the onset (before, if negative).  The copy of it that starts at sample
`k` of the record `t0` has its onset this time after `onset`. -/
noncomputable def copyTime (t0 : Trace ℝ) (onset w0 : ℝ) (k : ℕ) : ℝ := t0.start + (k : ℝ) / t0.sr - w0 - onset

/-- Gaussian pulses with the amplitudes `g[k] * sr` at the times `at k`, seen at the time `t`; times are taken modulo
the length `n / sr` of the transform window. -/
noncomputable def pulseTrain (n : ℕ) (sr gauss : ℝ) (g : List ℝ) (at_ : ℕ → ℝ) (t : ℝ) : ℝ :=
  ∑ k ∈ range n, g.getD k 0 * sr * gaussPulse n (1 / sr) gauss (t - at_ k)

/-- The record `rsp` is, in a transform window of `n` samples, the factor `a` times the source delayed by `d` samples. -/
def DelayedCopy (n : ℕ) (src rsp : List ℝ) (d : ℕ) (a : ℝ) : Prop :=
  ∀ m < n, rsp.getD m 0 = a * src.getD (((m : ℤ) - d) % (n : ℕ)).toNat 0

end Verif.Spec
