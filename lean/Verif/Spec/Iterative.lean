import Mathlib.Data.Real.Basic
import Verif.Spec.Freq
import Mathlib.Algebra.BigOperators.Group.Finset.Basic
import Mathlib.Algebra.Order.Archimedean.Real.Basic

/-!
# Specification vocabulary for the iterative deconvolution
-/

namespace Verif.Spec
open Finset

/-- Squared misfit between a response and a spike train convolved circularly with the source, `n` samples of
length `dt`. -/
noncomputable def misfit (n : ℕ) (dt : ℝ) (resp src p : ℕ → ℝ) : ℝ :=
  ∑ m ∈ range n, (resp m - dt * ∑ j ∈ range n, p j * src ((((m : ℤ) - j) % n).toNat)) ^ 2

/-- `p` with a spike of amplitude `b` added at position `i`. -/
noncomputable def addSpike (p : ℕ → ℝ) (i : ℕ) (b : ℝ) (j : ℕ) : ℝ := if j = i then p j + b else p j

/-- Admissible positions of spikes: lags `0 .. len-1`, and without muting the last `q` positions of the
circle, i.e. lags `-q .. -1`. -/
def Admissible (n len : ℕ) (mute : Bool) (q : ℤ) (i : ℕ) : Prop := i < len ∨ (mute = false ∧ (n : ℤ) ≤ i + q)

/-- Whole samples in the time `t`, rounded towards zero. -/
noncomputable def samplesIn (t sr : ℝ) : ℤ := if 0 ≤ t * sr then ⌊t * sr⌋ else -⌊-(t * sr)⌋

/-- The Gaussian pulse of width `g` (in the frequency domain) at time `t`, as a sum over the `n` frequencies of a
transform with sampling interval `dt`. -/
noncomputable def gaussPulse (n : ℕ) (dt g t : ℝ) : ℝ :=
  (∑ k ∈ range n, Real.exp (-(freqAt n dt k / g) ^ 2 / 2) * Real.cos (2 * Real.pi * freqAt n dt k * t)) / n

end Verif.Spec
