import Mathlib.Analysis.SpecialFunctions.Exp
import Mathlib.Analysis.Complex.Trigonometric
import Mathlib.Analysis.Real.Pi.Bounds
import Mathlib.Algebra.BigOperators.Group.Finset.Basic

/-!
# Specification vocabulary for the frequency domain methods
-/

namespace Verif.Spec
open Finset Complex

/-- The character `exp(2πi j / n)`. -/
noncomputable def chr (n : ℕ) (j : ℤ) : ℂ := Complex.exp (2 * Real.pi * I * j / n)

/-- Discrete Fourier transform of a real array, cut or zero-padded to `n` samples, at frequency index `k`. -/
noncomputable def dft (x : List ℝ) (n k : ℕ) : ℂ := ∑ j ∈ range n, (x.getD j 0 : ℝ) * chr n (-(j * k))

/-- `x` consists of the first `N` samples of the inverse transform of the spectrum `X` of length `n`. -/
def HasSpectrum (x : List ℂ) (N n : ℕ) (X : ℕ → ℂ) : Prop :=
  x.length = min N n ∧ ∀ m < x.length, x.getD m 0 = (∑ k ∈ range n, X k * chr n (k * m)) / n

/-- Frequency belonging to index `k` of a transform of length `n`: the representative of `k` modulo `n` in
`[-n/2, n/2)`, divided by the duration. -/
noncomputable def freqAt (n : ℕ) (dt : ℝ) (k : ℕ) : ℝ :=
  ((if 2 * k < n then (k : ℤ) else (k : ℤ) - n : ℤ) : ℝ) / (n * dt)

/-- Delay by `T`, and a Gaussian low-pass of width `g` (the exponent is cut at -700). -/
noncomputable def filterAt (n : ℕ) (dt T : ℝ) (gauss : Option ℝ) (k : ℕ) : ℂ :=
  (match gauss with
    | none => 1
    | some g => (Real.exp (max (-((freqAt n dt k) / g) ^ 2 / 2) (-700)) : ℝ)) *
  Complex.exp (-2 * Real.pi * I * freqAt n dt k * T)

/-- The number of output samples of a deconvolution: `length`, by default the length of the first response. -/
def outLen {α : Type} (rsp : List (List α)) (length : Option ℕ) : Option ℕ :=
  length <|> rsp.head?.map List.length

end Verif.Spec
