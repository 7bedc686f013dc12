import Mathlib.Analysis.SpecialFunctions.Trigonometric.Basic

/-!
# Specification vocabulary: coverage of back azimuths
-/

namespace Verif.Spec

/-- The back azimuths (degrees) of the traces are evenly distributed: in some order they are multiples of the N-th part of
a full turn after the first one, up to full turns. -/
def Evenly (l : List ℕ) (B : ℕ → ℝ) : Prop :=
  ∃ (l' : List ℕ) (b0 : ℝ), l'.Perm l ∧ ∀ i (hi : i < l'.length), ∃ k : ℤ,
    B l'[i] = b0 + 360 * ((i : ℝ) / (l'.length : ℝ)) + 360 * k

/-- The directions of the traces are balanced up to order four: the sums of sines and cosines of multiples vanish. -/
def Balanced (l : List ℕ) (B : ℕ → ℝ) : Prop :=
  ∀ k : ℕ, 1 ≤ k → k ≤ 4 → (l.map fun r => Real.cos (k * (B r * Real.pi / 180))).sum = 0 ∧
    (l.map fun r => Real.sin (k * (B r * Real.pi / 180))).sum = 0

/-- The terms of the decomposition: constant, cosine and sine of the angle (degrees) and of twice the angle. -/
noncomputable def angular (k : ℕ) (degrees : ℝ) : ℝ :=
  match k with
  | 0 => 1
  | 1 => Real.cos (degrees * Real.pi / 180)
  | 2 => Real.sin (degrees * Real.pi / 180)
  | 3 => Real.cos (2 * (degrees * Real.pi / 180))
  | _ => Real.sin (2 * (degrees * Real.pi / 180))

/-- The ten terms of a decomposition with scalars `s0` and `s1`, made of the five terms `u` and `v` of the
two components. -/
noncomputable def combined (s0 s1 : ℝ) (u v : ℕ → ℝ) : ℕ → ℝ
  | 0 => u 0 / s0
  | 1 => (u 1 - v 2) / 2
  | 2 => (u 2 + v 1) / 2
  | 3 => (u 3 - v 4) / 2
  | 4 => (u 4 + v 3) / 2
  | 5 => v 0 / s1
  | 6 => (u 1 + v 2) / 2
  | 7 => (u 2 - v 1) / 2
  | 8 => (u 3 + v 4) / 2
  | _ => (u 4 - v 3) / 2

end Verif.Spec
