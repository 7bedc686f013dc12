import Mathlib.Analysis.RCLike.Basic
import Mathlib.Algebra.BigOperators.Group.Finset.Basic

/-!
# Least squares solution of minimal norm

What `numpy.linalg.lstsq` documents: the solution minimises the residual, and among the minimising vectors it is
the one with the smallest norm.
-/

namespace Verif.Spec
open Finset

variable {𝕜 : Type} [RCLike 𝕜]

/-- Matrix times vector, `n` columns. -/
def mulVec (n : ℕ) (A : ℕ → ℕ → 𝕜) (x : ℕ → 𝕜) (i : ℕ) : 𝕜 := ∑ j ∈ range n, A i j * x j

/-- Sum of the squared absolute values of `n` entries. -/
def sumSq (n : ℕ) (x : ℕ → 𝕜) : ℝ := ∑ i ∈ range n, ‖x i‖ ^ 2

/-- `x` is the least squares solution of minimal norm of `A x = b` for `m` equations, `n` unknowns. -/
structure MinNormLS (m n : ℕ) (A : ℕ → ℕ → 𝕜) (b x : ℕ → 𝕜) : Prop where
  least : ∀ y : ℕ → 𝕜, sumSq m (fun i => mulVec n A x i - b i) ≤ sumSq m (fun i => mulVec n A y i - b i)
  minimal : ∀ y : ℕ → 𝕜, sumSq m (fun i => mulVec n A y i - b i) ≤ sumSq m (fun i => mulVec n A x i - b i) →
    sumSq n x ≤ sumSq n y

end Verif.Spec
