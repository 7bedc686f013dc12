import Verif.Py.Basic
import Mathlib.Algebra.BigOperators.Group.Finset.Basic
import Mathlib.Algebra.Order.Field.Basic

/-!
# Specification vocabulary for the time domain deconvolution
-/

namespace Verif.Spec
open Finset

variable {K : Type} [Field K]

/-- The array as a signal on all of ℤ, zero outside. -/
def sig (a : List K) (i : ℤ) : K := if 0 ≤ i then a.getD i.toNat 0 else 0

/-- Correlation of a signal with a source array at lag `d`: `∑ a(d + m) b(m)`. -/
def corrAt (a b : List K) (d : ℤ) : K := ∑ m ∈ range b.length, sig a (d + m) * sig b m

/-- The response is the convolution of the source with the series `x`, where sample `s` of the source stands for
time zero of the series; nothing is cut off. -/
def ConvOf (s : ℤ) (src x rsp : List K) : Prop :=
  ∀ n : ℤ, sig rsp n = ∑ l ∈ range x.length, x.getD l 0 * sig src (n - l + s)

/-- `x` solves the symmetric Toeplitz system with first row `a` and right hand side `y`. -/
def IsToeplitzSol (a y x : List K) : Prop :=
  x.length = a.length ∧ ∀ i < a.length,
    ∑ j ∈ range a.length, a.getD (((i : ℤ) - j).natAbs) 0 * x.getD j 0 = y.getD i 0

/-- A solver that returns the solution whenever there is exactly one. -/
def ExactSolver {E : Type} (solve : List K → List K → Except E (List K)) : Prop :=
  ∀ a y x, y.length = a.length → IsToeplitzSol a y x → (∀ x', IsToeplitzSol a y x' → x' = x) →
    solve a y = .ok x

end Verif.Spec
