import Verif.Spec.Convolution

/-!
# Specification of results with a given number of samples
-/

namespace Verif.Spec
open Finset

/-- The series `x` on the samples `e`, `e + 1`, ..., `e + L - 1`; zero where there is no sample. -/
def window {K : Type} [Field K] (e : ℤ) (L : ℕ) (x : List K) : List K :=
  (List.range L).map fun (k : ℕ) => sig x ((k : ℤ) + e)

/-- The response consists of copies of the source window, with `s` samples before the onset, which lie in the first `L`
samples. -/
def CopiesWithin (s : ℤ) (L : ℕ) (src x rsp : List ℝ) : Prop :=
  ConvOf s src x rsp ∧ ∀ l : ℕ, x.getD l 0 ≠ 0 → s ≤ l ∧ l < L ∧ (l : ℤ) - s + src.length ≤ L

end Verif.Spec
