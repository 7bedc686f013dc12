import Mathlib.Data.Real.Basic
import Verif.Spec.Freq
import Verif.Spec.Corr
import Mathlib.Algebra.BigOperators.Group.Finset.Basic
import Mathlib.Data.List.GetD

/-!
# Specification of convolutions of sampled series
-/

namespace Verif.Spec
open Finset

/-- The first `n` samples of `r` are the circular convolution of `s` and `g` over `n` samples. -/
def CircConv (n : ℕ) (s g r : List ℝ) : Prop :=
  ∀ j < n, r.getD j 0 = ∑ k ∈ range n, s.getD k 0 * g.getD (((j : ℤ) - k) % n).toNat 0

/-- The first `n` samples of `r` are the convolution of `s` and `g`. -/
def LinConv (n : ℕ) (s g r : List ℝ) : Prop :=
  ∀ j < n, r.getD j 0 = ∑ k ∈ range (j + 1), s.getD k 0 * g.getD (j - k) 0

/-- The source power reaches the water level at every frequency (for a level that is not positive: the
spectrum has no zero). -/
def AboveLevel (n : ℕ) (src : List ℝ) (wl : ℝ) : Prop :=
  ∀ k < n, dft src n k ≠ 0 ∧ (wl ≤ 0 ∨ ∀ j < n, wl * ‖dft src n j‖ ^ 2 ≤ ‖dft src n k‖ ^ 2)

/-- The response consists of copies of the source window: `x l` is the amplitude of the copy whose sample `s` (the
onset, for a window that starts `s` samples before it) falls on sample `l`; all copies lie inside of the `N` samples. -/
def CopiesOf (s : ℤ) (N : ℕ) (src x rsp : List ℝ) : Prop :=
  ConvOf s src x rsp ∧ x.length = N ∧ rsp.length = N ∧
    ∀ l < N, x.getD l 0 ≠ 0 → s ≤ l ∧ (l : ℤ) - s + src.length ≤ N

end Verif.Spec
