import Verif.Spec.Lstsq
import Mathlib.Analysis.Complex.Basic
import Mathlib.Tactic.Linarith
import Mathlib.Tactic.FieldSimp

/-!
# Least squares solutions of minimal norm: characterisation, uniqueness, linearity
-/

set_option linter.unusedSimpArgs false
set_option linter.unusedSectionVars false

namespace Verif.Props
open Verif.Spec Finset
open scoped ComplexConjugate

section
variable {𝕜 : Type} [RCLike 𝕜]

/-- Inner product of the first `n` entries. -/
noncomputable def dotP (n : ℕ) (u v : ℕ → 𝕜) : 𝕜 := ∑ i ∈ range n, conj (u i) * v i

theorem dotP_add (n : ℕ) (u v w : ℕ → 𝕜) : dotP n u (fun i => v i + w i) = dotP n u v + dotP n u w := by
  unfold dotP; rw [← sum_add_distrib]; exact sum_congr rfl fun i _ => by ring

theorem dotP_sub (n : ℕ) (u v w : ℕ → 𝕜) : dotP n u (fun i => v i - w i) = dotP n u v - dotP n u w := by
  unfold dotP; rw [← sum_sub_distrib]; exact sum_congr rfl fun i _ => by ring

theorem dotP_smul (n : ℕ) (u v : ℕ → 𝕜) (c : 𝕜) : dotP n u (fun i => c * v i) = c * dotP n u v := by
  unfold dotP; rw [mul_sum]; exact sum_congr rfl fun i _ => by ring

theorem dotP_sub_left (n : ℕ) (u v w : ℕ → 𝕜) : dotP n (fun i => u i - v i) w = dotP n u w - dotP n v w := by
  unfold dotP; rw [← sum_sub_distrib]; exact sum_congr rfl fun i _ => by rw [map_sub]; ring

theorem dotP_congr (n : ℕ) (u u' v v' : ℕ → 𝕜) (hu : ∀ i < n, u i = u' i) (hv : ∀ i < n, v i = v' i) :
    dotP n u v = dotP n u' v' := by
  unfold dotP
  exact sum_congr rfl fun i hi => by rw [hu i (mem_range.1 hi), hv i (mem_range.1 hi)]

theorem dotP_conj (n : ℕ) (u v : ℕ → 𝕜) : conj (dotP n u v) = dotP n v u := by
  unfold dotP
  rw [map_sum]
  exact sum_congr rfl fun i _ => by rw [map_mul, RCLike.conj_conj, mul_comm]

theorem dotP_self (n : ℕ) (u : ℕ → 𝕜) : dotP n u u = ((sumSq n u : ℝ) : 𝕜) := by
  unfold dotP sumSq
  push_cast
  exact sum_congr rfl fun i _ => RCLike.conj_mul _

theorem sumSq_nonneg (n : ℕ) (u : ℕ → 𝕜) : 0 ≤ sumSq n u := sum_nonneg fun _ _ => by positivity

theorem sumSq_eq_zero (n : ℕ) (u : ℕ → 𝕜) (h : sumSq n u = 0) : ∀ i < n, u i = 0 := by
  intro i hi
  have := (sum_eq_zero_iff_of_nonneg (fun _ _ => by positivity)).1 h i (mem_range.2 hi)
  simpa using this

theorem sumSq_congr (n : ℕ) (u v : ℕ → 𝕜) (h : ∀ i < n, u i = v i) : sumSq n u = sumSq n v :=
  sum_congr rfl fun i hi => by rw [h i (mem_range.1 hi)]

/-- Expansion of the square of a sum. -/
theorem sumSq_add (n : ℕ) (u v : ℕ → 𝕜) :
    sumSq n (fun i => u i + v i) = sumSq n u + 2 * RCLike.re (dotP n u v) + sumSq n v := by
  have h : ((sumSq n (fun i => u i + v i) : ℝ) : 𝕜) =
      ((sumSq n u : ℝ) : 𝕜) + (dotP n u v + conj (dotP n u v)) + ((sumSq n v : ℝ) : 𝕜) := by
    rw [← dotP_self, ← dotP_self, ← dotP_self, dotP_conj]
    unfold dotP
    rw [← sum_add_distrib, ← sum_add_distrib, ← sum_add_distrib]
    exact sum_congr rfl fun i _ => by rw [map_add]; ring
  rw [RCLike.add_conj] at h
  exact_mod_cast h

/-- A vector which cannot be shortened by adding multiples of `v` is orthogonal to `v`. -/
theorem orthogonal_of_le (n : ℕ) (u v : ℕ → 𝕜) (h : ∀ c : 𝕜, sumSq n u ≤ sumSq n (fun i => u i + c * v i)) :
    dotP n v u = 0 := by
  by_cases hv : sumSq n v = 0
  · unfold dotP
    exact sum_eq_zero fun i hi => by rw [sumSq_eq_zero n v hv i (mem_range.1 hi)]; simp
  · have hpos : 0 < sumSq n v := lt_of_le_of_ne (sumSq_nonneg n v) (Ne.symm hv)
    set d := dotP n v u with hd
    have h1 := h (-(d / ((sumSq n v : ℝ) : 𝕜)))
    rw [sumSq_add, dotP_smul, ← dotP_conj n v u, ← hd] at h1
    have h2 : sumSq n (fun i => -(d / ((sumSq n v : ℝ) : 𝕜)) * v i) = ‖d‖ ^ 2 / sumSq n v := by
      unfold sumSq
      simp only [norm_mul, norm_neg, norm_div, mul_pow]
      rw [← mul_sum]
      change (‖d‖ / ‖((sumSq n v : ℝ) : 𝕜)‖) ^ 2 * sumSq n v = ‖d‖ ^ 2 / sumSq n v
      rw [RCLike.norm_ofReal, abs_of_pos hpos]
      field_simp
    have h3 : RCLike.re (-(d / ((sumSq n v : ℝ) : 𝕜)) * conj d) = -(‖d‖ ^ 2 / sumSq n v) := by
      have : -(d / ((sumSq n v : ℝ) : 𝕜)) * conj d = ((-(‖d‖ ^ 2 / sumSq n v) : ℝ) : 𝕜) := by
        have := RCLike.mul_conj d
        push_cast
        rw [← this]
        ring
      rw [this, RCLike.ofReal_re]
    rw [h2, h3] at h1
    have h4 : ‖d‖ ^ 2 / sumSq n v ≤ 0 := by linarith
    have h5 : 0 ≤ ‖d‖ ^ 2 / sumSq n v := by positivity
    have h6 : ‖d‖ ^ 2 / sumSq n v = 0 := le_antisymm h4 h5
    rw [div_eq_zero_iff] at h6
    rcases h6 with h6 | h6
    · simpa using h6
    · exact absurd h6 hv

theorem mulVec_add (n : ℕ) (A : ℕ → ℕ → 𝕜) (x y : ℕ → 𝕜) (i : ℕ) :
    mulVec n A (fun j => x j + y j) i = mulVec n A x i + mulVec n A y i := by
  unfold mulVec; rw [← sum_add_distrib]; exact sum_congr rfl fun i _ => by ring

theorem mulVec_sub (n : ℕ) (A : ℕ → ℕ → 𝕜) (x y : ℕ → 𝕜) (i : ℕ) :
    mulVec n A (fun j => x j - y j) i = mulVec n A x i - mulVec n A y i := by
  unfold mulVec; rw [← sum_sub_distrib]; exact sum_congr rfl fun i _ => by ring

theorem mulVec_smul (n : ℕ) (A : ℕ → ℕ → 𝕜) (c : 𝕜) (x : ℕ → 𝕜) (i : ℕ) :
    mulVec n A (fun j => c * x j) i = c * mulVec n A x i := by
  unfold mulVec; rw [mul_sum]; exact sum_congr rfl fun i _ => by ring

theorem mulVec_congr (n : ℕ) (A : ℕ → ℕ → 𝕜) (x y : ℕ → 𝕜) (h : ∀ j < n, x j = y j) (i : ℕ) :
    mulVec n A x i = mulVec n A y i :=
  sum_congr rfl fun j hj => by rw [h j (mem_range.1 hj)]

/-- Normal equations, and orthogonality to the kernel. -/
structure Normal (m n : ℕ) (A : ℕ → ℕ → 𝕜) (b x : ℕ → 𝕜) : Prop where
  residual : ∀ y : ℕ → 𝕜, dotP m (mulVec n A y) (fun i => mulVec n A x i - b i) = 0
  kernel : ∀ y : ℕ → 𝕜, (∀ i < m, mulVec n A y i = 0) → dotP n y x = 0

theorem minNorm_normal {m n : ℕ} {A : ℕ → ℕ → 𝕜} {b x : ℕ → 𝕜} (h : MinNormLS m n A b x) :
    Normal m n A b x := by
  constructor
  · intro y
    apply orthogonal_of_le
    intro c
    have := h.least (fun j => x j + c * y j)
    refine le_of_le_of_eq this (sumSq_congr _ _ _ fun i _ => ?_)
    rw [mulVec_add, mulVec_smul]
    ring
  · intro y hy
    apply orthogonal_of_le
    intro c
    apply h.minimal
    apply le_of_eq
    refine sumSq_congr _ _ _ fun i hi => ?_
    rw [mulVec_add, mulVec_smul, hy i hi]
    ring

theorem Normal.minNorm {m n : ℕ} {A : ℕ → ℕ → 𝕜} {b x : ℕ → 𝕜} (h : Normal m n A b x) :
    MinNormLS m n A b x := by
  have key : ∀ y : ℕ → 𝕜, sumSq m (fun i => mulVec n A y i - b i) =
      sumSq m (fun i => mulVec n A x i - b i) + sumSq m (mulVec n A (fun j => y j - x j)) := by
    intro y
    have : sumSq m (fun i => mulVec n A y i - b i) =
        sumSq m (fun i => mulVec n A (fun j => y j - x j) i + (mulVec n A x i - b i)) :=
      sumSq_congr _ _ _ fun i _ => by rw [mulVec_sub]; ring
    rw [this, sumSq_add, h.residual]
    simp
    ring
  constructor
  · intro y
    rw [key y]
    linarith [sumSq_nonneg m (mulVec n A (fun j => y j - x j))]
  · intro y hy
    rw [key y] at hy
    have h0 : sumSq m (mulVec n A (fun j => y j - x j)) = 0 :=
      le_antisymm (by linarith) (sumSq_nonneg _ _)
    have h1 := h.kernel (fun j => y j - x j) (sumSq_eq_zero _ _ h0)
    have h2 : sumSq n y = sumSq n (fun j => (y j - x j) + x j) := sumSq_congr _ _ _ fun j _ => by ring
    rw [h2, sumSq_add, h1]
    simp
    exact sumSq_nonneg _ _

/-- The solution is unique. -/
theorem Normal.unique {m n : ℕ} {A : ℕ → ℕ → 𝕜} {b x y : ℕ → 𝕜} (hx : Normal m n A b x)
    (hy : Normal m n A b y) : ∀ j < n, x j = y j := by
  have h1 : dotP m (mulVec n A (fun j => x j - y j)) (mulVec n A (fun j => x j - y j)) = 0 := by
    have e1 := hx.residual (fun j => x j - y j)
    have e2 := hy.residual (fun j => x j - y j)
    have : dotP m (mulVec n A (fun j => x j - y j)) (mulVec n A (fun j => x j - y j)) =
        dotP m (mulVec n A (fun j => x j - y j))
          (fun i => (mulVec n A x i - b i) - (mulVec n A y i - b i)) :=
      dotP_congr _ _ _ _ _ (fun _ _ => rfl) fun i _ => by rw [mulVec_sub]; ring
    rw [this, dotP_sub, e1, e2, sub_zero]
  rw [dotP_self] at h1
  have h2 : sumSq m (mulVec n A (fun j => x j - y j)) = 0 := by exact_mod_cast h1
  have h3 := hx.kernel _ (sumSq_eq_zero _ _ h2)
  have h4 := hy.kernel _ (sumSq_eq_zero _ _ h2)
  have h5 : dotP n (fun j => x j - y j) (fun j => x j - y j) = 0 := by
    rw [dotP_sub, h3, h4, sub_zero]
  rw [dotP_self] at h5
  have h6 : sumSq n (fun j => x j - y j) = 0 := by exact_mod_cast h5
  intro j hj
  exact sub_eq_zero.1 (sumSq_eq_zero _ _ h6 j hj)

theorem minNorm_unique {m n : ℕ} {A : ℕ → ℕ → 𝕜} {b x y : ℕ → 𝕜} (hx : MinNormLS m n A b x)
    (hy : MinNormLS m n A b y) : ∀ j < n, x j = y j := (minNorm_normal hx).unique (minNorm_normal hy)

/-- A consistent system with injective matrix is solved exactly. -/
theorem minNorm_exact {m n : ℕ} {A : ℕ → ℕ → 𝕜} {b x c : ℕ → 𝕜} (hx : MinNormLS m n A b x)
    (hb : ∀ i < m, b i = mulVec n A c i)
    (hinj : ∀ y : ℕ → 𝕜, (∀ i < m, mulVec n A y i = 0) → ∀ j < n, y j = 0) : ∀ j < n, x j = c j := by
  have h0 : sumSq m (fun i => mulVec n A c i - b i) = 0 := by
    have : sumSq m (fun i => mulVec n A c i - b i) = sumSq m (fun _ => (0 : 𝕜)) :=
      sumSq_congr _ _ _ fun i hi => by rw [hb i hi, sub_self]
    rw [this]
    simp [sumSq]
  have h1 := hx.least c
  rw [h0] at h1
  have h2 := sumSq_eq_zero _ _ (le_antisymm h1 (sumSq_nonneg _ _))
  intro j hj
  refine sub_eq_zero.1 (hinj (fun j => x j - c j) (fun i hi => ?_) j hj)
  rw [mulVec_sub, ← hb i hi]
  exact h2 i hi

/-- Linear combinations of right hand sides. -/
theorem Normal.sum {m n N : ℕ} {A : ℕ → ℕ → 𝕜} (b x : ℕ → ℕ → 𝕜) (w : ℕ → 𝕜)
    (h : ∀ t < N, Normal m n A (b t) (x t)) :
    Normal m n A (fun i => ∑ t ∈ range N, w t * b t i) (fun j => ∑ t ∈ range N, w t * x t j) := by
  have hd : ∀ (k : ℕ) (u : ℕ → 𝕜) (v : ℕ → ℕ → 𝕜),
      dotP k u (fun i => ∑ t ∈ range N, w t * v t i) = ∑ t ∈ range N, w t * dotP k u (v t) := by
    intro k u v
    unfold dotP
    simp only [mul_sum]
    rw [sum_comm]
    exact sum_congr rfl fun t _ => sum_congr rfl fun i _ => by ring
  have hm : ∀ i, mulVec n A (fun j => ∑ t ∈ range N, w t * x t j) i =
      ∑ t ∈ range N, w t * mulVec n A (x t) i := by
    intro i
    unfold mulVec
    simp only [mul_sum]
    rw [sum_comm]
    exact sum_congr rfl fun t _ => sum_congr rfl fun j _ => by ring
  constructor
  · intro y
    have : dotP m (mulVec n A y) (fun i => mulVec n A (fun j => ∑ t ∈ range N, w t * x t j) i -
        ∑ t ∈ range N, w t * b t i) =
        dotP m (mulVec n A y) (fun i => ∑ t ∈ range N, w t * (mulVec n A (x t) i - b t i)) := by
      refine dotP_congr _ _ _ _ _ (fun _ _ => rfl) fun i _ => ?_
      rw [hm, ← sum_sub_distrib]
      exact sum_congr rfl fun t _ => by ring
    rw [this, hd m _ (fun t i => mulVec n A (x t) i - b t i)]
    exact sum_eq_zero fun t ht => by rw [(h t (mem_range.1 ht)).residual y, mul_zero]
  · intro y hy
    rw [hd]
    exact sum_eq_zero fun t ht => by rw [(h t (mem_range.1 ht)).kernel y hy, mul_zero]

/-- An isometric change of the unknowns. -/
theorem minNorm_isometry {m n : ℕ} {A B : ℕ → ℕ → 𝕜} {b x : ℕ → 𝕜} (Q P : (ℕ → 𝕜) → ℕ → 𝕜)
    (hx : MinNormLS m n B b x) (hQ : ∀ y, ∀ i < m, mulVec n A (Q y) i = mulVec n B y i)
    (hiso : ∀ y, sumSq n (Q y) = sumSq n y) (hQP : ∀ y, ∀ j < n, Q (P y) j = y j) :
    MinNormLS m n A b (Q x) := by
  have e1 : ∀ y, sumSq m (fun i => mulVec n A (Q y) i - b i) = sumSq m (fun i => mulVec n B y i - b i) :=
    fun y => sumSq_congr _ _ _ fun i hi => by rw [hQ y i hi]
  have e2 : ∀ y, sumSq m (fun i => mulVec n A y i - b i) = sumSq m (fun i => mulVec n B (P y) i - b i) := by
    intro y
    rw [← e1]
    exact sumSq_congr _ _ _ fun i _ => by rw [mulVec_congr n A (Q (P y)) y (hQP y)]
  constructor
  · intro y
    rw [e1, e2]
    exact hx.least _
  · intro y hy
    rw [e1, e2] at hy
    rw [hiso, ← sumSq_congr n _ _ (hQP y), hiso]
    exact hx.minimal _ hy

end

/-- A real solution is the solution of the complex problem. -/
theorem Normal.ofReal {m n : ℕ} {A : ℕ → ℕ → ℝ} {b x : ℕ → ℝ} (h : Normal m n A b x) :
    Normal m n (fun i j => (A i j : ℂ)) (fun i => (b i : ℂ)) (fun j => (x j : ℂ)) := by
  have hm : ∀ (y : ℕ → ℂ) (i : ℕ), mulVec n (fun i j => (A i j : ℂ)) y i =
      ((mulVec n A (fun j => (y j).re) i : ℝ) : ℂ) + ((mulVec n A (fun j => (y j).im) i : ℝ) : ℂ) * Complex.I := by
    intro y i
    unfold mulVec
    push_cast
    rw [sum_mul, ← sum_add_distrib]
    refine sum_congr rfl fun j _ => ?_
    conv_lhs => rw [← Complex.re_add_im (y j)]
    ring
  have hre : ∀ (x : ℕ → ℝ) (i : ℕ), mulVec n (fun i j => (A i j : ℂ)) (fun j => (x j : ℂ)) i =
      ((mulVec n A x i : ℝ) : ℂ) := by
    intro x i
    unfold mulVec
    push_cast
    rfl
  have hdot : ∀ (k : ℕ) (u v w : ℕ → ℝ), dotP k (fun i => (u i : ℂ) + (v i : ℂ) * Complex.I) (fun i => (w i : ℂ)) =
      ((dotP k u w : ℝ) : ℂ) - ((dotP k v w : ℝ) : ℂ) * Complex.I := by
    intro k u v w
    unfold dotP
    push_cast
    rw [sum_mul, ← sum_sub_distrib]
    refine sum_congr rfl fun i _ => ?_
    simp only [map_add, map_mul, Complex.conj_ofReal, Complex.conj_I, conj_trivial]
    ring
  constructor
  · intro y
    have : dotP m (mulVec n (fun i j => (A i j : ℂ)) y)
        (fun i => mulVec n (fun i j => (A i j : ℂ)) (fun j => (x j : ℂ)) i - (b i : ℂ)) =
        dotP m (fun i => ((mulVec n A (fun j => (y j).re) i : ℝ) : ℂ) +
          ((mulVec n A (fun j => (y j).im) i : ℝ) : ℂ) * Complex.I)
          (fun i => ((mulVec n A x i - b i : ℝ) : ℂ)) := by
      refine dotP_congr _ _ _ _ _ (fun i _ => hm y i) fun i _ => ?_
      rw [hre]
      push_cast
      rfl
    rw [this, hdot m _ _ (fun i => mulVec n A x i - b i), h.residual, h.residual]
    simp
  · intro y hy
    have hy' : ∀ i < m, mulVec n A (fun j => (y j).re) i = 0 ∧ mulVec n A (fun j => (y j).im) i = 0 := by
      intro i hi
      have := hy i hi
      rw [hm] at this
      have h1 := congrArg Complex.re this
      have h2 := congrArg Complex.im this
      simp at h1 h2
      exact ⟨h1, h2⟩
    have : dotP n y (fun j => (x j : ℂ)) =
        dotP n (fun j => (((y j).re : ℝ) : ℂ) + (((y j).im : ℝ) : ℂ) * Complex.I) (fun j => (x j : ℂ)) :=
      dotP_congr _ _ _ _ _ (fun i _ => (Complex.re_add_im _).symm) fun _ _ => rfl
    rw [this, hdot, h.kernel _ fun i hi => (hy' i hi).1, h.kernel _ fun i hi => (hy' i hi).2]
    simp

end Verif.Props
