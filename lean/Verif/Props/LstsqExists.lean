import Verif.Props.Harmonics
import Mathlib.Analysis.InnerProductSpace.Projection.FiniteDimensional
import Mathlib.Analysis.InnerProductSpace.PiL2

/-!
# The contract of `lstsq` can be met

Every system has a least squares solution of minimal norm, so the theorems on the harmonic decomposition are not
void.
-/

namespace Verif.Props
open Verif.Py Verif.Model Verif.Model.Harmonics Verif.Spec Finset

/-- The linear map of a matrix. -/
noncomputable def matMap {𝕜 : Type} [RCLike 𝕜] (m n : ℕ) (A : ℕ → ℕ → 𝕜) :
    EuclideanSpace 𝕜 (Fin n) →ₗ[𝕜] EuclideanSpace 𝕜 (Fin m) where
  toFun v := WithLp.toLp 2 fun i : Fin m => ∑ j : Fin n, A i j * v j
  map_add' v w := by
    ext i
    simp [mul_add, sum_add_distrib]
  map_smul' c v := by
    ext i
    simp [mul_sum]
    exact sum_congr rfl fun j _ => by ring

/-- The first `n` entries of a sequence as a vector. -/
noncomputable def vec {𝕜 : Type} [RCLike 𝕜] (n : ℕ) (x : ℕ → 𝕜) : EuclideanSpace 𝕜 (Fin n) :=
  WithLp.toLp 2 fun i => x i

theorem matMap_vec {𝕜 : Type} [RCLike 𝕜] (m n : ℕ) (A : ℕ → ℕ → 𝕜) (x : ℕ → 𝕜) :
    matMap m n A (vec n x) = vec m (mulVec n A x) := by
  ext i
  simp [matMap, vec, mulVec, Finset.sum_range]

theorem inner_vec {𝕜 : Type} [RCLike 𝕜] (n : ℕ) (x y : ℕ → 𝕜) : inner 𝕜 (vec n x) (vec n y) = dotP n x y := by
  unfold dotP vec
  rw [PiLp.inner_apply, Finset.sum_range]
  exact sum_congr rfl fun i _ => by simp [mul_comm]

theorem exists_vec {𝕜 : Type} [RCLike 𝕜] (n : ℕ) (v : EuclideanSpace 𝕜 (Fin n)) : ∃ x : ℕ → 𝕜, vec n x = v := by
  refine ⟨fun i => if h : i < n then v ⟨i, h⟩ else 0, ?_⟩
  ext i
  simp [vec]

theorem exists_normal {𝕜 : Type} [RCLike 𝕜] (m n : ℕ) (A : ℕ → ℕ → 𝕜) (b : ℕ → 𝕜) : ∃ x, Normal m n A b x := by
  set L := matMap m n A with hL
  obtain ⟨z, hz⟩ : ∃ z, L z = (LinearMap.range L).starProjection (vec m b) :=
    (LinearMap.range L).starProjection_apply_mem (vec m b)
  obtain ⟨x, hx⟩ := exists_vec n (z - (LinearMap.ker L).starProjection z)
  have hLx : L (vec n x) = (LinearMap.range L).starProjection (vec m b) := by
    have hk : L ((LinearMap.ker L).starProjection z) = 0 := LinearMap.mem_ker.1 (Submodule.starProjection_apply_mem _ _)
    rw [hx, map_sub, hk, sub_zero, hz]
  refine ⟨x, ?_, ?_⟩
  · intro y
    have h1 := Submodule.sub_starProjection_mem_orthogonal (K := LinearMap.range L) (vec m b)
    have h2 := (Submodule.mem_orthogonal _ _).1 h1 (L (vec n y)) (LinearMap.mem_range_self L _)
    rw [← hLx, hL, matMap_vec, matMap_vec, inner_sub_right, inner_vec, inner_vec] at h2
    rw [dotP_sub]
    linear_combination (-1 : 𝕜) * h2
  · intro y hy
    have h1 := Submodule.sub_starProjection_mem_orthogonal (K := LinearMap.ker L) z
    have hker : vec n y ∈ LinearMap.ker L := by
      rw [LinearMap.mem_ker, hL, matMap_vec]
      ext i
      simp [vec, hy i i.2]
    have h2 := (Submodule.mem_orthogonal _ _).1 h1 _ hker
    rw [← hx, inner_vec] at h2
    exact h2

/-- Some `lstsq`. -/
noncomputable def someLstsq : LstsqEnv where
  real A b := (List.range (A.headD []).length).map
    (exists_normal A.length (A.headD []).length (entry A) (b.getD · 0)).choose
  cplx A b := (List.range (A.headD []).length).map
    (exists_normal A.length (A.headD []).length (fun i j => ((entry A i j : ℝ) : ℂ)) (b.getD · 0)).choose

theorem normal_congr {𝕜 : Type} [RCLike 𝕜] {m n : ℕ} {A : ℕ → ℕ → 𝕜} {b x y : ℕ → 𝕜} (h : Normal m n A b x)
    (hxy : ∀ j < n, x j = y j) : Normal m n A b y := by
  constructor
  · intro z
    rw [← h.residual z]
    refine dotP_congr _ _ _ _ _ (fun _ _ => rfl) fun i _ => ?_
    rw [mulVec_congr n A x y hxy i]
  · intro z hz
    rw [← h.kernel z hz]
    exact dotP_congr _ _ _ _ _ (fun _ _ => rfl) fun i hi => (hxy i hi).symm

theorem range_getD {α : Type} [Zero α] (n : ℕ) (f : ℕ → α) (j : ℕ) (hj : j < n) :
    f j = ((List.range n).map f).getD j 0 := by
  rw [List.getD_eq_getElem _ _ (by simpa using hj)]
  simp

theorem someLstsq_ok : LstsqOk someLstsq where
  real n A b hA hn hb := by
    obtain ⟨r, rs, rfl⟩ := List.exists_cons_of_ne_nil hA
    have hr : ((r :: rs).headD []).length = n := hn r List.mem_cons_self
    refine ⟨by simp [someLstsq]; simpa using hr, ?_⟩
    refine Normal.minNorm (normal_congr ?_ (x := (exists_normal (r :: rs).length n (entry (r :: rs)) (b.getD · 0)).choose)
      ?_)
    · exact (exists_normal (r :: rs).length n (entry (r :: rs)) (b.getD · 0)).choose_spec
    · subst hr
      intro j hj
      exact range_getD _ _ j hj
  cplx n A b hA hn hb := by
    obtain ⟨r, rs, rfl⟩ := List.exists_cons_of_ne_nil hA
    have hr : ((r :: rs).headD []).length = n := hn r List.mem_cons_self
    refine ⟨by simp [someLstsq]; simpa using hr, ?_⟩
    refine Normal.minNorm (normal_congr ?_
      (x := (exists_normal (r :: rs).length n (fun i j => ((entry (r :: rs) i j : ℝ) : ℂ)) (b.getD · 0)).choose) ?_)
    · exact (exists_normal (r :: rs).length n (fun i j => ((entry (r :: rs) i j : ℝ) : ℂ)) (b.getD · 0)).choose_spec
    · subst hr
      intro j hj
      exact range_getD _ _ j hj

/-- The contract can be met. -/
theorem exists_lstsq : ∃ E, LstsqOk E := ⟨someLstsq, someLstsq_ok⟩

end Verif.Props
