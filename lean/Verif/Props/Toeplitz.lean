import Verif.Props.Corr
import Mathlib.LinearAlgebra.FiniteDimensional.Basic
import Mathlib.LinearAlgebra.Matrix.ToLin
import Mathlib.LinearAlgebra.FiniteDimensional.Lemmas

/-!
# The linear system of `deconv_time`: C12, C13, C14
-/

set_option linter.unusedSimpArgs false
set_option linter.unusedSectionVars false

namespace Verif.Props
open Verif.Py Verif.Model Verif.Spec Finset

section sys
variable {K : Type} [Field K] [LinearOrder K] [IsStrictOrderedRing K]

/-- Energy of a source array. -/
def energy (a : List K) : K := ∑ m ∈ range a.length, a.getD m 0 ^ 2

theorem energy_eq (a : List K) : energy a = corrAt a a 0 := by
  unfold energy corrAt
  refine sum_congr rfl fun m _ => ?_
  rw [zero_add, sig_nat, sq]

/-- Autocorrelation as a correlation of two shifted copies on a common window. -/
theorem corr_conv (a : List K) (N i j : Nat) (hj : j < N) :
    corrAt a a ((j : ℤ) - i) = ∑ n ∈ range (N + a.length), sig a ((n : ℤ) - i) * sig a ((n : ℤ) - j) := by
  rw [sum_window _ j a.length _ (by omega)]
  · unfold corrAt
    refine sum_congr rfl fun m _ => ?_
    push_cast
    congr 2 <;> ring
  · intro n hn
    rw [sig_neg a ((n : ℤ) - j) (by omega), mul_zero]
  · intro n hn
    rw [sig_ge a ((n : ℤ) - j) (by omega), mul_zero]

theorem corr_symm (a : List K) (d : ℤ) : corrAt a a (-d) = corrAt a a d := by
  have key : ∀ i j : Nat, corrAt a a ((j : ℤ) - i) = corrAt a a ((i : ℤ) - j) := by
    intro i j
    rw [corr_conv a (i + j + 1) i j (by omega),
      corr_conv a (i + j + 1) j i (by omega)]
    exact sum_congr rfl fun n _ => mul_comm _ _
  rcases le_total 0 d with h | h
  · have := key d.toNat 0
    rw [show ((0 : Nat) : ℤ) - d.toNat = -d by omega, show (d.toNat : ℤ) - (0 : Nat) = d by omega] at this
    exact this
  · have := key 0 (-d).toNat
    rw [show ((-d).toNat : ℤ) - (0 : Nat) = -d by omega, show ((0 : Nat) : ℤ) - (-d).toNat = d by omega] at this
    exact this

theorem corr_natAbs (a : List K) (d : ℤ) : corrAt a a (d.natAbs : ℤ) = corrAt a a d := by
  rcases Int.natAbs_eq d with h | h
  · rw [← h]
  · have := corr_symm a d
    rw [← this]; congr 1; omega

/-- The quadratic form of the autocorrelation matrix is a sum of squares. -/
theorem quad_form (a : List K) (N : Nat) (x : Nat → K) :
    ∑ i ∈ range N, ∑ j ∈ range N, x i * (corrAt a a ((i : ℤ) - j) * x j)
      = ∑ n ∈ range (N + a.length), (∑ i ∈ range N, x i * sig a ((n : ℤ) - i)) ^ 2 := by
  have h1 : ∀ i ∈ range N, ∀ j ∈ range N, x i * (corrAt a a ((i : ℤ) - j) * x j)
      = ∑ n ∈ range (N + a.length), (x i * sig a ((n : ℤ) - i)) * (x j * sig a ((n : ℤ) - j)) := by
    intro i hi j hj
    rw [corr_conv a N j i (mem_range.1 hi), sum_mul, mul_sum]
    exact sum_congr rfl fun n _ => by ring
  rw [sum_congr rfl fun i hi => sum_congr rfl (h1 i hi)]
  rw [sum_congr rfl fun i _ => sum_comm, sum_comm]
  refine sum_congr rfl fun n _ => ?_
  rw [sq, sum_mul_sum]

/-- The first row of the matrix. -/
theorem stsVec_values (src : List K) (N : Nat) (hN : 1 ≤ N) (lam : K) (hE : energy src ≠ 0) :
    ∃ sts, stsVec src N lam = .ok sts ∧ sts.length = N ∧
      ∀ d < N, sts.getD d 0 = corrAt src src d / energy src + if d = 0 then lam else 0 := by
  obtain ⟨r, hr, hl, hv⟩ := C09_values src N hN
  have hc : ∀ k < N, r.getD k 0 = corrAt src src k := by
    intro k hk
    rw [hv k hk]
    unfold corrAt
    refine sum_congr rfl fun m _ => ?_
    rw [show ((k : ℤ) + (m : ℤ)) = ((k + m : Nat) : ℤ) by push_cast; ring, sig_nat, sig_nat]
  unfold stsVec
  rw [hr]
  simp only [bind, Except.bind]
  match r, hl, hc with
  | [], hl, _ => simp at hl; omega
  | r0 :: rs, hl, hc =>
    have h0 : r0 = energy src := by
      have := hc 0 (by omega)
      rw [energy_eq]; simpa using this
    simp only
    rw [if_neg (by rw [h0]; exact hE)]
    simp only [List.map_cons]
    refine ⟨_, rfl, by simpa using hl, ?_⟩
    intro d hd
    cases d with
    | zero =>
      have := hc 0 (by omega)
      simp only [List.getD_cons_zero] at this
      simp [energy_eq, h0]
    | succ d =>
      have := hc (d + 1) hd
      simp only [List.getD_cons_succ] at this
      simp only [List.getD_cons_succ, Nat.succ_ne_zero, if_false, add_zero, Nat.add_eq_zero_iff,
        one_ne_zero, and_false]
      rw [← this, h0]
      rw [List.getD_eq_getElem?_getD, List.getD_eq_getElem?_getD, List.getElem?_map]
      cases rs[d]? <;> simp

/-- The regularised form is positive. -/
theorem quad_pos (src : List K) (N : Nat) (lam : K) (hE : energy src ≠ 0) (x : Nat → K) :
    lam * ∑ i ∈ range N, x i ^ 2 ≤
      ∑ i ∈ range N, x i * ∑ j ∈ range N,
        (corrAt src src ((i : ℤ) - j) / energy src + if i = j then lam else 0) * x j := by
  have hE0 : 0 < energy src := lt_of_le_of_ne (sum_nonneg fun _ _ => sq_nonneg _) (Ne.symm hE)
  have e1 : ∑ i ∈ range N, x i * ∑ j ∈ range N,
        (corrAt src src ((i : ℤ) - j) / energy src + if i = j then lam else 0) * x j
      = (∑ i ∈ range N, ∑ j ∈ range N, x i * (corrAt src src ((i : ℤ) - j) * x j)) / energy src
        + lam * ∑ i ∈ range N, x i ^ 2 := by
    rw [Finset.sum_div, mul_sum, ← sum_add_distrib]
    refine sum_congr rfl fun i hi => ?_
    rw [Finset.sum_div]
    have e2 : ∑ j ∈ range N, (corrAt src src ((i : ℤ) - j) / energy src + if i = j then lam else 0) * x j
        = ∑ j ∈ range N, corrAt src src ((i : ℤ) - j) / energy src * x j + lam * x i := by
      rw [← sum_ite_eq_of_mem (range N) i (fun j => lam * x j) hi, ← sum_add_distrib]
      refine sum_congr rfl fun j _ => ?_
      split
      · ring
      · ring
    rw [e2, mul_add, mul_sum]
    congr 1
    · exact sum_congr rfl fun j _ => by ring
    · ring
  rw [e1, quad_form]
  have : 0 ≤ (∑ n ∈ range (N + src.length), (∑ i ∈ range N, x i * sig src ((n : ℤ) - i)) ^ 2) / energy src :=
    div_nonneg (sum_nonneg fun _ _ => sq_nonneg _) hE0.le
  linarith

/-- A list solves the system iff the corresponding functions do. -/
theorem isSol_iff (src : List K) (N : Nat) (lam : K) (sts : List K)
    (hl : sts.length = N)
    (hv : ∀ d < N, sts.getD d 0 = corrAt src src d / energy src + if d = 0 then lam else 0)
    (y x : List K) : IsToeplitzSol sts y x ↔ x.length = N ∧ ∀ i < N,
      ∑ j ∈ range N, (corrAt src src ((i : ℤ) - j) / energy src + if i = j then lam else 0) * x.getD j 0
        = y.getD i 0 := by
  unfold IsToeplitzSol
  rw [hl]
  refine and_congr_right fun _ => forall_congr' fun i => ?_
  refine imp_congr_right fun hi => ?_
  have : ∑ j ∈ range N, sts.getD (((i : ℤ) - j).natAbs) 0 * x.getD j 0
      = ∑ j ∈ range N, (corrAt src src ((i : ℤ) - j) / energy src + if i = j then lam else 0) * x.getD j 0 := by
    refine sum_congr rfl fun j hj => ?_
    have hj := mem_range.1 hj
    rw [hv _ (by omega), corr_natAbs]
    congr 3
    exact propext (by omega)
  rw [this]

theorem list_ext_getD (x x' : List K) (n : Nat) (h1 : x.length = n) (h2 : x'.length = n)
    (h : ∀ i < n, x.getD i 0 = x'.getD i 0) : x = x' := by
  refine List.ext_getElem (by omega) fun i hi hi' => ?_
  have := h i (by omega)
  rwa [List.getD_eq_getElem _ _ hi, List.getD_eq_getElem _ _ hi'] at this

/-- **C12**.  For every source with energy, every `spiking > 0`, every `length >= 1` and every right hand
side the regularised symmetric Toeplitz system has exactly one solution. -/
theorem C12_unique_solution (src : List K) (hE : ∃ v ∈ src, v ≠ 0) (lam : K) (hlam : 0 < lam) (N : Nat)
    (hN : 1 ≤ N) :
    ∃ sts, stsVec src N lam = .ok sts ∧ sts.length = N ∧
      ∀ y : List K, ∃ x, IsToeplitzSol sts y x ∧ ∀ x', IsToeplitzSol sts y x' → x' = x := by
  have hE : energy src ≠ 0 := by
    obtain ⟨v, hv, hne⟩ := hE
    obtain ⟨i, hi, rfl⟩ := List.getElem_of_mem hv
    have : 0 < src.getD i 0 ^ 2 := by
      rw [List.getD_eq_getElem _ _ hi]; positivity
    have h2 : src.getD i 0 ^ 2 ≤ energy src :=
      single_le_sum (f := fun m => src.getD m 0 ^ 2) (fun _ _ => sq_nonneg _) (mem_range.2 hi)
    exact (lt_of_lt_of_le this h2).ne'
  obtain ⟨sts, hs, hl, hv⟩ := stsVec_values src N hN lam hE
  refine ⟨sts, hs, hl, fun y => ?_⟩
  let A : Nat → Nat → K := fun i j =>
    corrAt src src ((i : ℤ) - j) / energy src + if i = j then lam else 0
  let L : (Fin N → K) →ₗ[K] (Fin N → K) :=
    { toFun := fun v i => ∑ j : Fin N, A i j * v j
      map_add' := by
        intro u v; funext i
        simp only [Pi.add_apply]
        rw [← sum_add_distrib]
        exact sum_congr rfl fun j _ => by ring
      map_smul' := by
        intro c v; funext i
        simp only [Pi.smul_apply, smul_eq_mul, RingHom.id_apply]
        rw [mul_sum]
        exact sum_congr rfl fun j _ => by ring }
  have hinj : Function.Injective L := by
    rw [injective_iff_map_eq_zero]
    intro v hv0
    have hq := quad_pos src N lam hE (fun i => if h : i < N then v ⟨i, h⟩ else 0)
    have hz : ∀ i < N, ∑ j ∈ range N, A i j * (if h : j < N then v ⟨j, h⟩ else 0) = 0 := by
      intro i hi
      have := congrFun hv0 ⟨i, hi⟩
      simp only [L, LinearMap.coe_mk, AddHom.coe_mk, Pi.zero_apply] at this
      rw [← this, Finset.sum_range]
      refine sum_congr rfl fun j _ => ?_
      simp
    have hz' : ∑ i ∈ range N, (if h : i < N then v ⟨i, h⟩ else 0) * ∑ j ∈ range N,
        (corrAt src src ((i : ℤ) - j) / energy src + if i = j then lam else 0) *
          (if h : j < N then v ⟨j, h⟩ else 0) = 0 := by
      refine sum_eq_zero fun i hi => ?_
      have := hz i (mem_range.1 hi)
      simp only [A] at this
      rw [this, mul_zero]
    rw [hz'] at hq
    have hsum : ∑ i ∈ range N, (if h : i < N then v ⟨i, h⟩ else 0) ^ 2 = 0 := by
      refine le_antisymm ?_ (sum_nonneg fun _ _ => sq_nonneg _)
      by_contra hc
      push Not at hc
      have := mul_pos hlam hc
      linarith
    rw [sum_eq_zero_iff_of_nonneg fun _ _ => sq_nonneg _] at hsum
    funext i
    have := hsum i (mem_range.2 i.2)
    simpa using this
  have hsurj : Function.Surjective L := LinearMap.injective_iff_surjective.1 hinj
  have toFn : ∀ x : List K, IsToeplitzSol sts y x ↔
      x.length = N ∧ L (fun i => x.getD i.val 0) = fun i => y.getD i.val 0 := by
    intro x
    rw [isSol_iff src N lam sts hl hv]
    refine and_congr_right fun _ => ?_
    constructor
    · intro h
      funext i
      rw [← h i i.2, Finset.sum_range]
      rfl
    · intro h i hi
      have := congrFun h ⟨i, hi⟩
      rw [← this, Finset.sum_range]
      rfl
  obtain ⟨v, hv0⟩ := hsurj (fun i => y.getD i 0)
  have hx : IsToeplitzSol sts y (List.ofFn v) := by
    rw [toFn]
    refine ⟨by simp, ?_⟩
    rw [← hv0]
    congr 1
    funext i
    rw [List.getD_eq_getElem _ _ (by simp)]
    simp
  refine ⟨List.ofFn v, hx, fun x' hx' => ?_⟩
  rw [toFn] at hx hx'
  have := hinj (hx'.2.trans hx.2.symm)
  refine list_ext_getD _ _ N hx'.1 hx.1 fun i hi => ?_
  exact congrFun this ⟨i, hi⟩

end sys
end Verif.Props
