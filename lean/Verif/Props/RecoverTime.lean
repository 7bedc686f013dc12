import Verif.Props.DeconvTime

/-!
# The time domain deconvolution undoes a convolution (C142)
-/

set_option linter.unusedSimpArgs false
set_option linter.unusedSectionVars false

namespace Verif.Props
open Verif.Py Verif.Model Verif.Spec Finset

section
variable {K : Type} [Field K] [LinearOrder K] [IsStrictOrderedRing K]

/-- Convolving a nonzero source with a series gives zero only for the zero series. -/
theorem conv_inj (src : List K) (hE : ∃ v ∈ src, v ≠ 0) (N : ℕ) (v : ℕ → K)
    (h0 : ∀ n < N + src.length, ∑ i ∈ range N, v i * sig src ((n : ℤ) - i) = 0) : ∀ i < N, v i = 0 := by
  -- the first nonzero sample of the source
  have hex : ∃ m, m < src.length ∧ src.getD m 0 ≠ 0 := by
    obtain ⟨w, hw, hne⟩ := hE
    obtain ⟨i, hi, rfl⟩ := List.getElem_of_mem hw
    exact ⟨i, hi, by rw [List.getD_eq_getElem _ _ hi]; exact hne⟩
  classical
  let m := Nat.find hex
  obtain ⟨hm, hmne⟩ := Nat.find_spec hex
  have hbefore : ∀ j : ℤ, j < m → sig src j = 0 := by
    intro j hj
    unfold sig
    split
    · rename_i h
      by_contra hne
      have hlt : j.toNat < m := by omega
      exact Nat.find_min hex hlt ⟨by omega, hne⟩
    · rfl
  intro i
  induction i using Nat.strong_induction_on with
  | _ i ih =>
    intro hi
    have := h0 (m + i) (by omega)
    rw [sum_eq_single i] at this
    · rw [show ((m + i : ℕ) : ℤ) - i = (m : ℕ) by push_cast; ring, sig_nat] at this
      rcases mul_eq_zero.1 this with h | h
      · exact h
      · exact absurd h hmne
    · intro j hj hne
      rcases lt_or_gt_of_ne hne with hlt | hgt
      · rw [ih j hlt (by omega), zero_mul]
      · rw [hbefore _ (by push_cast; omega), mul_zero]
    · intro h
      exact absurd (mem_range.2 hi) h

/-- The system has at most one solution, also without noise. -/
theorem sol_unique_zero (src : List K) (hE : ∃ v ∈ src, v ≠ 0) (N : ℕ) (lam : K) (hlam : 0 ≤ lam) (sts : List K)
    (hl : sts.length = N)
    (hv : ∀ d < N, sts.getD d 0 = corrAt src src d / energy src + if d = 0 then lam else 0)
    (y x x' : List K) (hx : IsToeplitzSol sts y x) (hx' : IsToeplitzSol sts y x') : x' = x := by
  have hE0 := energy_pos src hE
  rw [isSol_iff src N lam sts hl hv] at hx hx'
  refine list_ext_getD _ _ N hx'.1 hx.1 fun i hi => ?_
  set v : ℕ → K := fun j => x'.getD j 0 - x.getD j 0 with hvdef
  have hz : ∀ i < N, ∑ j ∈ range N, (corrAt src src ((i : ℤ) - j) / energy src + if i = j then lam else 0) * v j = 0 := by
    intro i hi
    have : ∀ j : ℕ, (corrAt src src ((i : ℤ) - j) / energy src + if i = j then lam else 0) * v j =
        (corrAt src src ((i : ℤ) - j) / energy src + if i = j then lam else 0) * x'.getD j 0 -
        (corrAt src src ((i : ℤ) - j) / energy src + if i = j then lam else 0) * x.getD j 0 := fun j => by
      rw [hvdef]; ring
    rw [sum_congr rfl fun j _ => this j, sum_sub_distrib, hx.2 i hi, hx'.2 i hi, sub_self]
  -- without the noise the form is a sum of squares
  have hq := quad_form src N v
  have hq0 := quad_pos src N lam hE0.ne' v
  have hsum : ∑ i ∈ range N, v i * ∑ j ∈ range N,
      (corrAt src src ((i : ℤ) - j) / energy src + if i = j then lam else 0) * v j = 0 :=
    sum_eq_zero fun i hi => by rw [hz i (mem_range.1 hi), mul_zero]
  have e1 : ∑ i ∈ range N, v i * ∑ j ∈ range N,
        (corrAt src src ((i : ℤ) - j) / energy src + if i = j then lam else 0) * v j
      = (∑ i ∈ range N, ∑ j ∈ range N, v i * (corrAt src src ((i : ℤ) - j) * v j)) / energy src
        + lam * ∑ i ∈ range N, v i ^ 2 := by
    rw [Finset.sum_div, mul_sum, ← sum_add_distrib]
    refine sum_congr rfl fun i hi => ?_
    rw [Finset.sum_div]
    have e2 : ∑ j ∈ range N, (corrAt src src ((i : ℤ) - j) / energy src + if i = j then lam else 0) * v j
        = ∑ j ∈ range N, corrAt src src ((i : ℤ) - j) / energy src * v j + lam * v i := by
      rw [← sum_ite_eq_of_mem (range N) i (fun j => lam * v j) hi, ← sum_add_distrib]
      refine sum_congr rfl fun j _ => ?_
      split
      · ring
      · ring
    rw [e2, mul_add, mul_sum]
    congr 1
    · exact sum_congr rfl fun j _ => by ring
    · ring
  rw [hsum, hq] at e1
  have h1 : 0 ≤ (∑ n ∈ range (N + src.length), (∑ i ∈ range N, v i * sig src ((n : ℤ) - i)) ^ 2) / energy src :=
    div_nonneg (sum_nonneg fun _ _ => sq_nonneg _) hE0.le
  have h2 : 0 ≤ lam * ∑ i ∈ range N, v i ^ 2 := mul_nonneg hlam (sum_nonneg fun _ _ => sq_nonneg _)
  have h3 : ∑ n ∈ range (N + src.length), (∑ i ∈ range N, v i * sig src ((n : ℤ) - i)) ^ 2 = 0 := by
    have : (∑ n ∈ range (N + src.length), (∑ i ∈ range N, v i * sig src ((n : ℤ) - i)) ^ 2) / energy src = 0 := by
      linarith
    rcases div_eq_zero_iff.1 this with h | h
    · exact h
    · exact absurd h hE0.ne'
  rw [sum_eq_zero_iff_of_nonneg fun _ _ => sq_nonneg _] at h3
  have := conv_inj src hE N v (fun n hn => by
    have := h3 n (mem_range.2 hn)
    exact pow_eq_zero_iff (two_ne_zero) |>.1 this) i hi
  exact sub_eq_zero.1 this

/-- The cross-correlation of a convolution with the source: the autocorrelation matrix applied to the series. -/
theorem xcorrt_conv (src x rsp : List K) (s : ℤ) (N : ℕ) (hN : 1 ≤ N) (hr : rsp.length = N) (hx : x.length = N)
    (hw : src.length % 2 = 1 ∨ (0 < s ∧ s < src.length)) (hconv : ConvOf s src x rsp) (i : ℕ) (hi : i < N) :
    (xcorrt rsp src N (s - (src.length / 2 : ℕ))).getD i 0
      = ∑ j ∈ range N, corrAt src src ((i : ℤ) - j) * x.getD j 0 := by
  subst hr
  rw [xcorrt_eq _ _ _ _ hN, xcorrOffset_value, if_neg (by omega), List.getD_eq_getElem _ _ (by simpa using hi)]
  simp only [List.getElem_map, List.getElem_range]
  unfold corrAt
  have : ∀ m ∈ range src.length, sig rsp ((i : ℤ) + -s + m) * sig src m =
      ∑ j ∈ range rsp.length, x.getD j 0 * sig src ((i : ℤ) - j + m) * sig src m := by
    intro m _
    rw [hconv, hx, sum_mul]
    refine sum_congr rfl fun j _ => ?_
    congr 3
    ring
  rw [sum_congr rfl this, sum_comm]
  refine sum_congr rfl fun j _ => ?_
  rw [sum_mul]
  exact sum_congr rfl fun m _ => by ring

/-- **C142** The result `y` of the time domain deconvolution of a convolution with `x` (whatever the noise `lam`) is
the solution of the normal equations with the right hand side made of `x`. -/
theorem C142_equation (src x rsp y : List K) (hE : ∃ v ∈ src, v ≠ 0) (s : ℤ) (N : ℕ) (hN : 1 ≤ N)
    (hr : rsp.length = N) (hx : x.length = N) (hw : src.length % 2 = 1 ∨ (0 < s ∧ s < src.length))
    (hconv : ConvOf s src x rsp) (lam : K) (sts : List K) (hsts : stsVec src N lam = .ok sts)
    (hy : IsToeplitzSol sts (xcorrt rsp src N (s - (src.length / 2 : ℕ))) y) :
    y.length = N ∧ ∀ i < N, ∑ j ∈ range N, corrAt src src ((i : ℤ) - j) * (y.getD j 0 / energy src) + lam * y.getD i 0
      = ∑ j ∈ range N, corrAt src src ((i : ℤ) - j) * x.getD j 0 := by
  have hE0 := energy_pos src hE
  obtain ⟨sts', a1, a2, a3⟩ := stsVec_values src N hN lam hE0.ne'
  rw [hsts] at a1
  injection a1 with a1
  subst a1
  rw [isSol_iff src N lam sts a2 a3] at hy
  refine ⟨hy.1, fun i hi => ?_⟩
  rw [← xcorrt_conv src x rsp s N hN hr hx hw hconv i hi, ← hy.2 i hi]
  rw [← sum_ite_eq_of_mem (range N) i (fun j => lam * y.getD j 0) (mem_range.2 hi), ← sum_add_distrib]
  refine sum_congr rfl fun j _ => ?_
  split
  · ring
  · ring

/-- The series, multiplied by the energy of the source, solves the system without noise. -/
theorem conv_sol (src x rsp : List K) (hE : ∃ v ∈ src, v ≠ 0) (s : ℤ) (N : ℕ) (hN : 1 ≤ N)
    (hr : rsp.length = N) (hx : x.length = N) (hw : src.length % 2 = 1 ∨ (0 < s ∧ s < src.length))
    (hconv : ConvOf s src x rsp) (sts : List K) (hl : sts.length = N)
    (hv : ∀ d < N, sts.getD d 0 = corrAt src src d / energy src + if d = 0 then (0 : K) else 0) :
    IsToeplitzSol sts (xcorrt rsp src N (s - (src.length / 2 : ℕ))) (x.map (energy src * ·)) := by
  have hE0 := energy_pos src hE
  rw [isSol_iff src N 0 sts hl hv]
  refine ⟨by simpa using hx, fun i hi => ?_⟩
  rw [xcorrt_conv src x rsp s N hN hr hx hw hconv i hi]
  refine sum_congr rfl fun j _ => ?_
  rw [getD_map_mul]
  simp only [ite_self, add_zero]
  field_simp

/-- **C142** Without noise (`spiking=0`) and without normalisation each result is the series, multiplied with the
energy of the source; with normalisation by the result `i` the series are divided by the largest absolute value of
series `i`. -/
theorem C142_exact (solve : List K → List K → Res (List K)) (hsolve : ExactSolver solve) (src : List K)
    (hE : ∃ v ∈ src, v ≠ 0) (s : ℤ) (N : ℕ) (hN : 1 ≤ N) (hw : src.length % 2 = 1 ∨ (0 < s ∧ s < src.length))
    (rsp xs : List (List K)) (hlen : ∀ r ∈ rsp, r.length = N)
    (hconv : List.Forall₂ (fun r x => x.length = N ∧ ConvOf s src x r) rsp xs) (normalize : Option ℤ)
    (length : Option ℕ) (hl : length = some N ∨ length = none ∧ rsp ≠ []) :
    deconvTime solve rsp src (s - (src.length / 2 : ℕ)) 0 length normalize =
      match normalize with
      | none => .ok (xs.map (·.map (energy src * ·)))
      | some i => normalizeAll xs i := by
  have hE0 := energy_pos src hE
  obtain ⟨sts, a1, a2, a3⟩ := stsVec_values src N hN (0 : K) hE0.ne'
  have hloop : timeLoop solve sts src N (s - (src.length / 2 : ℕ)) rsp = .ok (xs.map (·.map (energy src * ·))) := by
    clear hl
    induction hconv with
    | nil => rfl
    | @cons r x rs xs h1 _ ih =>
      have hr := hlen r List.mem_cons_self
      have hsol := conv_sol src x r hE s N hN hr h1.1 hw h1.2 sts a2 a3
      have := hsolve sts (xcorrt r src N (s - (src.length / 2 : ℕ))) _ (by rw [C10_length _ _ _ _ hN, a2]) hsol
        (fun x' hx' => sol_unique_zero src hE N 0 le_rfl sts a2 a3 _ _ _ hsol hx')
      unfold timeLoop
      simp only [C10_length _ _ _ _ hN, a2, ne_eq, not_true_eq_false, if_false, this,
        ih (fun q hq => hlen q (List.mem_cons_of_mem _ hq)), bind, Except.bind, List.map_cons]
  unfold deconvTime
  rcases hl with rfl | ⟨rfl, hne⟩
  · simp only [bind, Except.bind, a1, hloop]
    cases normalize with
    | none => rfl
    | some i => exact normalizeAll_smul _ hE0 _ _
  · cases rsp with
    | nil => exact absurd rfl hne
    | cons r rs =>
      simp only [bind, Except.bind, hlen r List.mem_cons_self, a1, hloop]
      cases normalize with
      | none => rfl
      | some i => exact normalizeAll_smul _ hE0 _ _

/-- **C142** With noise `lam > 0` the result differs from the (scaled) series by at most the part `lam / (mu + lam)`
of it in the mean square, where `mu >= 0` is a lower bound of the normalised autocorrelation matrix. -/
theorem C142_bound (src x rsp y : List K) (hE : ∃ v ∈ src, v ≠ 0) (s : ℤ) (N : ℕ) (hN : 1 ≤ N)
    (hr : rsp.length = N) (hx : x.length = N) (hw : src.length % 2 = 1 ∨ (0 < s ∧ s < src.length))
    (hconv : ConvOf s src x rsp) (lam : K) (hlam : 0 < lam) (sts : List K) (hsts : stsVec src N lam = .ok sts)
    (hy : IsToeplitzSol sts (xcorrt rsp src N (s - (src.length / 2 : ℕ))) y) (mu : K) (hmu0 : 0 ≤ mu)
    (hmu : ∀ v : ℕ → K, mu * ∑ i ∈ range N, v i ^ 2 ≤
      ∑ i ∈ range N, v i * ∑ j ∈ range N, corrAt src src ((i : ℤ) - j) / energy src * v j) :
    (mu + lam) ^ 2 * ∑ i ∈ range N, (energy src * x.getD i 0 - y.getD i 0) ^ 2
      ≤ lam ^ 2 * ∑ i ∈ range N, (energy src * x.getD i 0) ^ 2 := by
  have hE0 := energy_pos src hE
  obtain ⟨-, heq⟩ := C142_equation src x rsp y hE s N hN hr hx hw hconv lam sts hsts hy
  set v : ℕ → K := fun i => energy src * x.getD i 0 - y.getD i 0 with hv
  set u : ℕ → K := fun i => energy src * x.getD i 0 with hu
  have hd : ∀ i < N, ∑ j ∈ range N, corrAt src src ((i : ℤ) - j) / energy src * v j = lam * (u i - v i) := by
    intro i hi
    have h1 := heq i hi
    have e : ∑ j ∈ range N, corrAt src src ((i : ℤ) - j) / energy src * v j =
        ∑ j ∈ range N, corrAt src src ((i : ℤ) - j) * x.getD j 0 -
        ∑ j ∈ range N, corrAt src src ((i : ℤ) - j) * (y.getD j 0 / energy src) := by
      rw [← sum_sub_distrib]
      refine sum_congr rfl fun j _ => ?_
      rw [hv]
      field_simp
    rw [e, ← h1, hu, hv]
    ring
  have hq := hmu v
  have hq2 : ∑ i ∈ range N, v i * ∑ j ∈ range N, corrAt src src ((i : ℤ) - j) / energy src * v j =
      ∑ i ∈ range N, v i * (lam * (u i - v i)) := sum_congr rfl fun i hi => by rw [hd i (mem_range.1 hi)]
  rw [hq2] at hq
  have hq' : (mu + lam) * ∑ i ∈ range N, v i ^ 2 ≤ lam * ∑ i ∈ range N, v i * u i := by
    have : ∑ i ∈ range N, v i * (lam * (u i - v i)) = lam * ∑ i ∈ range N, v i * u i - lam * ∑ i ∈ range N, v i ^ 2 := by
      rw [mul_sum, mul_sum, ← sum_sub_distrib]
      exact sum_congr rfl fun i _ => by ring
    rw [this] at hq
    linarith
  -- (mu + lam) v and lam u: the square of the difference
  have hsq : 0 ≤ ∑ i ∈ range N, ((mu + lam) * v i - lam * u i) ^ 2 := sum_nonneg fun _ _ => sq_nonneg _
  have hexp : ∑ i ∈ range N, ((mu + lam) * v i - lam * u i) ^ 2 = (mu + lam) ^ 2 * ∑ i ∈ range N, v i ^ 2
      - 2 * (mu + lam) * (lam * ∑ i ∈ range N, v i * u i) + lam ^ 2 * ∑ i ∈ range N, u i ^ 2 := by
    rw [mul_sum, mul_sum, mul_sum, mul_sum, ← sum_sub_distrib, ← sum_add_distrib]
    exact sum_congr rfl fun i _ => by ring
  have hml : 0 < mu + lam := by linarith
  have h2 : 2 * (mu + lam) * ((mu + lam) * ∑ i ∈ range N, v i ^ 2) ≤ 2 * (mu + lam) * (lam * ∑ i ∈ range N, v i * u i) :=
    mul_le_mul_of_nonneg_left hq' (by linarith)
  nlinarith [hsq, hexp, h2]

end

/-- The hypotheses are met: the source `[1, 2, 1]` with the onset at its second sample, a direct wave at sample 1 and
a conversion of half the amplitude and opposite sign two samples later. -/
example : ConvOf (1 : ℤ) [1, 2, 1] [0, 1, 0, -1/2, 0] ([1, 2, 1/2, -1, -1/2] : List ℚ) := by
  intro n
  by_cases h0 : n < 0
  · rw [sig, if_neg (by omega)]
    symm
    refine sum_eq_zero fun l hl => ?_
    by_cases hl0 : l = 0
    · subst hl0; simp
    · rw [sig_neg _ _ (by omega), mul_zero]
  · by_cases h5 : 5 ≤ n
    · have e : ∀ l ∈ range ([0, 1, 0, -1/2, 0] : List ℚ).length,
          ([0, 1, 0, -1/2, 0] : List ℚ).getD l 0 * sig ([1, 2, 1] : List ℚ) (n - l + 1) = 0 := by
        intro l hl
        have hl5 : l < 5 := by simpa using hl
        by_cases hl4 : l = 4
        · subst hl4; simp
        · have : sig ([1, 2, 1] : List ℚ) (n - l + 1) = 0 := by
            unfold sig
            rw [if_pos (by omega), List.getD_eq_default _ _ (by simp; omega)]
          rw [this, mul_zero]
      rw [sum_eq_zero e]
      unfold sig
      rw [if_pos (by omega), List.getD_eq_default _ _ (by simp; omega)]
    · have : n = 0 ∨ n = 1 ∨ n = 2 ∨ n = 3 ∨ n = 4 := by omega
      rcases this with rfl | rfl | rfl | rfl | rfl <;> decide +kernel

end Verif.Props
