import Verif.Props.WaterNorm

/-!
# Energy of the result of the water level deconvolution: C201
-/

set_option linter.unusedSimpArgs false
set_option linter.unusedSectionVars false

namespace Verif.Spec
open Finset

/-- Energy of the first `n` samples of a trace (a trace with fewer samples is continued by zeros). -/
noncomputable def energyIn (x : List ℝ) (n : ℕ) : ℝ := ∑ j ∈ range n, x.getD j 0 ^ 2

/-- Energy of a result. -/
noncomputable def energyOut (x : List ℂ) : ℝ := ∑ m ∈ range x.length, ‖x.getD m 0‖ ^ 2

end Verif.Spec

namespace Verif.Props
open Verif.Py Verif.Model Verif.Spec Finset Complex

section parseval

/-- Parseval's identity. -/
theorem parseval_W (a : ℕ → ℂ) (n : ℕ) (hn : n ≠ 0) :
    ∑ m ∈ range n, ‖∑ k ∈ range n, a k * W n (k * m)‖ ^ 2 = n * ∑ k ∈ range n, ‖a k‖ ^ 2 := by
  have hc : ∀ z : ℂ, ((‖z‖ ^ 2 : ℝ) : ℂ) = z * (starRingEnd ℂ) z := fun z => by
    rw [Complex.mul_conj, Complex.normSq_eq_norm_sq]
  have : ((∑ m ∈ range n, ‖∑ k ∈ range n, a k * W n (k * m)‖ ^ 2 : ℝ) : ℂ)
      = ((n * ∑ k ∈ range n, ‖a k‖ ^ 2 : ℝ) : ℂ) := by
    rw [Complex.ofReal_sum, Complex.ofReal_mul, Complex.ofReal_sum]
    simp only [hc]
    calc ∑ m ∈ range n, (∑ k ∈ range n, a k * W n (k * m)) * (starRingEnd ℂ) (∑ k ∈ range n, a k * W n (k * m))
        = ∑ m ∈ range n, ∑ k ∈ range n, ∑ l ∈ range n,
            a k * (starRingEnd ℂ) (a l) * W n (m * ((k : ℤ) - l)) := by
          refine sum_congr rfl fun m _ => ?_
          rw [map_sum, sum_mul_sum]
          refine sum_congr rfl fun k _ => sum_congr rfl fun l _ => ?_
          rw [map_mul, W_conj, show (m : ℤ) * ((k : ℤ) - l) = k * m + -(l * m) by ring, W_add]
          ring
      _ = ∑ k ∈ range n, ∑ l ∈ range n, a k * (starRingEnd ℂ) (a l) * ∑ m ∈ range n, W n (m * ((k : ℤ) - l)) := by
          rw [sum_comm]
          refine sum_congr rfl fun k _ => ?_
          rw [sum_comm]
          refine sum_congr rfl fun l _ => ?_
          rw [mul_sum]
      _ = ∑ k ∈ range n, (n : ℂ) * (a k * (starRingEnd ℂ) (a k)) := by
          refine sum_congr rfl fun k hk => ?_
          rw [sum_eq_single k]
          · rw [sum_W n hn]; simp; ring
          · intro l hl hlk
            rw [sum_W n hn, if_neg, mul_zero]
            rintro ⟨c, hc⟩
            have h1 := mem_range.1 hk
            have h2 := mem_range.1 hl
            have h3 : c = 0 := by
              by_contra h
              rcases lt_or_gt_of_ne h with h | h
              · have : (n : ℤ) * c ≤ n * (-1) := mul_le_mul_of_nonneg_left (by omega) (by omega)
                omega
              · have : (n : ℤ) * 1 ≤ n * c := mul_le_mul_of_nonneg_left (by omega) (by omega)
                omega
            rw [h3] at hc
            omega
          · intro h; exact absurd hk h
      _ = (n : ℝ) * ∑ k ∈ range n, a k * (starRingEnd ℂ) (a k) := by rw [mul_sum]; simp
  exact_mod_cast this

/-- The transform of a real trace has `n` times its energy. -/
theorem parseval_dft (x : List ℝ) (n : ℕ) (hn : n ≠ 0) :
    ∑ k ∈ range n, ‖dft x n k‖ ^ 2 = n * energyIn x n := by
  have h := parseval_W (fun j => ((x.getD j 0 : ℝ) : ℂ)) n hn
  rw [energyIn]
  simp only [Complex.norm_real, Real.norm_eq_abs, sq_abs] at h
  rw [← h]
  refine sum_congr rfl fun k _ => ?_
  rw [← RCLike.norm_conj (dft x n k), dft, map_sum]
  congr 2
  refine sum_congr rfl fun j _ => ?_
  rw [map_mul, chr_eq, W_conj, Complex.conj_ofReal, neg_neg]

/-- A result has at most the energy of its spectrum. -/
theorem energy_spectrum (x : List ℂ) (N n : ℕ) (hn : n ≠ 0) (X : ℕ → ℂ) (h : HasSpectrum x N n X) :
    n * energyOut x ≤ ∑ k ∈ range n, ‖X k‖ ^ 2 := by
  have hn0 : (0 : ℝ) < n := by positivity
  have h1 : energyOut x ≤ ∑ m ∈ range n, ‖(∑ k ∈ range n, X k * W n (k * m)) / n‖ ^ 2 := by
    unfold energyOut
    rw [sum_congr rfl fun m hm => by rw [h.2 m (mem_range.1 hm)]]
    simp only [chr_eq]
    exact sum_le_sum_of_subset_of_nonneg (range_subset_range.2 (by rw [h.1]; exact min_le_right _ _))
      fun _ _ _ => by positivity
  have h2 : ∑ m ∈ range n, ‖(∑ k ∈ range n, X k * W n (k * m)) / n‖ ^ 2
      = (∑ k ∈ range n, ‖X k‖ ^ 2) / n := by
    simp only [norm_div, div_pow, Complex.norm_natCast]
    rw [← sum_div, parseval_W X n hn]
    field_simp
  rw [h2] at h1
  calc n * energyOut x ≤ n * ((∑ k ∈ range n, ‖X k‖ ^ 2) / n) := mul_le_mul_of_nonneg_left h1 hn0.le
    _ = _ := by field_simp

/-- Some frequency of a trace has at least its energy. -/
theorem exists_power (x : List ℝ) (n : ℕ) (hn : n ≠ 0) : ∃ j < n, energyIn x n ≤ ‖dft x n j‖ ^ 2 := by
  by_contra h
  push Not at h
  have := sum_lt_sum_of_nonempty (s := range n) (by simpa using hn)
    (fun j hj => h j (mem_range.1 hj))
  rw [parseval_dft x n hn, sum_const, card_range, nsmul_eq_mul] at this
  exact lt_irrefl _ this

end parseval

section waterEnergy
variable (fastLen : ℕ → ℕ) (rsp : List (List ℝ)) (src : List ℝ) (sr wl T : ℝ) (gauss : Option ℝ)

/-- **C201** (energy).  Without normalisation the energy of a receiver function is at most the energy of the response
divided by the water level and the energy of the source (both inside the transform window). -/
theorem C201_energy (length nfft : Option ℕ) (N : ℕ) (hN : outLen rsp length = some N) (hwl : 0 < wl)
    (rf : List (List ℂ))
    (h : deconvWaterlevel fastLen rsp src sr wl gauss T length .none nfft = .ok rf)
    (i : ℕ) (r : List ℝ) (hr : rsp[i]? = some r) :
    ∃ x, rf[i]? = some x ∧
      wl * energyIn src (nfft.getD (fastLen N)) * energyOut x ≤ energyIn r (nfft.getD (fastLen N)) := by
  obtain ⟨hn, -, -, -⟩ := water_raw _ _ _ _ _ _ _ _ _ _ hN _ h
  obtain ⟨x, X, hx, hX, hb⟩ := C15_bounded fastLen rsp src sr wl T gauss length nfft N hN hwl rf h i r hr
  refine ⟨x, hx, ?_⟩
  set n := nfft.getD (fastLen N) with hn'
  have hn0 : (0 : ℝ) < n := by positivity
  have hE0 : 0 ≤ energyIn r n := sum_nonneg fun _ _ => sq_nonneg _
  have hx0 : 0 ≤ energyOut x := sum_nonneg fun _ _ => by positivity
  obtain ⟨j, hj, hS⟩ := exists_power src n hn
  by_cases hd : dft src n j = 0
  · rw [hd] at hS
    have : energyIn src n = 0 := le_antisymm (by simpa using hS) (sum_nonneg fun _ _ => sq_nonneg _)
    rw [this]
    simpa using hE0
  · have hp : 0 < wl * ‖dft src n j‖ ^ 2 := by positivity
    have h1 : ∀ k ∈ range n, wl * ‖dft src n j‖ ^ 2 * ‖X k‖ ^ 2 ≤ ‖dft r n k‖ ^ 2 := fun k hk => by
      have h2 := hb k (mem_range.1 hk) j hj hd
      rw [le_div_iff₀ (Real.sqrt_pos.2 hp)] at h2
      have h3 := pow_le_pow_left₀ (by positivity) h2 2
      rw [mul_pow, Real.sq_sqrt hp.le] at h3
      linarith
    have h2 := sum_le_sum h1
    rw [← mul_sum, parseval_dft r n hn] at h2
    have h3 := energy_spectrum x N n hn X hX
    have h4 : wl * energyIn src n * energyOut x ≤ wl * ‖dft src n j‖ ^ 2 * energyOut x :=
      mul_le_mul_of_nonneg_right (mul_le_mul_of_nonneg_left hS hwl.le) hx0
    have h5 := mul_le_mul_of_nonneg_left h3 hp.le
    nlinarith

/-- **C201** (noise).  If two responses differ by `d`, the receiver functions differ at most by the energy of `d`
divided by the water level and the energy of the source. -/
theorem C201_noise (rsp1 rsp2 : List (List ℝ)) (N : ℕ) (nfft : Option ℕ) (hwl : 0 < wl) (rf1 rf2 : List (List ℂ))
    (h1 : deconvWaterlevel fastLen rsp1 src sr wl gauss T (some N) .none nfft = .ok rf1)
    (h2 : deconvWaterlevel fastLen rsp2 src sr wl gauss T (some N) .none nfft = .ok rf2)
    (i : ℕ) (r1 r2 d : List ℝ) (hr1 : rsp1[i]? = some r1) (hr2 : rsp2[i]? = some r2)
    (hd : ∀ j < nfft.getD (fastLen N), r1.getD j 0 - r2.getD j 0 = d.getD j 0) :
    ∃ x1 x2, rf1[i]? = some x1 ∧ rf2[i]? = some x2 ∧ x1.length = x2.length ∧
      wl * energyIn src (nfft.getD (fastLen N)) * ∑ m ∈ range x1.length, ‖x1.getD m 0 - x2.getD m 0‖ ^ 2
        ≤ energyIn d (nfft.getD (fastLen N)) := by
  obtain ⟨hn, hsr, hw, -⟩ := water_raw _ _ _ _ _ _ _ _ _ N rfl _ h1
  have h0 : ∃ rf, deconvWaterlevel fastLen (List.replicate (i + 1) d) src sr wl gauss T (some N) .none nfft = .ok rf := by
    rw [water_eq _ _ _ _ _ _ _ _ _ _ N rfl]
    simp only
    rw [if_neg hn, if_neg hsr, if_neg hw]
    exact ⟨_, rfl⟩
  obtain ⟨rf, h0⟩ := h0
  have hr : (List.replicate (i + 1) d)[i]? = some d := by simp
  obtain ⟨x, x1, x2, hx, hx1, hx2, hl1, hl2, hs⟩ := C19_linear fastLen _ src sr wl T gauss rsp1 rsp2 N nfft _ _ _ h0 h1 h2 i _ _ _ hr hr1 hr2
    1 (-1) (fun j hj => by rw [← hd j hj]; ring)
  obtain ⟨y, hy, hE⟩ := C201_energy fastLen _ src sr wl T gauss (some N) nfft N rfl hwl _ h0 i _ hr
  rw [hx] at hy
  cases hy
  refine ⟨x1, x2, hx1, hx2, hl1.symm.trans hl2, ?_⟩
  refine le_trans (le_of_eq ?_) hE
  congr 1
  unfold energyOut
  rw [← hl1]
  refine sum_congr rfl fun m hm => ?_
  rw [hs m (mem_range.1 hm)]
  congr 2
  push_cast
  ring

/-- **C201** (samples).  No sample of the change exceeds the bound either, nor does its real part, which is what
`deconvolve` stores. -/
theorem C201_sample (rsp1 rsp2 : List (List ℝ)) (N : ℕ) (nfft : Option ℕ) (hwl : 0 < wl) (rf1 rf2 : List (List ℂ))
    (h1 : deconvWaterlevel fastLen rsp1 src sr wl gauss T (some N) .none nfft = .ok rf1)
    (h2 : deconvWaterlevel fastLen rsp2 src sr wl gauss T (some N) .none nfft = .ok rf2)
    (i : ℕ) (r1 r2 d : List ℝ) (hr1 : rsp1[i]? = some r1) (hr2 : rsp2[i]? = some r2)
    (hd : ∀ j < nfft.getD (fastLen N), r1.getD j 0 - r2.getD j 0 = d.getD j 0)
    (hs : ∃ j < nfft.getD (fastLen N), src.getD j 0 ≠ 0) :
    ∃ x1 x2, rf1[i]? = some x1 ∧ rf2[i]? = some x2 ∧ ∀ m < x1.length,
      |(x1.getD m 0).re - (x2.getD m 0).re|
        ≤ Real.sqrt (energyIn d (nfft.getD (fastLen N)) / (wl * energyIn src (nfft.getD (fastLen N)))) := by
  obtain ⟨x1, x2, hx1, hx2, -, hE⟩ := C201_noise fastLen src sr wl T gauss rsp1 rsp2 N nfft hwl rf1 rf2 h1 h2 i r1 r2 d
    hr1 hr2 hd
  refine ⟨x1, x2, hx1, hx2, fun m hm => ?_⟩
  have hS : 0 < energyIn src (nfft.getD (fastLen N)) := by
    obtain ⟨j, hj, h⟩ := hs
    exact sum_pos' (fun _ _ => sq_nonneg _) ⟨j, mem_range.2 hj, by positivity⟩
  have hp : 0 < wl * energyIn src (nfft.getD (fastLen N)) := by positivity
  have h3 : ‖x1.getD m 0 - x2.getD m 0‖ ^ 2 ≤ ∑ m ∈ range x1.length, ‖x1.getD m 0 - x2.getD m 0‖ ^ 2 :=
    single_le_sum (f := fun m => ‖x1.getD m 0 - x2.getD m 0‖ ^ 2) (fun _ _ => by positivity) (mem_range.2 hm)
  rw [← Complex.sub_re]
  refine (Complex.abs_re_le_norm _).trans (Real.le_sqrt_of_sq_le ?_)
  rw [le_div_iff₀ hp]
  nlinarith [mul_le_mul_of_nonneg_left h3 hp.le]

end waterEnergy

/-- The hypotheses of C201 are met: two responses which differ in one sample. -/
example : ∃ rf1 rf2,
    deconvWaterlevel id [[1, 2, -1 / 2]] [1, 2, -1 / 2] 10 (1 / 20) (some (1 / 2)) ((2 : ℕ) / 10) (some 3) .none none = .ok rf1 ∧
    deconvWaterlevel id [[1, 2, 1 / 2]] [1, 2, -1 / 2] 10 (1 / 20) (some (1 / 2)) ((2 : ℕ) / 10) (some 3) .none none = .ok rf2 ∧
    (∀ j < (none : Option ℕ).getD (id 3), ([1, 2, -1 / 2] : List ℝ).getD j 0 - ([1, 2, 1 / 2] : List ℝ).getD j 0
      = ([0, 0, -1] : List ℝ).getD j 0) := by
  obtain ⟨a, ha, -⟩ := C15_succeeds id [[1, 2, -1 / 2]] [1, 2, -1 / 2] 10 (1 / 20) ((2 : ℕ) / 10) (some (1 / 2)) (some 3) none 3 rfl
    (by decide) (by norm_num) (by norm_num) ⟨1, by decide, by norm_num⟩
  obtain ⟨b, hb, -⟩ := C15_succeeds id [[1, 2, 1 / 2]] [1, 2, -1 / 2] 10 (1 / 20) ((2 : ℕ) / 10) (some (1 / 2)) (some 3) none 3 rfl
    (by decide) (by norm_num) (by norm_num) ⟨1, by decide, by norm_num⟩
  refine ⟨a, b, ha, hb, ?_⟩
  intro j hj
  simp only [Option.getD_none, id] at hj
  interval_cases j <;> norm_num

/-- The bound is attained: source `[1]`, water level 1, response `[3, 4]`. -/
example : (1 : ℝ) * energyIn [1] 2 * energyOut [3, 4] = energyIn [3, 4] 2 := by
  simp [energyIn, energyOut, sum_range_succ]

end Verif.Props
