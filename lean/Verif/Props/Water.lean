import Verif.Props.Freq
import Verif.Spec.Freq

/-!
# Water level deconvolution: C15 - C17, C19
-/

set_option linter.unusedSimpArgs false
set_option linter.unusedSectionVars false

namespace Verif.Props
open Verif.Py Verif.Model Verif.Spec Finset Complex

section bridge

theorem chr_eq (n : ℕ) (j : ℤ) : chr n j = W n j := rfl

theorem fft_toC_get (x : List ℝ) (n k : ℕ) (hk : k < n) : (fft (toC x) n).getD k 0 = dft x n k := by
  rw [fft_get _ _ _ hk]
  unfold dft
  exact sum_congr rfl fun j _ => by rw [toC_getD, chr_eq]

theorem freqIdx_eq (n k : ℕ) : freqIdx n k = if 2 * k < n then (k : ℤ) else (k : ℤ) - n := by
  unfold freqIdx
  split <;> split <;> omega

theorem filter_get (n : ℕ) (dt T : ℝ) (gauss : Option ℝ) (k : ℕ) (hk : k < n) :
    (waterFilter n dt T gauss).getD k 0 = filterAt n dt T gauss k := by
  have hph : (phaseShiftFilter n dt T).getD k 0 = Complex.exp (-2 * Real.pi * I * freqAt n dt k * T) := by
    rw [phase_get _ _ _ _ hk]
    unfold freqAt
    rw [freqIdx_eq]
    congr 1
    ring
  unfold waterFilter filterAt
  cases gauss with
  | none => simp only [hph, one_mul]
  | some g =>
    simp only
    rw [mulL_get _ _ _ (by simpa using hk) (by simpa using hk), hph, toC_getD, gauss_get _ _ _ _ _ hk]
    have e : -(1 / 2) * ((freqIdx n k : ℝ) / (n * dt) / g) ^ 2 = -(freqAt n dt k / g) ^ 2 / 2 := by
      unfold freqAt
      rw [freqIdx_eq]
      ring
    simp only [e]

theorem filter_norm_le (n : ℕ) (dt T : ℝ) (gauss : Option ℝ) (k : ℕ) : ‖filterAt n dt T gauss k‖ ≤ 1 := by
  unfold filterAt
  have h1 : ‖Complex.exp (-2 * Real.pi * I * freqAt n dt k * T)‖ = 1 := by
    rw [show (-2 * Real.pi * I * freqAt n dt k * T : ℂ) = ((-2 * Real.pi * freqAt n dt k * T : ℝ) : ℂ) * I by
      push_cast; ring, Complex.norm_exp_ofReal_mul_I]
  rw [norm_mul, h1, mul_one]
  cases gauss with
  | none => simp
  | some g =>
    simp only [Complex.norm_real, Real.norm_eq_abs, Real.abs_exp]
    exact Real.exp_le_one_iff.2 (max_le (by nlinarith [sq_nonneg (freqAt n dt k / g)]) (by norm_num))

theorem hasSpectrum_take (X : List ℂ) (N n : ℕ) : HasSpectrum ((ifft X n).take N) N n (X.getD · 0) := by
  refine ⟨by simp, fun m hm => ?_⟩
  simp only [List.length_take, ifft_length, lt_min_iff] at hm
  rw [getD_take_of_lt _ _ _ _ hm.1, ifft_get _ _ _ hm.2]
  rfl

theorem dft_ne_zero (x : List ℝ) (n j : ℕ) (hj : j < n) (h : x.getD j 0 ≠ 0) : ∃ k < n, dft x n k ≠ 0 := by
  obtain ⟨k, hk, h2⟩ := exists_fft_ne_zero (toC x) n j hj (by rw [toC_getD]; exact_mod_cast h)
  exact ⟨k, hk, by rwa [fft_toC_get _ _ _ hk] at h2⟩

end bridge

section water
variable (fastLen : ℕ → ℕ) (rsp : List (List ℝ)) (src : List ℝ) (sr wl T : ℝ) (gauss : Option ℝ)

/-- The denominators. -/
theorem water_get (n : ℕ) (hn : 0 < n) : ∃ M : ℝ,
    (∃ j < n, M = ‖dft src n j‖ ^ 2) ∧ (∀ j < n, ‖dft src n j‖ ^ 2 ≤ M) ∧
    ∀ k < n, (waterPower (fft (toC src) n) wl).getD k 0 = max (‖dft src n k‖ ^ 2) (M * wl) := by
  obtain ⟨M, ⟨j, hj, h1⟩, h2, h3⟩ := waterPower_get (fft (toC src) n) wl
    (by intro h; have := congrArg List.length h; simp at this; omega)
  simp only [fft_length] at hj h2 h3
  refine ⟨M, ⟨j, hj, ?_⟩, fun k hk => ?_, fun k hk => ?_⟩
  · rw [h1, fft_toC_get _ _ _ hj]
  · rw [← fft_toC_get _ _ _ hk]; exact h2 k hk
  · rw [h3 k hk, fft_toC_get _ _ _ hk]

/-- One spectral value of a result before normalisation. -/
theorem spec_get (n : ℕ) (dt : ℝ) (r : List ℝ) (k : ℕ) (hk : k < n) :
    (waterSpec (waterFilter n dt T gauss) (fft (toC r) n) (fft (toC src) n)
      (waterPower (fft (toC src) n) wl)).getD k 0
      = filterAt n dt T gauss k * dft r n k * (starRingEnd ℂ) (dft src n k)
        / ((waterPower (fft (toC src) n) wl).getD k 0 : ℝ) := by
  rw [waterSpec_get _ _ _ _ _ (by simpa using hk) (by simpa using hk) (by simpa using hk)
    (by simpa using hk), filter_get _ _ _ _ _ hk, fft_toC_get _ _ _ hk, fft_toC_get _ _ _ hk]

/-- The results before normalisation. -/
noncomputable def rawRf (n N : ℕ) (r : List ℝ) : List ℂ :=
  (ifft (waterSpec (waterFilter n (1 / sr) T gauss) (fft (toC r) n) (fft (toC src) n)
    (waterPower (fft (toC src) n) wl)) n).take N

theorem water_eq (length nfft : Option ℕ) (norm : Norm) (N : ℕ) (hN : outLen rsp length = some N) :
    deconvWaterlevel fastLen rsp src sr wl gauss T length norm nfft =
      (let n := nfft.getD (fastLen N)
      if n = 0 then .error .valueError else if sr = 0 then .error .zeroDivision
      else if 0 ∈ waterPower (fft (toC src) n) wl then .error .other
      else match norm with
      | .none => .ok (rsp.map (rawRf src sr wl T gauss n N))
      | .src => do
        let m ← maxC (rawRf src sr wl T gauss n N src)
        if m = 0 then .error .other
        else .ok (scaleAll (1 / m) (rsp.map (rawRf src sr wl T gauss n N)))
      | .idx i => do
        let x ← getItem (rsp.map (rawRf src sr wl T gauss n N)) i
        let m ← maxC x
        if m = 0 then .error .other
        else .ok (scaleAll (1 / m) (rsp.map (rawRf src sr wl T gauss n N)))) := by
  unfold deconvWaterlevel
  unfold outLen at hN
  cases length with
  | some l => simp at hN; subst hN; rfl
  | none =>
    cases rsp with
    | nil => simp at hN
    | cons r rs => simp at hN; subst hN; rfl

theorem water_nonempty (n : ℕ) (h : 0 ∉ waterPower (fft (toC src) n) wl) (k : ℕ) (hk : k < n) :
    (waterPower (fft (toC src) n) wl).getD k 0 ≠ 0 := by
  intro h0
  apply h
  rw [List.getD_eq_getElem _ _ (by simpa using hk)] at h0
  rw [← h0]
  exact List.getElem_mem _

/-- **C15** (no division by zero).  If the part of the source inside the transform window is not identically
zero and `waterlevel > 0`, the deconvolution without normalisation succeeds. -/
theorem C15_succeeds (length nfft : Option ℕ) (N : ℕ) (hN : outLen rsp length = some N)
    (hn : nfft.getD (fastLen N) ≠ 0) (hsr : sr ≠ 0) (hwl : 0 < wl)
    (hsrc : ∃ j < nfft.getD (fastLen N), src.getD j 0 ≠ 0) :
    ∃ rf, deconvWaterlevel fastLen rsp src sr wl gauss T length .none nfft = .ok rf ∧
      rf.length = rsp.length := by
  rw [water_eq _ _ _ _ _ _ _ _ _ _ N hN]
  simp only
  rw [if_neg hn, if_neg hsr, if_neg]
  · exact ⟨_, rfl, by simp⟩
  · obtain ⟨j, hj, h⟩ := hsrc
    obtain ⟨k, hk, h2⟩ := dft_ne_zero src _ j hj h
    obtain ⟨M, _, h3, h4⟩ := water_get src wl _ (Nat.pos_of_ne_zero hn)
    have hM : 0 < M := lt_of_lt_of_le (by positivity) (h3 k hk)
    intro h0
    obtain ⟨i, hi, h5⟩ := List.getElem_of_mem h0
    have := h4 i (by simpa using hi)
    rw [List.getD_eq_getElem _ _ hi, h5] at this
    have h6 := le_max_right (‖dft src (nfft.getD (fastLen N)) i‖ ^ 2) (M * wl)
    rw [← this] at h6
    nlinarith [mul_pos hM hwl]

/-- A successful call without normalisation. -/
theorem water_raw (length nfft : Option ℕ) (N : ℕ) (hN : outLen rsp length = some N) (rf : List (List ℂ))
    (h : deconvWaterlevel fastLen rsp src sr wl gauss T length .none nfft = .ok rf) :
    nfft.getD (fastLen N) ≠ 0 ∧ sr ≠ 0 ∧ 0 ∉ waterPower (fft (toC src) (nfft.getD (fastLen N))) wl ∧
      rf = rsp.map (rawRf src sr wl T gauss (nfft.getD (fastLen N)) N) := by
  rw [water_eq _ _ _ _ _ _ _ _ _ _ N hN] at h
  simp only at h
  split at h
  · cases h
  split at h
  · cases h
  split at h
  · cases h
  refine ⟨by assumption, by assumption, by assumption, ?_⟩
  injection h with h
  exact h.symm

/-- **C15** (stability).  Without normalisation every result is the inverse transform of a spectrum whose
values are at most `|R_k| / sqrt(waterlevel * max |S|²)`. -/
theorem C15_bounded (length nfft : Option ℕ) (N : ℕ) (hN : outLen rsp length = some N) (hwl : 0 < wl)
    (rf : List (List ℂ))
    (h : deconvWaterlevel fastLen rsp src sr wl gauss T length .none nfft = .ok rf)
    (i : ℕ) (r : List ℝ) (hr : rsp[i]? = some r) :
    let n := nfft.getD (fastLen N)
    ∃ x X, rf[i]? = some x ∧ HasSpectrum x N n X ∧
      ∀ k < n, ∀ j < n, dft src n j ≠ 0 → ‖X k‖ ≤ ‖dft r n k‖ / Real.sqrt (wl * ‖dft src n j‖ ^ 2) := by
  intro n
  obtain ⟨hn, hsr, hw, rfl⟩ := water_raw _ _ _ _ _ _ _ _ _ _ hN _ h
  refine ⟨_, _, by rw [List.getElem?_map, hr]; rfl, hasSpectrum_take _ _ _, ?_⟩
  intro k hk j hj hS
  rw [spec_get _ _ _ _ _ _ _ _ hk]
  obtain ⟨M, _, h3, h4⟩ := water_get src wl n (Nat.pos_of_ne_zero hn)
  rw [h4 k hk]
  set w := wl * ‖dft src n j‖ ^ 2 with hw'
  have hj2 : 0 < ‖dft src n j‖ ^ 2 := by positivity
  have hw0 : 0 < w := mul_pos hwl hj2
  have hwM : w ≤ M * wl := by rw [hw', mul_comm]; exact mul_le_mul_of_nonneg_right (h3 j hj) hwl.le
  set D := max (‖dft src n k‖ ^ 2) (M * wl) with hD
  have hD1 : ‖dft src n k‖ ^ 2 ≤ D := le_max_left _ _
  have hD2 : w ≤ D := hwM.trans (le_max_right _ _)
  have hD0 : 0 < D := hw0.trans_le hD2
  rw [norm_div, norm_mul, norm_mul, RCLike.norm_conj, Complex.norm_real, Real.norm_eq_abs, abs_of_pos hD0,
    div_le_div_iff₀ hD0 (Real.sqrt_pos.2 hw0)]
  have key : ‖dft src n k‖ * Real.sqrt w ≤ D := by
    apply abs_le_of_sq_le_sq' _ hD0.le |>.2
    rw [mul_pow, Real.sq_sqrt hw0.le, sq D]
    exact mul_le_mul hD1 hD2 hw0.le hD0.le
  have hf := filter_norm_le n (1 / sr) T gauss k
  calc ‖filterAt n (1 / sr) T gauss k‖ * ‖dft r n k‖ * ‖dft src n k‖ * Real.sqrt w
      = ‖filterAt n (1 / sr) T gauss k‖ * (‖dft r n k‖ * (‖dft src n k‖ * Real.sqrt w)) := by ring
    _ ≤ 1 * (‖dft r n k‖ * D) := by
        apply mul_le_mul hf (mul_le_mul_of_nonneg_left key (norm_nonneg _)) (by positivity) zero_le_one
    _ = ‖dft r n k‖ * D := one_mul _

/-- **C16**.  At each frequency where the source power reaches the water level (for `waterlevel ≤ 0`: where the
source spectrum does not vanish) the result spectrum is exactly `filter * R / S`. -/
theorem C16_exact_division (length nfft : Option ℕ) (N : ℕ) (hN : outLen rsp length = some N)
    (rf : List (List ℂ))
    (h : deconvWaterlevel fastLen rsp src sr wl gauss T length .none nfft = .ok rf)
    (i : ℕ) (r : List ℝ) (hr : rsp[i]? = some r) :
    let n := nfft.getD (fastLen N)
    ∃ x X, rf[i]? = some x ∧ HasSpectrum x N n X ∧
      ∀ k < n, dft src n k ≠ 0 → (wl ≤ 0 ∨ ∀ j < n, wl * ‖dft src n j‖ ^ 2 ≤ ‖dft src n k‖ ^ 2) →
        X k = filterAt n (1 / sr) T gauss k * dft r n k / dft src n k := by
  intro n
  obtain ⟨hn, hsr, hw, rfl⟩ := water_raw _ _ _ _ _ _ _ _ _ _ hN _ h
  refine ⟨_, _, by rw [List.getElem?_map, hr]; rfl, hasSpectrum_take _ _ _, ?_⟩
  intro k hk hS hlev
  rw [spec_get _ _ _ _ _ _ _ _ hk]
  obtain ⟨M, ⟨j, hj, hM⟩, h3, h4⟩ := water_get src wl n (Nat.pos_of_ne_zero hn)
  rw [h4 k hk, max_eq_left]
  · have e : ((‖dft src n k‖ ^ 2 : ℝ) : ℂ) = dft src n k * (starRingEnd ℂ) (dft src n k) := by
      rw [Complex.mul_conj, Complex.normSq_eq_norm_sq]
    have hc : (starRingEnd ℂ) (dft src n k) ≠ 0 := (map_ne_zero _).2 hS
    rw [e]
    field_simp
  · rcases hlev with h' | h'
    · have : 0 ≤ M := by rw [hM]; positivity
      have : M * wl ≤ 0 := mul_nonpos_of_nonneg_of_nonpos this h'
      exact this.trans (by positivity)
    · rw [hM, mul_comm]; exact h' j hj

end water
end Verif.Props
