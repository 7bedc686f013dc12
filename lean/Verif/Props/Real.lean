import Verif.Props.Water

/-!
# Hermitian spectra have real inverse transforms
-/

set_option linter.unusedSimpArgs false
set_option linter.unusedSectionVars false

namespace Verif.Props
open Verif.Py Verif.Model Verif.Spec Finset Complex

/-- Hermitian spectrum. -/
def Herm (n : ℕ) (X : ℕ → ℂ) : Prop :=
  (starRingEnd ℂ) (X 0) = X 0 ∧ ∀ k, 0 < k → k < n → X (n - k) = (starRingEnd ℂ) (X k)

theorem Herm.mul {n : ℕ} {X Y : ℕ → ℂ} (hX : Herm n X) (hY : Herm n Y) : Herm n (fun k => X k * Y k) :=
  ⟨by rw [map_mul, hX.1, hY.1], fun k h1 h2 => by simp only [map_mul, hX.2 k h1 h2, hY.2 k h1 h2]⟩

theorem Herm.conj {n : ℕ} {X : ℕ → ℂ} (hX : Herm n X) : Herm n (fun k => (starRingEnd ℂ) (X k)) :=
  ⟨by simp only [hX.1], fun k h1 h2 => by simp only [hX.2 k h1 h2]⟩

/-- Sum over all frequencies with the indices negated modulo `n`. -/
theorem sum_neg_index (n : ℕ) (f : ℕ → ℂ) : ∑ k ∈ range n, f k = ∑ k ∈ range n, f (if k = 0 then 0 else n - k) := by
  cases n with
  | zero => simp
  | succ n =>
    rw [sum_range_succ', sum_range_succ']
    simp only [Nat.succ_ne_zero, if_false, if_true]
    congr 1
    rw [← sum_range_reflect]
    refine sum_congr rfl fun k hk => ?_
    have := mem_range.1 hk
    congr 1
    omega

theorem herm_real (n : ℕ) (X : ℕ → ℂ) (hX : Herm n X) (m : ℤ) :
    ((∑ k ∈ range n, X k * W n (k * m)) / n).im = 0 := by
  rw [← Complex.conj_eq_iff_im, map_div₀, map_natCast, map_sum]
  congr 1
  rw [sum_neg_index n fun k => X k * W n (k * m)]
  refine sum_congr rfl fun k hk => ?_
  have hk := mem_range.1 hk
  rw [map_mul, W_conj]
  by_cases h0 : k = 0
  · subst h0; simp [hX.1]
  · rw [if_neg h0, hX.2 k (by omega) hk]
    congr 1
    apply W_mod_eq n (by omega)
    refine ⟨-m, ?_⟩
    rw [Nat.cast_sub hk.le]
    ring

theorem dft_herm (x : List ℝ) (n : ℕ) : Herm n (dft x n) := by
  refine ⟨?_, fun k h1 h2 => ?_⟩
  · unfold dft
    rw [map_sum]
    exact sum_congr rfl fun j _ => by simp [chr_eq]
  · unfold dft
    rw [map_sum]
    refine sum_congr rfl fun j _ => ?_
    rw [map_mul, Complex.conj_ofReal, chr_eq, chr_eq, W_conj, neg_neg]
    congr 1
    apply W_mod_eq n (by omega)
    refine ⟨-j, ?_⟩
    rw [Nat.cast_sub h2.le]
    ring

theorem real_herm {n : ℕ} {g : ℕ → ℝ} (h : ∀ k, 0 < k → k < n → g (n - k) = g k) :
    Herm n (fun k => (g k : ℂ)) := ⟨Complex.conj_ofReal _, fun k h1 h2 => by simp only [h k h1 h2, Complex.conj_ofReal]⟩

theorem shift_herm (n : ℕ) (s : ℤ) : Herm n (fun k => W n (-(k * s))) := by
  refine ⟨by simp, fun k h1 h2 => ?_⟩
  rw [W_conj, neg_neg]
  apply W_mod_eq n (by omega)
  refine ⟨-s, ?_⟩
  rw [Nat.cast_sub h2.le]
  ring

theorem freqAt_even (n : ℕ) (dt : ℝ) (k : ℕ) (h1 : 0 < k) (h2 : k < n) :
    (freqAt n dt (n - k)) ^ 2 = (freqAt n dt k) ^ 2 := by
  unfold freqAt
  have hc : (if 2 * (n - k) < n then ((n - k : ℕ) : ℤ) else ((n - k : ℕ) : ℤ) - n)
      = -(if 2 * k < n then (k : ℤ) else (k : ℤ) - n) ∨
      (if 2 * (n - k) < n then ((n - k : ℕ) : ℤ) else ((n - k : ℕ) : ℤ) - n)
      = (if 2 * k < n then (k : ℤ) else (k : ℤ) - n) := by
    split <;> split <;> omega
  rcases hc with h | h <;> rw [h]
  push_cast
  ring

/-- The filter for a shift by a whole number of samples is Hermitian. -/
theorem filter_herm (n : ℕ) (sr : ℝ) (hsr : sr ≠ 0) (s : ℤ) (gauss : Option ℝ) :
    Herm n (fun k => if k < n then filterAt n (1 / sr) (s / sr) gauss k else 0) := by
  have hph : ∀ k < n, Complex.exp (-2 * Real.pi * I * freqAt n (1 / sr) k * ((s / sr : ℝ) : ℂ)) = W n (-(k * s)) := by
    intro k hk
    have h1 := phase_W n (1 / sr) (by positivity) s k hk
    have h2 := filter_get n (1 / sr) (s * (1 / sr)) none k hk
    unfold waterFilter at h2
    simp only at h2
    rw [h1, mul_one_div] at h2
    unfold filterAt at h2
    simp only [one_mul] at h2
    exact h2.symm
  rcases Nat.eq_zero_or_pos n with rfl | hn
  · exact ⟨by simp, fun k h1 h2 => absurd h2 (by omega)⟩
  have key : ∀ k < n, filterAt n (1 / sr) (s / sr) gauss k = ((match gauss with
      | none => 1
      | some g => Real.exp (max (-((freqAt n (1 / sr) k) / g) ^ 2 / 2) (-700)) : ℝ) : ℂ) * W n (-(k * s)) := by
    intro k hk
    unfold filterAt
    rw [hph k hk]
    cases gauss <;> simp
  have hsh := shift_herm n s
  refine ⟨?_, fun k h1 h2 => ?_⟩
  · simp only []
    rw [if_pos (by omega), key 0 hn, map_mul, Complex.conj_ofReal]
    simp
  · simp only []
    rw [if_pos (by omega), if_pos h2, key k h2, key (n - k) (by omega), map_mul, Complex.conj_ofReal,
      show W n (-((n - k : ℕ) * s)) = _ from hsh.2 k h1 h2]
    congr 2
    cases gauss with
    | none => rfl
    | some g =>
      simp only
      rw [div_pow, freqAt_even n _ k h1 h2, ← div_pow]

/-- **C19** (real outputs).  For a delay of a whole number of samples the unnormalised results are real. -/
theorem C19_real_outputs (fastLen : ℕ → ℕ) (rsp : List (List ℝ)) (src : List ℝ) (sr wl : ℝ) (gauss : Option ℝ)
    (length nfft : Option ℕ) (N : ℕ) (hN : outLen rsp length = some N) (s : ℤ) (rf : List (List ℂ))
    (h : deconvWaterlevel fastLen rsp src sr wl gauss (s / sr) length .none nfft = .ok rf) :
    ∀ x ∈ rf, ∀ v ∈ x, v.im = 0 := by
  obtain ⟨hn, hsr, hw, rfl⟩ := water_raw _ _ _ _ _ _ _ _ _ _ hN _ h
  intro x hx v hv
  obtain ⟨r, hr, rfl⟩ := List.mem_map.1 hx
  obtain ⟨m, hm, rfl⟩ := List.getElem_of_mem hv
  set n := nfft.getD (fastLen N) with hn'
  have hm' := hm
  unfold rawRf at hm'
  simp only [List.length_take, ifft_length, lt_min_iff] at hm'
  rw [← List.getD_eq_getElem _ 0]
  unfold rawRf
  rw [getD_take_of_lt _ _ _ _ hm'.1, ifft_get _ _ _ hm'.2]
  obtain ⟨M, -, -, h4⟩ := water_get src wl n (Nat.pos_of_ne_zero hn)
  have hw' : Herm n fun k => (((max (‖dft src n k‖ ^ 2) (M * wl))⁻¹ : ℝ) : ℂ) := real_herm fun k h1 h2 => by
    rw [(dft_herm src n).2 k h1 h2, RCLike.norm_conj]
  have hX := ((filter_herm n sr hsr s gauss).mul (dft_herm r n)).mul ((dft_herm src n).conj.mul hw')
  have := herm_real n _ hX m
  rw [← this]
  congr 2
  refine sum_congr rfl fun k hk => ?_
  have hk := mem_range.1 hk
  rw [spec_get _ _ _ _ _ _ _ _ hk, h4 k hk, if_pos hk]
  push_cast
  ring

end Verif.Props
