import Mathlib.Analysis.SpecialFunctions.Complex.Circle
import Mathlib.RingTheory.RootsOfUnity.Complex
import Mathlib.Analysis.SpecialFunctions.Exp
import Mathlib.Data.List.GetD
import Mathlib.Algebra.BigOperators.Intervals
import Mathlib.Algebra.BigOperators.Field

/-!
# Discrete Fourier transform

Model of `scipy.fftpack.fft/ifft` and `numpy.fft.fftfreq` in exact complex arithmetic, and the facts about
roots of unity used in the proofs.
-/

namespace Verif.Py
open Finset Complex

/-- `exp(2 π i j / n)` -/
noncomputable def W (n : ℕ) (j : ℤ) : ℂ := Complex.exp (2 * Real.pi * I * j / n)

/-- `scipy.fftpack.fft(x, n)`: zero padded or truncated to `n` samples. -/
noncomputable def fft (x : List ℂ) (n : ℕ) : List ℂ :=
  (List.range n).map fun (k : ℕ) => ∑ j ∈ range n, x.getD j 0 * W n (-(j * k))

/-- `scipy.fftpack.ifft(X, n)` -/
noncomputable def ifft (X : List ℂ) (n : ℕ) : List ℂ :=
  (List.range n).map fun (m : ℕ) => (∑ k ∈ range n, X.getD k 0 * W n (k * m)) / n

/-- Integer frequency index of `numpy.fft.fftfreq`: `0, 1, .., (n-1)//2, -(n//2), .., -1`. -/
def freqIdx (n k : ℕ) : ℤ := if k < (n + 1) / 2 then k else (k : ℤ) - n

/-- `numpy.fft.fftfreq(n, d)` -/
noncomputable def fftfreq (n : ℕ) (d : ℝ) : List ℝ :=
  (List.range n).map fun (k : ℕ) => (freqIdx n k : ℝ) / (n * d)

section W
variable (n : ℕ)

@[simp] theorem W_zero : W n 0 = 1 := by simp [W]

theorem W_add (a b : ℤ) : W n (a + b) = W n a * W n b := by
  unfold W
  rw [← Complex.exp_add]
  congr 1
  push_cast
  ring

theorem W_neg_mul (a : ℤ) : W n (-a) * W n a = 1 := by rw [← W_add]; simp

theorem W_conj (a : ℤ) : (starRingEnd ℂ) (W n a) = W n (-a) := by
  unfold W
  rw [← Complex.exp_conj]
  congr 1
  simp only [map_div₀, map_mul, conj_I, conj_ofReal, map_intCast, map_natCast, Complex.conj_ofNat]
  push_cast
  ring

theorem W_norm (a : ℤ) : ‖W n a‖ = 1 := by
  unfold W
  have : (2 * Real.pi * I * a / n : ℂ) = ((2 * Real.pi * a / n : ℝ) : ℂ) * I := by
    push_cast; ring
  rw [this, Complex.norm_exp_ofReal_mul_I]

theorem W_period (hn : n ≠ 0) (a m : ℤ) : W n (a + n * m) = W n a := by
  rw [W_add]
  have : W n (n * m) = 1 := by
    unfold W
    have hn' : (n : ℂ) ≠ 0 := by exact_mod_cast hn
    rw [show (2 * Real.pi * I * ((n * m : ℤ) : ℂ) / n : ℂ) = m * (2 * Real.pi * I) by
      push_cast; field_simp]
    exact Complex.exp_int_mul_two_pi_mul_I m
  rw [this, mul_one]

theorem W_mod_eq (hn : n ≠ 0) (a b : ℤ) (h : (n : ℤ) ∣ a - b) : W n a = W n b := by
  obtain ⟨c, hc⟩ := h
  rw [show a = b + n * c by omega, W_period n hn]

theorem W_pow (a : ℤ) (k : ℕ) : W n (k * a) = W n a ^ k := by
  induction k with
  | zero => simp
  | succ k ih => rw [pow_succ, ← ih, ← W_add]; congr 1; push_cast; ring

theorem W_eq_one_iff (hn : n ≠ 0) (a : ℤ) : W n a = 1 ↔ (n : ℤ) ∣ a := by
  constructor
  · intro h
    unfold W at h
    obtain ⟨m, hm⟩ := Complex.exp_eq_one_iff.1 h
    have hn' : (n : ℂ) ≠ 0 := by exact_mod_cast hn
    have h2 : (2 * Real.pi * I : ℂ) ≠ 0 := Complex.two_pi_I_ne_zero
    refine ⟨m, ?_⟩
    have h3 : (a : ℂ) = n * m := by
      field_simp at hm
      have : (2 * Real.pi * I : ℂ) * a = (2 * Real.pi * I) * (n * m) := by
        rw [← sub_eq_zero]; rw [← sub_eq_zero] at hm
        ring_nf at hm ⊢
        linear_combination (2 * (Real.pi : ℂ) * I) * hm
      exact mul_left_cancel₀ h2 this
    exact_mod_cast h3
  · rintro ⟨c, rfl⟩
    have := W_period n hn 0 c
    simpa using this

/-- Orthogonality of the characters. -/
theorem sum_W (hn : n ≠ 0) (a : ℤ) :
    ∑ k ∈ range n, W n (k * a) = if (n : ℤ) ∣ a then (n : ℂ) else 0 := by
  simp only [W_pow]
  split
  · rename_i h
    rw [(W_eq_one_iff n hn a).2 h]
    simp
  · rename_i h
    have h1 : W n a ≠ 1 := fun h' => h ((W_eq_one_iff n hn a).1 h')
    have h2 : W n a ^ n = 1 := by
      rw [← W_pow, W_eq_one_iff n hn]; exact Dvd.intro _ rfl
    have := geom_sum_mul (W n a) n
    rw [h2, sub_self] at this
    exact (mul_eq_zero.1 this).resolve_right (sub_ne_zero.2 h1)

end W

section transforms

@[simp] theorem fft_length (x : List ℂ) (n : ℕ) : (fft x n).length = n := by simp [fft]
@[simp] theorem ifft_length (x : List ℂ) (n : ℕ) : (ifft x n).length = n := by simp [ifft]
@[simp] theorem fftfreq_length (n : ℕ) (d : ℝ) : (fftfreq n d).length = n := by simp [fftfreq]

theorem getD_map_range_c {α : Type} (n : ℕ) (f : ℕ → α) (d : α) (k : ℕ) (hk : k < n) :
    ((List.range n).map f).getD k d = f k := by
  rw [List.getD_eq_getElem _ _ (by simpa using hk)]; simp

theorem fft_get (x : List ℂ) (n k : ℕ) (hk : k < n) :
    (fft x n).getD k 0 = ∑ j ∈ range n, x.getD j 0 * W n (-(j * k)) := getD_map_range_c _ _ _ _ hk

theorem ifft_get (X : List ℂ) (n m : ℕ) (hm : m < n) :
    (ifft X n).getD m 0 = (∑ k ∈ range n, X.getD k 0 * W n (k * m)) / n := getD_map_range_c _ _ _ _ hm

theorem fftfreq_get (n : ℕ) (d : ℝ) (k : ℕ) (hk : k < n) :
    (fftfreq n d).getD k 0 = (freqIdx n k : ℝ) / (n * d) := getD_map_range_c _ _ _ _ hk

theorem freqIdx_dvd (n k : ℕ) : (n : ℤ) ∣ freqIdx n k - k := by
  unfold freqIdx
  split
  · simp
  · exact ⟨-1, by ring⟩

/-- Sum against a Kronecker delta of residues. -/
theorem sum_delta (n : ℕ) (f : ℕ → ℂ) (a : ℤ) (r : ℕ) (hr : r < n) (hra : (n : ℤ) ∣ r - a) :
    ∑ j ∈ range n, (if (n : ℤ) ∣ a - j then f j else 0) = f r := by
  rw [Finset.sum_eq_single r]
  · rw [if_pos]
    obtain ⟨c, hc⟩ := hra
    exact ⟨-c, by linarith⟩
  · intro j hj hne
    rw [if_neg]
    rintro ⟨c, hc⟩
    obtain ⟨c', hc'⟩ := hra
    have hjn := mem_range.1 hj
    have : (r : ℤ) - j = n * (c + c') := by rw [mul_add]; omega
    have h0 : c + c' = 0 := by
      rcases lt_trichotomy (c + c') 0 with h | h | h
      · nlinarith
      · exact h
      · nlinarith
    rw [h0] at this
    omega
  · intro h; exact absurd (mem_range.2 hr) h

/-- **Convolution theorem** with a general spectral multiplier that is itself a (possibly conjugated)
transform: inverse transform of a product. -/
theorem ifft_mul (a b : ℕ → ℂ) (n : ℕ) (hn : n ≠ 0) (m : ℕ) :
    (∑ k ∈ range n, ((∑ j ∈ range n, a j * W n (-(j * k))) * (∑ l ∈ range n, b l * W n (-(l * k))))
      * W n (k * m)) / n
      = ∑ j ∈ range n, a j * b (((m : ℤ) - j) % n).toNat := by
  have hn' : (n : ℂ) ≠ 0 := by exact_mod_cast hn
  have h1 : ∀ k ∈ range n, ((∑ j ∈ range n, a j * W n (-(j * k))) *
      (∑ l ∈ range n, b l * W n (-(l * k)))) * W n (k * m)
      = ∑ j ∈ range n, ∑ l ∈ range n, (a j * b l) * W n (k * ((m : ℤ) - j - l)) := by
    intro k _
    rw [sum_mul_sum, sum_mul]
    refine sum_congr rfl fun j _ => ?_
    rw [sum_mul]
    refine sum_congr rfl fun l _ => ?_
    have : W n (k * ((m : ℤ) - j - l)) = W n (-(j * k)) * W n (-(l * k)) * W n (k * m) := by
      rw [← W_add, ← W_add]; congr 1; ring
    rw [this]; ring
  rw [sum_congr rfl h1, sum_comm, Finset.sum_div]
  refine sum_congr rfl fun j _ => ?_
  rw [sum_comm]
  have h2 : ∀ l ∈ range n, ∑ k ∈ range n, (a j * b l) * W n (k * ((m : ℤ) - j - l))
      = if (n : ℤ) ∣ ((m : ℤ) - j) - l then a j * b l * n else 0 := by
    intro l _
    rw [← mul_sum, sum_W n hn]
    split <;> simp
  rw [sum_congr rfl h2]
  have hnpos : (0 : ℤ) < n := by omega
  have hmod := Int.emod_nonneg ((m : ℤ) - j) hnpos.ne'
  have hlt := Int.emod_lt_of_pos ((m : ℤ) - j) hnpos
  rw [sum_delta n (fun l => a j * b l * n) ((m : ℤ) - j) (((m : ℤ) - j) % n).toNat (by omega)
    (by rw [Int.toNat_of_nonneg hmod]
        exact (Int.dvd_sub_self_of_emod_eq rfl))]
  field_simp

/-- Correlation theorem: one factor conjugated. -/
theorem ifft_mul_conj (a b : ℕ → ℂ) (n : ℕ) (hn : n ≠ 0) (m : ℕ) :
    (∑ k ∈ range n, ((∑ j ∈ range n, a j * W n (-(j * k))) *
      (starRingEnd ℂ) (∑ l ∈ range n, b l * W n (-(l * k)))) * W n (k * m)) / n
      = ∑ j ∈ range n, a j * (starRingEnd ℂ) (b (((j : ℤ) - m) % n).toNat) := by
  have hn' : (n : ℂ) ≠ 0 := by exact_mod_cast hn
  have h1 : ∀ k ∈ range n, ((∑ j ∈ range n, a j * W n (-(j * k))) *
      (starRingEnd ℂ) (∑ l ∈ range n, b l * W n (-(l * k)))) * W n (k * m)
      = ∑ j ∈ range n, ∑ l ∈ range n, (a j * (starRingEnd ℂ) (b l)) * W n (k * ((m : ℤ) - j + l)) := by
    intro k _
    rw [map_sum, sum_mul_sum, sum_mul]
    refine sum_congr rfl fun j _ => ?_
    rw [sum_mul]
    refine sum_congr rfl fun l _ => ?_
    have : W n (k * ((m : ℤ) - j + l)) = W n (-(j * k)) * W n (l * k) * W n (k * m) := by
      rw [← W_add, ← W_add]; congr 1; ring
    rw [this, map_mul, W_conj, neg_neg]; ring
  rw [sum_congr rfl h1, sum_comm, Finset.sum_div]
  refine sum_congr rfl fun j _ => ?_
  rw [sum_comm]
  have h2 : ∀ l ∈ range n, ∑ k ∈ range n, (a j * (starRingEnd ℂ) (b l)) * W n (k * ((m : ℤ) - j + l))
      = if (n : ℤ) ∣ ((j : ℤ) - m) - l then a j * (starRingEnd ℂ) (b l) * n else 0 := by
    intro l _
    rw [← mul_sum, sum_W n hn]
    have : ((n : ℤ) ∣ (m : ℤ) - j + l) ↔ (n : ℤ) ∣ ((j : ℤ) - m) - l := by
      rw [← dvd_neg]; congr! 1; ring
    simp only [this]
    split <;> simp
  rw [sum_congr rfl h2]
  have hnpos : (0 : ℤ) < n := by omega
  have hmod := Int.emod_nonneg ((j : ℤ) - m) hnpos.ne'
  have hlt := Int.emod_lt_of_pos ((j : ℤ) - m) hnpos
  rw [sum_delta n (fun l => a j * (starRingEnd ℂ) (b l) * n) ((j : ℤ) - m) (((j : ℤ) - m) % n).toNat
    (by omega)
    (by rw [Int.toNat_of_nonneg hmod]
        exact (Int.dvd_sub_self_of_emod_eq rfl))]
  field_simp

/-- Inversion: the inverse transform of the transform, multiplied with the character of a shift by `s`
samples, is the series delayed circularly by `s`. -/
theorem ifft_shift (a : ℕ → ℂ) (n : ℕ) (hn : n ≠ 0) (s : ℤ) (m : ℕ) :
    (∑ k ∈ range n, (W n (-(k * s)) * ∑ j ∈ range n, a j * W n (-(j * k))) * W n (k * m)) / n
      = a (((m : ℤ) - s) % n).toNat := by
  have hn' : (n : ℂ) ≠ 0 := by exact_mod_cast hn
  have h1 : ∀ k ∈ range n, (W n (-(k * s)) * ∑ j ∈ range n, a j * W n (-(j * k))) * W n (k * m)
      = ∑ j ∈ range n, a j * W n (k * ((m : ℤ) - s - j)) := by
    intro k _
    rw [mul_sum, sum_mul]
    refine sum_congr rfl fun j _ => ?_
    have : W n (k * ((m : ℤ) - s - j)) = W n (-(k * s)) * W n (-(j * k)) * W n (k * m) := by
      rw [← W_add, ← W_add]; congr 1; ring
    rw [this]; ring
  rw [sum_congr rfl h1, sum_comm]
  have h2 : ∀ j ∈ range n, ∑ k ∈ range n, a j * W n (k * ((m : ℤ) - s - j))
      = if (n : ℤ) ∣ ((m : ℤ) - s) - j then a j * n else 0 := by
    intro j _
    rw [← mul_sum, sum_W n hn]
    split <;> simp
  rw [sum_congr rfl h2]
  have hnpos : (0 : ℤ) < n := by omega
  have hmod := Int.emod_nonneg ((m : ℤ) - s) hnpos.ne'
  have hlt := Int.emod_lt_of_pos ((m : ℤ) - s) hnpos
  rw [sum_delta n (fun j => a j * n) ((m : ℤ) - s) (((m : ℤ) - s) % n).toNat (by omega)
    (by rw [Int.toNat_of_nonneg hmod]
        exact (Int.dvd_sub_self_of_emod_eq rfl))]
  field_simp

end transforms
end Verif.Py
