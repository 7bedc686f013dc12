import Verif.Model.DeconvFreq
import Mathlib.Analysis.SpecialFunctions.Pow.Real
import Mathlib.Algebra.Order.BigOperators.Group.Finset

/-!
# Water level deconvolution and frequency domain filters: C15 - C19
-/

set_option linter.unusedSimpArgs false
set_option linter.unusedSectionVars false

namespace Verif.Props
open Verif.Py Verif.Model Finset Complex

section lists

theorem getD_zipWith_of_lt {α β γ : Type} (f : α → β → γ) (a : List α) (b : List β) (da : α) (db : β)
    (dc : γ) (k : ℕ) (h1 : k < a.length) (h2 : k < b.length) :
    (List.zipWith f a b).getD k dc = f (a.getD k da) (b.getD k db) := by
  rw [List.getD_eq_getElem _ _ (by simp; omega), List.getD_eq_getElem _ _ h1,
    List.getD_eq_getElem _ _ h2, List.getElem_zipWith]

theorem getD_map_of_lt {α β : Type} (f : α → β) (a : List α) (da : α) (db : β) (k : ℕ)
    (h : k < a.length) : (a.map f).getD k db = f (a.getD k da) := by
  rw [List.getD_eq_getElem _ _ (by simpa using h), List.getD_eq_getElem _ _ h, List.getElem_map]

theorem getD_take_of_lt {α : Type} (a : List α) (d : α) (N k : ℕ) (h : k < N) :
    (a.take N).getD k d = a.getD k d := by
  rw [List.getD_eq_getElem?_getD, List.getD_eq_getElem?_getD, List.getElem?_take, if_pos h]

@[simp] theorem toC_length (x : List ℝ) : (toC x).length = x.length := by simp [toC]

theorem toC_getD (x : List ℝ) (k : ℕ) : (toC x).getD k 0 = ((x.getD k 0 : ℝ) : ℂ) := by
  unfold toC
  rw [List.getD_eq_getElem?_getD, List.getD_eq_getElem?_getD, List.getElem?_map]
  cases x[k]? <;> simp

@[simp] theorem mulL_length (a b : List ℂ) : (mulL a b).length = min a.length b.length := by simp [mulL]

theorem mulL_get (a b : List ℂ) (k : ℕ) (h1 : k < a.length) (h2 : k < b.length) :
    (mulL a b).getD k 0 = a.getD k 0 * b.getD k 0 := getD_zipWith_of_lt _ _ _ _ _ _ _ h1 h2

@[simp] theorem gaussFilter_length (dt : ℝ) (n : ℕ) (f0 : ℝ) (w : Option ℝ) :
    (gaussFilter dt n f0 w).length = n := by simp [gaussFilter]

@[simp] theorem phaseShiftFilter_length (dt t : ℝ) (n : ℕ) :
    (phaseShiftFilter n dt t).length = n := by simp [phaseShiftFilter]

@[simp] theorem waterPower_length (S : List ℂ) (w : ℝ) : (waterPower S w).length = S.length := by
  simp [waterPower]

@[simp] theorem waterFilter_length (n : ℕ) (dt t : ℝ) (g : Option ℝ) :
    (waterFilter n dt t g).length = n := by
  cases g <;> simp [waterFilter]

theorem waterSpec_get (filt R S : List ℂ) (w : List ℝ) (k : ℕ) (h1 : k < filt.length)
    (h2 : k < R.length) (h3 : k < S.length) (h4 : k < w.length) :
    (waterSpec filt R S w).getD k 0
      = filt.getD k 0 * R.getD k 0 * (starRingEnd ℂ) (S.getD k 0) / (w.getD k 0 : ℝ) := by
  unfold waterSpec
  rw [getD_zipWith_of_lt _ _ _ 0 0 0 k (by simp; omega) h4, mulL_get _ _ _ (by simp; omega) (by simpa using h3),
    mulL_get _ _ _ h1 h2, getD_map_of_lt _ _ 0 0 k h3]

@[simp] theorem waterSpec_length (filt R S : List ℂ) (w : List ℝ) :
    (waterSpec filt R S w).length = min (min (min filt.length R.length) S.length) w.length := by
  simp [waterSpec]

theorem foldl_max_real (xs : List ℝ) (m : ℝ) : (m ≤ xs.foldl max m ∧ ∀ v ∈ xs, v ≤ xs.foldl max m) ∧
    (xs.foldl max m = m ∨ xs.foldl max m ∈ xs) := by
  induction xs generalizing m with
  | nil => simp
  | cons x xs ih =>
    obtain ⟨⟨i1, i2⟩, i3⟩ := ih (max m x)
    simp only [List.foldl_cons, List.mem_cons, forall_eq_or_imp]
    refine ⟨⟨(le_max_left _ _).trans i1, (le_max_right _ _).trans i1, i2⟩, ?_⟩
    rcases i3 with h | h
    · rw [h]
      rcases max_choice m x with h' | h'
      · exact Or.inl h'
      · exact Or.inr (Or.inl h')
    · exact Or.inr (Or.inr h)

theorem maxR_spec (l : List ℝ) (h : l ≠ []) : maxR l ∈ l ∧ ∀ v ∈ l, v ≤ maxR l := by
  cases l with
  | nil => exact absurd rfl h
  | cons x xs =>
    obtain ⟨⟨i1, i2⟩, i3⟩ := foldl_max_real xs x
    refine ⟨?_, ?_⟩
    · rcases i3 with h | h
      · simp only [maxR, h, List.mem_cons, true_or]
      · exact List.mem_cons_of_mem _ h
    · intro v hv
      rcases List.mem_cons.1 hv with rfl | hv
      · exact i1
      · exact i2 v hv

/-- The water level: denominator at frequency `k`, and the largest power. -/
theorem waterPower_get (S : List ℂ) (wl : ℝ) (hS : S ≠ []) : ∃ M : ℝ,
    (∃ j < S.length, M = ‖S.getD j 0‖ ^ 2) ∧ (∀ j < S.length, ‖S.getD j 0‖ ^ 2 ≤ M) ∧
    ∀ k < S.length, (waterPower S wl).getD k 0 = max (‖S.getD k 0‖ ^ 2) (M * wl) := by
  have e : ∀ z : ℂ, ‖z * (starRingEnd ℂ) z‖ = ‖z‖ ^ 2 := by
    intro z; rw [norm_mul, RCLike.norm_conj, sq]
  obtain ⟨m1, m2⟩ := maxR_spec (S.map fun z => ‖z * (starRingEnd ℂ) z‖) (by simpa using hS)
  refine ⟨maxR (S.map fun z => ‖z * (starRingEnd ℂ) z‖), ?_, ?_, ?_⟩
  · obtain ⟨z, hz, h⟩ := List.mem_map.1 m1
    obtain ⟨j, hj, rfl⟩ := List.getElem_of_mem hz
    exact ⟨j, hj, by rw [List.getD_eq_getElem _ _ hj, ← h, e]⟩
  · intro j hj
    rw [← e, List.getD_eq_getElem _ _ hj]
    exact m2 _ (List.mem_map_of_mem (List.getElem_mem hj))
  · intro k hk
    unfold waterPower
    simp only
    rw [getD_map_of_lt _ _ 0 0 k (by simpa using hk), getD_map_of_lt _ _ 0 0 k hk, e]

end lists

section dft

/-- `ifft(fft(x)) = x` -/
theorem ifft_fft_get (x : List ℂ) (n m : ℕ) (hm : m < n) :
    (ifft (fft x n) n).getD m 0 = x.getD m 0 := by
  have hn : n ≠ 0 := by omega
  have := ifft_shift (fun j => x.getD j 0) n hn 0 m
  rw [ifft_get _ _ _ hm]
  simp only [mul_zero, neg_zero, W_zero, one_mul, sub_zero] at this
  rw [show ((m : ℤ) % n).toNat = m by
    rw [Int.emod_eq_of_lt (by omega) (by omega)]; simp] at this
  rw [← this]
  congr 1
  refine sum_congr rfl fun k hk => ?_
  rw [fft_get _ _ _ (mem_range.1 hk)]

/-- `fft(ifft(X)) = X` -/
theorem fft_ifft_get (X : List ℂ) (n k : ℕ) (hk : k < n) :
    (fft (ifft X n) n).getD k 0 = X.getD k 0 := by
  have hn : n ≠ 0 := by omega
  have hn' : (n : ℂ) ≠ 0 := by exact_mod_cast hn
  rw [fft_get _ _ _ hk]
  have h1 : ∀ j ∈ range n, (ifft X n).getD j 0 * W n (-(j * k))
      = (∑ l ∈ range n, X.getD l 0 * W n (j * ((l : ℤ) - k))) / n := by
    intro j hj
    rw [ifft_get _ _ _ (mem_range.1 hj), div_mul_eq_mul_div, sum_mul]
    congr 1
    refine sum_congr rfl fun l _ => ?_
    rw [mul_assoc, ← W_add]
    congr 2; ring
  rw [sum_congr rfl h1, ← Finset.sum_div, sum_comm]
  have h2 : ∀ l ∈ range n, ∑ j ∈ range n, X.getD l 0 * W n (j * ((l : ℤ) - k))
      = if (n : ℤ) ∣ (k : ℤ) - l then X.getD l 0 * n else 0 := by
    intro l _
    rw [← mul_sum, sum_W n hn]
    have : ((n : ℤ) ∣ (l : ℤ) - k) ↔ (n : ℤ) ∣ (k : ℤ) - l := by
      rw [← dvd_neg]; congr! 1; ring
    simp only [this]
    split <;> simp
  rw [sum_congr rfl h2, sum_delta n (fun l => X.getD l 0 * n) k k hk (by simp)]
  field_simp

/-- A series with a non-zero sample has a non-zero spectral value. -/
theorem exists_fft_ne_zero (x : List ℂ) (n j : ℕ) (hj : j < n) (h : x.getD j 0 ≠ 0) :
    ∃ k < n, (fft x n).getD k 0 ≠ 0 := by
  by_contra hc
  push Not at hc
  apply h
  rw [← ifft_fft_get x n j hj, ifft_get _ _ _ hj]
  rw [sum_eq_zero fun k hk => by rw [hc k (mem_range.1 hk), zero_mul], zero_div]

theorem phase_get (n : ℕ) (dt t : ℝ) (k : ℕ) (hk : k < n) :
    (phaseShiftFilter n dt t).getD k 0
      = Complex.exp (-2 * I * Real.pi * ((freqIdx n k : ℝ) / (n * dt) : ℝ) * t) := by
  unfold phaseShiftFilter
  rw [getD_map_of_lt _ _ 0 0 k (by simpa using hk), fftfreq_get _ _ _ hk]

/-- For a shift by `s` samples the phase factors are roots of unity. -/
theorem phase_W (n : ℕ) (dt : ℝ) (hdt : dt ≠ 0) (s : ℤ) (k : ℕ) (hk : k < n) :
    (phaseShiftFilter n dt (s * dt)).getD k 0 = W n (-(k * s)) := by
  have hn : n ≠ 0 := by omega
  rw [phase_get n dt _ k hk, ← W_mod_eq n hn (-(freqIdx n k * s)) (-(k * s))]
  · unfold W
    congr 1
    have hn' : (n : ℂ) ≠ 0 := by exact_mod_cast hn
    have hd' : (dt : ℂ) ≠ 0 := by exact_mod_cast hdt
    push_cast
    field_simp
  · obtain ⟨c, hc⟩ := freqIdx_dvd n k
    refine ⟨-(c * s), ?_⟩
    have : freqIdx n k = k + n * c := by omega
    rw [this]; ring

theorem gauss_get (dt : ℝ) (n : ℕ) (f0 : ℝ) (w : Option ℝ) (k : ℕ) (hk : k < n) :
    (gaussFilter dt n f0 w).getD k 0 = Real.exp (match w with
      | some w => max (-(1 / 2) * ((freqIdx n k : ℝ) / (n * dt) / f0) ^ 2) w
      | none => -(1 / 2) * ((freqIdx n k : ℝ) / (n * dt) / f0) ^ 2) := by
  unfold gaussFilter
  simp only
  rw [getD_map_of_lt _ _ 0 0 k (by simpa using hk), fftfreq_get _ _ _ hk]
  cases w <;> rfl

/-- **C18** (phase shift).  Multiplying the spectrum of a series of `n` samples with the phase shift filter
for `tshift = s * dt` delays it circularly by `s` samples. -/
theorem C18_circular_delay (x : List ℂ) (n : ℕ) (dt : ℝ) (hdt : dt ≠ 0) (s : ℤ) (m : ℕ) (hm : m < n) :
    (ifft (mulL (phaseShiftFilter n dt (s * dt)) (fft x n)) n).getD m 0
      = x.getD (((m : ℤ) - s) % n).toNat 0 := by
  have hn : n ≠ 0 := by omega
  rw [ifft_get _ _ _ hm, ← ifft_shift (fun j => x.getD j 0) n hn s m]
  congr 1
  refine sum_congr rfl fun k hk => ?_
  have hk := mem_range.1 hk
  rw [mulL_get _ _ _ (by simpa using hk) (by simpa using hk), phase_W n dt hdt s k hk, fft_get _ _ _ hk]

/-- **C18** (Gauss filter).  All values lie in `(0, 1]` (for a water level that is not positive), and the
value at zero frequency is 1. -/
theorem C18_gauss_range (dt : ℝ) (n : ℕ) (f0 : ℝ) (w : Option ℝ) (hw : ∀ v, w = some v → v ≤ 0) (k : ℕ)
    (hk : k < n) :
    0 < (gaussFilter dt n f0 w).getD k 0 ∧ (gaussFilter dt n f0 w).getD k 0 ≤ 1 ∧
      (gaussFilter dt n f0 w).getD 0 0 = 1 := by
  have hneg : ∀ y : ℝ, -(1 / 2) * y ^ 2 ≤ 0 := fun y => by nlinarith [sq_nonneg y]
  refine ⟨?_, ?_, ?_⟩
  · rw [gauss_get _ _ _ _ _ hk]; exact Real.exp_pos _
  · rw [gauss_get _ _ _ _ _ hk]
    apply Real.exp_le_one_iff.2
    cases w with
    | none => exact hneg _
    | some v => exact max_le (hneg _) (hw v rfl)
  · rw [gauss_get _ _ _ _ _ (by omega : 0 < n)]
    have h0 : freqIdx n 0 = 0 := by unfold freqIdx; rw [if_pos (by omega)]; simp
    rw [h0]
    cases w with
    | none => simp
    | some v => simp [hw v rfl]

/-- The Gauss filter is an even function of frequency. -/
theorem gauss_even (dt : ℝ) (n : ℕ) (f0 : ℝ) (w : Option ℝ) (k : ℕ) (h0 : 0 < k) (hk : k < n) :
    (gaussFilter dt n f0 w).getD (n - k) 0 = (gaussFilter dt n f0 w).getD k 0 := by
  rw [gauss_get _ _ _ _ _ hk, gauss_get _ _ _ _ _ (by omega : n - k < n)]
  have : ((freqIdx n (n - k) : ℤ) : ℝ) ^ 2 = ((freqIdx n k : ℤ) : ℝ) ^ 2 := by
    have : freqIdx n (n - k) ^ 2 = freqIdx n k ^ 2 := by
      have hc : freqIdx n (n - k) = -freqIdx n k ∨ freqIdx n (n - k) = freqIdx n k := by
        unfold freqIdx
        split <;> split <;> omega
      rcases hc with h | h <;> rw [h]
      ring
    exact_mod_cast this
  have e : ((freqIdx n (n - k) : ℝ) / (n * dt) / f0) ^ 2 = ((freqIdx n k : ℝ) / (n * dt) / f0) ^ 2 := by
    rw [div_pow, div_pow, this, ← div_pow, ← div_pow]
  rw [e]

end dft
end Verif.Props
