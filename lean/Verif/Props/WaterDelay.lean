import Verif.Props.WaterNorm
import Verif.Props.Superposition

/-!
# Delays in the water level deconvolution: C206
-/

set_option linter.unusedSimpArgs false
set_option linter.unusedSectionVars false

namespace Verif.Spec

/-- In a window of `n` samples the samples of `y` are those of `x` delayed by `k` samples, and nothing is lost at the end. -/
structure DelayedBy (n k : ℕ) (x y : List ℝ) : Prop where
  le : k ≤ n
  before : ∀ j < k, y.getD j 0 = 0
  shifted : ∀ j, k + j < n → y.getD (k + j) 0 = x.getD j 0
  rest : ∀ j, n ≤ k + j → j < n → x.getD j 0 = 0

end Verif.Spec

namespace Verif.Props
open Verif.Py Verif.Model Verif.Spec Finset Complex

theorem dft_delayed (n k : ℕ) (x y : List ℝ) (h : DelayedBy n k x y) (q : ℕ) :
    dft y n q = dft x n q * W n (-(q * k)) := by
  obtain ⟨m, rfl⟩ := Nat.exists_eq_add_of_le h.le
  unfold dft
  simp only [chr_eq]
  rw [sum_range_add (fun j => ((y.getD j 0 : ℝ) : ℂ) * W (k + m) (-(j * q))), sum_eq_zero, zero_add, add_comm k m,
    sum_range_add (fun j => ((x.getD j 0 : ℝ) : ℂ) * W (m + k) (-(j * q))) m k, sum_eq_zero (s := range k), add_zero, sum_mul]
  · refine sum_congr rfl fun j hj => ?_
    rw [h.shifted j (by have := mem_range.1 hj; omega), mul_assoc, ← W_add]
    congr 2
    push_cast
    ring
  · intro j hj
    rw [h.rest (m + j) (by omega) (by have := mem_range.1 hj; omega)]
    simp
  · intro j hj
    rw [h.before j (mem_range.1 hj)]
    simp

section water
variable (fastLen : ℕ → ℕ) (src : List ℝ) (sr wl T : ℝ) (gauss : Option ℝ)

theorem filter_add (n : ℕ) (hsr : sr ≠ 0) (s : ℤ) (k : ℕ) (hk : k < n) :
    filterAt n (1 / sr) (T + s / sr) gauss k = filterAt n (1 / sr) T gauss k * W n (-(k * s)) := by
  have h1 := phase_W n (1 / sr) (by positivity) s k hk
  have h2 := filter_get n (1 / sr) (s * (1 / sr)) none k hk
  unfold waterFilter at h2
  simp only at h2
  rw [h1, mul_one_div] at h2
  rw [h2]
  unfold filterAt
  simp only [one_mul]
  have : Complex.exp (-2 * Real.pi * I * freqAt n (1 / sr) k * ((T + s / sr : ℝ) : ℂ)) =
      Complex.exp (-2 * Real.pi * I * freqAt n (1 / sr) k * T) *
      Complex.exp (-2 * Real.pi * I * freqAt n (1 / sr) k * ((s / sr : ℝ) : ℂ)) := by
    rw [← Complex.exp_add]
    congr 1
    push_cast
    ring
  rw [this]
  ring

theorem rawRf_shift (n N : ℕ) (src' r r' : List ℝ) (T' : ℝ) (k : ℕ)
    (hw : ∀ q < n, (waterPower (fft (toC src') n) wl).getD q 0 = (waterPower (fft (toC src) n) wl).getD q 0)
    (hq : ∀ q < n, filterAt n (1 / sr) T' gauss q * dft r' n q * (starRingEnd ℂ) (dft src' n q) =
      filterAt n (1 / sr) T gauss q * dft r n q * (starRingEnd ℂ) (dft src n q) * W n (-(q * k)))
    (m : ℕ) (hm : m < (rawRf src' sr wl T' gauss n N r').length) (hk : k ≤ m) :
    (rawRf src' sr wl T' gauss n N r').getD m 0 = (rawRf src sr wl T gauss n N r).getD (m - k) 0 := by
  rw [rawRf_length, lt_min_iff] at hm
  rw [rawRf_get _ _ _ _ _ _ _ _ _ hm.1 hm.2, rawRf_get _ _ _ _ _ _ _ _ _ (by omega) (by omega)]
  congr 1
  refine sum_congr rfl fun q hq' => ?_
  have hq' := mem_range.1 hq'
  rw [hw q hq', hq q hq', div_mul_eq_mul_div, div_mul_eq_mul_div, mul_assoc _ (W n (-(q * k))), ← W_add]
  congr 4
  push_cast [hk]
  ring

/-- **C206** (response).  A response delayed by `k` samples gives a result delayed by `k` samples, for every source, water level and
Gauss filter. -/
theorem C206_response (rsp1 rsp2 : List (List ℝ)) (N : ℕ) (nfft : Option ℕ) (rf1 rf2 : List (List ℂ))
    (h1 : deconvWaterlevel fastLen rsp1 src sr wl gauss T (some N) .none nfft = .ok rf1)
    (h2 : deconvWaterlevel fastLen rsp2 src sr wl gauss T (some N) .none nfft = .ok rf2)
    (i k : ℕ) (r1 r2 : List ℝ) (hr1 : rsp1[i]? = some r1) (hr2 : rsp2[i]? = some r2)
    (hd : DelayedBy (nfft.getD (fastLen N)) k r1 r2) :
    ∃ x1 x2, rf1[i]? = some x1 ∧ rf2[i]? = some x2 ∧ x1.length = x2.length ∧
      ∀ m, k ≤ m → m < x2.length → x2.getD m 0 = x1.getD (m - k) 0 := by
  obtain ⟨-, -, -, rfl⟩ := water_raw _ _ _ _ _ _ _ _ _ N rfl _ h1
  obtain ⟨-, -, -, rfl⟩ := water_raw _ _ _ _ _ _ _ _ _ N rfl _ h2
  refine ⟨_, _, by rw [List.getElem?_map, hr1]; rfl, by rw [List.getElem?_map, hr2]; rfl, by simp [rawRf_length], ?_⟩
  intro m hk hm
  refine rawRf_shift src sr wl T gauss _ N src r1 r2 T k (fun _ _ => rfl) (fun q _ => ?_) m hm hk
  rw [dft_delayed _ _ _ _ hd]
  ring

/-- **C206** (tshift).  A time shift which is larger by `k` samples delays all results by `k` samples. -/
theorem C206_tshift (rsp : List (List ℝ)) (length nfft : Option ℕ) (N : ℕ) (hN : outLen rsp length = some N) (k : ℕ)
    (rf1 rf2 : List (List ℂ))
    (h1 : deconvWaterlevel fastLen rsp src sr wl gauss T length .none nfft = .ok rf1)
    (h2 : deconvWaterlevel fastLen rsp src sr wl gauss (T + k / sr) length .none nfft = .ok rf2) (i : ℕ) (x1 : List ℂ)
    (hx : rf1[i]? = some x1) :
    ∃ x2, rf2[i]? = some x2 ∧ x1.length = x2.length ∧ ∀ m, k ≤ m → m < x2.length → x2.getD m 0 = x1.getD (m - k) 0 := by
  obtain ⟨-, hsr, -, rfl⟩ := water_raw _ _ _ _ _ _ _ _ _ N hN _ h1
  obtain ⟨-, -, -, rfl⟩ := water_raw _ _ _ _ _ _ _ _ _ N hN _ h2
  rw [List.getElem?_map] at hx
  cases hr : rsp[i]? with
  | none => rw [hr] at hx; cases hx
  | some r =>
    rw [hr] at hx
    cases hx
    refine ⟨_, by rw [List.getElem?_map, hr]; rfl, by simp [rawRf_length], ?_⟩
    intro m hk hm
    refine rawRf_shift src sr wl T gauss _ N src r r _ k (fun _ _ => rfl) (fun q hq => ?_) m hm hk
    have := filter_add sr T gauss (nfft.getD (fastLen N)) hsr k q hq
    rw [show ((k : ℤ) : ℝ) = (k : ℝ) by push_cast; rfl] at this
    rw [this]
    ring

theorem waterPower_delayed (n k : ℕ) (src' : List ℝ) (hd : DelayedBy n k src src') :
    waterPower (fft (toC src') n) wl = waterPower (fft (toC src) n) wl := by
  have : (fft (toC src') n).map (fun z => ‖z * (starRingEnd ℂ) z‖) = (fft (toC src) n).map (fun z => ‖z * (starRingEnd ℂ) z‖) := by
    refine List.ext_getElem (by simp) fun q h1 h2 => ?_
    simp only [List.length_map, fft_length] at h1
    rw [List.getElem_map, List.getElem_map, ← List.getD_eq_getElem _ 0, ← List.getD_eq_getElem _ 0, fft_toC_get _ _ _ h1,
      fft_toC_get _ _ _ h1, dft_delayed _ _ _ _ hd]
    simp only [norm_mul, RCLike.norm_conj, W_norm, mul_one]
  unfold waterPower
  simp only [this]

theorem rawRf_common (n N k : ℕ) (src' r r' : List ℝ) (hs : DelayedBy n k src src') (hr : DelayedBy n k r r') :
    rawRf src' sr wl T gauss n N r' = rawRf src sr wl T gauss n N r := by
  refine List.ext_getElem (by simp [rawRf_length]) fun m h1 h2 => ?_
  rw [← List.getD_eq_getElem _ 0, ← List.getD_eq_getElem _ 0]
  refine rawRf_shift src sr wl T gauss n N src' r r' T 0 (fun q _ => by rw [waterPower_delayed src wl n k src' hs])
    (fun q _ => ?_) m h1 (Nat.zero_le _)
  rw [dft_delayed _ _ _ _ hr, dft_delayed _ _ _ _ hs, map_mul, W_conj]
  have : W n (-(q * k)) * W n (-(-(q * k))) = W n (-(q * ((0 : ℕ) : ℤ))) := by
    rw [← W_add]
    congr 1
    push_cast
    ring
  rw [← this]
  ring

/-- **C206** (source and responses).  If source and responses are delayed together, nothing changes, whatever the
normalisation. -/
theorem C206_common (rsp rsp' : List (List ℝ)) (src' : List ℝ) (N : ℕ) (nfft : Option ℕ) (norm : Norm) (k : ℕ)
    (hs : DelayedBy (nfft.getD (fastLen N)) k src src')
    (hr : List.Forall₂ (DelayedBy (nfft.getD (fastLen N)) k) rsp rsp') :
    deconvWaterlevel fastLen rsp' src' sr wl gauss T (some N) norm nfft =
      deconvWaterlevel fastLen rsp src sr wl gauss T (some N) norm nfft := by
  rw [water_eq _ _ _ _ _ _ _ _ _ _ N rfl, water_eq _ _ _ _ _ _ _ _ _ _ N rfl]
  simp only
  have h1 : rsp'.map (rawRf src' sr wl T gauss (nfft.getD (fastLen N)) N) =
      rsp.map (rawRf src sr wl T gauss (nfft.getD (fastLen N)) N) := by
    induction hr with
    | nil => rfl
    | cons h _ ih => rw [List.map_cons, List.map_cons, ih, rawRf_common src sr wl T gauss _ N k src' _ _ hs h]
  rw [h1, waterPower_delayed src wl _ k src' hs, rawRf_common src sr wl T gauss _ N k src' _ _ hs hs]

/-- A source of two samples and a response, both one sample later. -/
example : DelayedBy 4 1 [2, 1] [0, 2, 1] ∧ DelayedBy 4 1 [3, 4, 5] [0, 3, 4, 5] := by
  constructor
  · refine ⟨by norm_num, fun j hj => ?_, fun j hj => ?_, fun j hj hj' => ?_⟩
    · interval_cases j; rfl
    · have : j < 3 := by omega
      interval_cases j <;> rfl
    · have : j = 3 := by omega
      subst this; rfl
  · refine ⟨by norm_num, fun j hj => ?_, fun j hj => ?_, fun j hj hj' => ?_⟩
    · interval_cases j; rfl
    · have : j < 3 := by omega
      interval_cases j <;> rfl
    · have : j = 3 := by omega
      subst this; rfl

/-- A run for the response `[3, 4]` and for the same response one sample later. -/
example : ∃ rf1 rf2 x1 x2, deconvWaterlevel id [[3, 4]] [2, 1] 1 (1 / 20) (some 1) 1 (some 4) .none none = .ok rf1 ∧
    deconvWaterlevel id [[0, 3, 4]] [2, 1] 1 (1 / 20) (some 1) 1 (some 4) .none none = .ok rf2 ∧
    rf1[0]? = some x1 ∧ rf2[0]? = some x2 ∧ ∀ m, 1 ≤ m → m < x2.length → x2.getD m 0 = x1.getD (m - 1) 0 := by
  have run : ∀ rsp : List (List ℝ), ∃ rf, deconvWaterlevel id rsp [2, 1] 1 (1 / 20) (some 1) 1 (some 4) .none none = .ok rf := by
    intro rsp
    obtain ⟨rf, h, -⟩ := C15_succeeds id rsp [2, 1] 1 (1 / 20) 1 (some 1) (some 4) none 4 rfl (by decide)
      one_ne_zero (by norm_num) ⟨0, by decide, by simp⟩
    exact ⟨rf, h⟩
  obtain ⟨rf1, h1⟩ := run [[3, 4]]
  obtain ⟨rf2, h2⟩ := run [[0, 3, 4]]
  obtain ⟨x1, x2, e1, e2, -, e3⟩ := C206_response id [2, 1] 1 (1 / 20) 1 (some 1) [[3, 4]] [[0, 3, 4]] 4 none rf1 rf2 h1 h2 0 1
    [3, 4] [0, 3, 4] rfl rfl (by
      show DelayedBy 4 1 _ _
      refine ⟨by norm_num, fun j hj => ?_, fun j hj => ?_, fun j hj hj' => ?_⟩
      · interval_cases j; rfl
      · have : j < 3 := by omega
        interval_cases j <;> rfl
      · have : j = 3 := by omega
        subst this; rfl)
  exact ⟨rf1, rf2, x1, x2, h1, h2, e1, e2, e3⟩

end water

end Verif.Props
