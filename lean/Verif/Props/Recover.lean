import Verif.Spec.Convolution
import Verif.Props.WaterNorm

/-!
# Water level deconvolution undoes convolution (C135)
-/

set_option linter.unusedSimpArgs false
set_option linter.unusedSectionVars false

namespace Verif.Props
open Verif.Py Verif.Model Verif.Spec Finset Complex

/-- A convolution that fits into the transform window is circular. -/
theorem LinConv_circ (n : ℕ) (s g r : List ℝ) (h : LinConv n s g r) (hfit : s.length + g.length ≤ n + 1) :
    CircConv n s g r := by
  intro j hj
  rw [h j hj]
  rw [← sum_subset (range_subset_range.2 (by omega : j + 1 ≤ n)) (f := fun k => s.getD k 0 *
    g.getD (((j : ℤ) - k) % n).toNat 0)]
  · refine sum_congr rfl fun k hk => ?_
    have hk := mem_range.1 hk
    have e : (((j : ℤ) - k) % n).toNat = j - k := by
      rw [Int.emod_eq_of_lt (by omega) (by omega)]; omega
    rw [e]
  · intro k hk hk'
    have hk := mem_range.1 hk
    have hk' : ¬ k < j + 1 := fun h => hk' (mem_range.2 h)
    by_cases hs : k < s.length
    · have e : (((j : ℤ) - k) % n).toNat = j + n - k := by
        rw [← Int.add_emod_right, Int.emod_eq_of_lt (by omega) (by omega)]; omega
      rw [e, List.getD_eq_default g _ (by omega), mul_zero]
    · rw [List.getD_eq_default s _ (by omega), zero_mul]

/-- Convolution theorem. -/
theorem dft_conv (n : ℕ) (s g r : List ℝ) (h : CircConv n s g r) (k : ℕ) (hk : k < n) :
    dft r n k = dft s n k * dft g n k := by
  have hn : n ≠ 0 := by omega
  set P : List ℂ := (List.range n).map fun (k : ℕ) => dft s n k * dft g n k with hP
  have hPk : ∀ k < n, P.getD k 0 = dft s n k * dft g n k := fun k hk => getD_map_range_c _ _ _ _ hk
  have hinv : ∀ m < n, (ifft P n).getD m 0 = ((r.getD m 0 : ℝ) : ℂ) := by
    intro m hm
    rw [ifft_get _ _ _ hm, h m hm]
    push_cast
    rw [← ifft_mul (fun j => ((s.getD j 0 : ℝ) : ℂ)) (fun j => ((g.getD j 0 : ℝ) : ℂ)) n hn m]
    congr 1
    refine sum_congr rfl fun k hk => ?_
    rw [hPk k (mem_range.1 hk)]
    rfl
  rw [← hPk k hk, ← fft_ifft_get P n k hk, fft_get _ _ _ hk]
  unfold dft
  refine sum_congr rfl fun j hj => ?_
  rw [hinv j (mem_range.1 hj)]
  rfl

variable (fastLen : ℕ → ℕ) (rsp : List (List ℝ)) (src : List ℝ) (sr wl T : ℝ) (gauss : Option ℝ)

theorem delta_above (n : ℕ) (wl : ℝ) (hwl : wl ≤ 1) : AboveLevel n [1] wl := by
  intro k hk
  rw [dft_delta n k (by omega)]
  refine ⟨one_ne_zero, .inr fun j hj => ?_⟩
  rw [dft_delta n j (by omega)]
  simpa using hwl

/-- The spectrum of a result above the water level. -/
theorem recover_spec (length nfft : Option ℕ) (N : ℕ) (hN : outLen rsp length = some N)
    (rf : List (List ℂ))
    (h : deconvWaterlevel fastLen rsp src sr wl gauss T length .none nfft = .ok rf)
    (hlev : AboveLevel (nfft.getD (fastLen N)) src wl) (i : ℕ) (r g : List ℝ) (hr : rsp[i]? = some r)
    (hconv : CircConv (nfft.getD (fastLen N)) src g r) :
    ∃ x, rf[i]? = some x ∧ HasSpectrum x N (nfft.getD (fastLen N)) fun k =>
      filterAt (nfft.getD (fastLen N)) (1 / sr) T gauss k * dft g (nfft.getD (fastLen N)) k := by
  obtain ⟨x, X, hx, ⟨h1, h2⟩, hX⟩ := C16_exact_division fastLen rsp src sr wl T gauss length nfft N hN rf h i r hr
  refine ⟨x, hx, h1, fun m hm => ?_⟩
  rw [h2 m hm]
  congr 1
  refine sum_congr rfl fun k hk => ?_
  have hk := mem_range.1 hk
  obtain ⟨l1, l2⟩ := hlev k hk
  rw [hX k hk l1 l2, dft_conv _ _ _ _ hconv k hk]
  congr 1
  field_simp

/-- C135.  If a response is the circular convolution (over the transform window) of the source with a series
`g` and the source power reaches the water level at all frequencies, the result without normalisation is
the same as for the response `g` and a unit impulse as source, i.e. `g` filtered and delayed; the form of the source
has no influence. -/
theorem C135_any_source (length nfft : Option ℕ) (N : ℕ) (hN : outLen rsp length = some N)
    (rf : List (List ℂ))
    (h : deconvWaterlevel fastLen rsp src sr wl gauss T length .none nfft = .ok rf)
    (hlev : AboveLevel (nfft.getD (fastLen N)) src wl) (hwl : wl ≤ 1) (i : ℕ) (r g : List ℝ)
    (hr : rsp[i]? = some r) (hconv : CircConv (nfft.getD (fastLen N)) src g r) :
    ∃ x, rf[i]? = some x ∧
      deconvWaterlevel fastLen [g] [1] sr wl gauss T (some N) .none nfft = .ok [x] := by
  obtain ⟨x, hx, h1, h2⟩ := recover_spec fastLen rsp src sr wl T gauss length nfft N hN rf h hlev i r g hr hconv
  refine ⟨x, hx, ?_⟩
  obtain ⟨hn, hsr, -, -⟩ := water_raw _ _ _ _ _ _ _ _ _ _ hN _ h
  have hd : deconvWaterlevel fastLen [g] [1] sr wl gauss T (some N) .none nfft
      = .ok [rawRf [1] sr wl T gauss (nfft.getD (fastLen N)) N g] := by
    rw [water_eq _ _ _ _ _ _ _ _ _ _ N rfl]
    simp only
    rw [if_neg hn, if_neg hsr, if_neg (delta_ok wl hwl _)]
    rfl
  rw [hd]
  congr 2
  have hc : CircConv (nfft.getD (fastLen N)) [1] g g := by
    intro j hj
    rw [sum_eq_single 0]
    · have e : (((j : ℤ) - (0 : ℕ)) % (nfft.getD (fastLen N) : ℕ)).toNat = j := by
        rw [Int.emod_eq_of_lt (by omega) (by omega)]; omega
      rw [e]
      simp
    · intro k _ hk
      obtain ⟨k, rfl⟩ := Nat.exists_eq_succ_of_ne_zero hk
      simp
    · intro h0
      exact absurd (mem_range.2 (by omega)) h0
  obtain ⟨y, hy, g1, g2⟩ := recover_spec fastLen [g] [1] sr wl T gauss (some N) nfft N rfl _ hd
    (delta_above _ wl hwl) 0 g g rfl hc
  simp only [List.getElem?_cons_zero, Option.some.injEq] at hy
  rw [hy]
  exact listC_ext _ _ (by rw [h1, g1]) fun m hm => by rw [h2 m (by rw [h1, ← g1]; exact hm), g2 m hm]

/-- C135 without Gauss filter and with a delay of `s` samples: the result is `g` itself, delayed circularly. -/
theorem C135_recovers (length nfft : Option ℕ) (N : ℕ) (hN : outLen rsp length = some N)
    (rf : List (List ℂ)) (s : ℤ)
    (h : deconvWaterlevel fastLen rsp src sr wl none (s / sr) length .none nfft = .ok rf)
    (hlev : AboveLevel (nfft.getD (fastLen N)) src wl) (i : ℕ) (r g : List ℝ)
    (hr : rsp[i]? = some r) (hconv : CircConv (nfft.getD (fastLen N)) src g r) :
    ∃ x, rf[i]? = some x ∧ x.length = min N (nfft.getD (fastLen N)) ∧ ∀ m < x.length,
      x.getD m 0 = ((g.getD (((m : ℤ) - s) % (nfft.getD (fastLen N) : ℕ)).toNat 0 : ℝ) : ℂ) := by
  obtain ⟨x, hx, h1, h2⟩ := recover_spec fastLen rsp src sr wl _ none length nfft N hN rf h hlev i r g hr hconv
  obtain ⟨hn, hsr, -, -⟩ := water_raw _ _ _ _ _ _ _ _ _ _ hN _ h
  refine ⟨x, hx, h1, fun m hm => ?_⟩
  rw [h2 m hm, ← ifft_shift (fun j => ((g.getD j 0 : ℝ) : ℂ)) _ hn s m]
  congr 1
  refine sum_congr rfl fun k hk => ?_
  have hk := mem_range.1 hk
  have e : filterAt (nfft.getD (fastLen N)) (1 / sr) (s / sr) none k = W (nfft.getD (fastLen N)) (-(k * s)) := by
    have e1 := phase_W (nfft.getD (fastLen N)) (1 / sr) (by positivity) s k hk
    have e2 := filter_get (nfft.getD (fastLen N)) (1 / sr) (s * (1 / sr)) none k hk
    unfold waterFilter at e2
    simp only at e2
    rw [e1, mul_one_div] at e2
    exact e2.symm
  simp only [e]
  rfl

/-- C135 for a convolution that fits into the transform window. -/
theorem C135_linear (length nfft : Option ℕ) (N : ℕ) (hN : outLen rsp length = some N)
    (rf : List (List ℂ)) (s : ℕ)
    (h : deconvWaterlevel fastLen rsp src sr wl none ((s : ℤ) / sr) length .none nfft = .ok rf)
    (hlev : AboveLevel (nfft.getD (fastLen N)) src wl) (i : ℕ) (r g : List ℝ)
    (hr : rsp[i]? = some r) (hconv : LinConv (nfft.getD (fastLen N)) src g r)
    (hfit : src.length + g.length ≤ nfft.getD (fastLen N) + 1) :
    ∃ x, rf[i]? = some x ∧ x.length = min N (nfft.getD (fastLen N)) ∧
      ∀ m < x.length, s ≤ m → x.getD m 0 = ((g.getD (m - s) 0 : ℝ) : ℂ) := by
  obtain ⟨x, hx, h1, h2⟩ := C135_recovers fastLen rsp src sr wl length nfft N hN rf s h hlev i r g hr
    (LinConv_circ _ _ _ _ hconv hfit)
  refine ⟨x, hx, h1, fun m hm hs => ?_⟩
  have hm' : m < nfft.getD (fastLen N) := by rw [h1, lt_min_iff] at hm; exact hm.2
  rw [h2 m hm]
  congr 3
  rw [Int.emod_eq_of_lt (by omega) (by omega)]
  omega

section examples

theorem dft_two_one (n k : ℕ) (hn : 2 ≤ n) : dft [2, 1] n k = 2 + W n (-k) := by
  obtain ⟨n, rfl⟩ := Nat.exists_eq_add_of_le hn
  unfold dft
  rw [add_comm 2 n, sum_range_succ', sum_range_succ', sum_eq_zero]
  · simp [chr_eq]
    ring
  · intro j _
    simp

theorem two_one_above (n : ℕ) (hn : 2 ≤ n) : AboveLevel n [2, 1] (1 / 20) := by
  have hlow : ∀ k, 1 ≤ ‖dft [2, 1] n k‖ := by
    intro k
    rw [dft_two_one n k hn]
    have := norm_sub_norm_le (2 : ℂ) (-W n (-k))
    rw [norm_neg, W_norm, sub_neg_eq_add, Complex.norm_ofNat] at this
    linarith
  have hhigh : ∀ k, ‖dft [2, 1] n k‖ ≤ 3 := by
    intro k
    rw [dft_two_one n k hn]
    have := norm_add_le (2 : ℂ) (W n (-k))
    rw [W_norm, Complex.norm_ofNat] at this
    linarith
  intro k _
  refine ⟨fun h => ?_, .inr fun j _ => ?_⟩
  · have := hlow k
    rw [h, norm_zero] at this
    linarith
  · have h1 := hlow k
    have h2 := hhigh j
    have h3 := norm_nonneg (dft [2, 1] n j)
    nlinarith

/-- C135 is not vacuous: the source `[2, 1]` convolved with `[1, 1/2]` is `[2, 2, 1/2]`; the call succeeds
and meets the hypotheses of C135_linear. -/
example : (∃ rf, deconvWaterlevel id [[2, 2, 1 / 2]] [2, 1] 1 (1 / 20) none ((1 : ℕ) / 1) none .none none = .ok rf) ∧
    AboveLevel ((none : Option ℕ).getD (id 3)) [2, 1] (1 / 20) ∧
    LinConv ((none : Option ℕ).getD (id 3)) [2, 1] [1, 1 / 2] [2, 2, 1 / 2] ∧
    ([2, 1] : List ℝ).length + ([1, 1 / 2] : List ℝ).length ≤ (none : Option ℕ).getD (id 3) + 1 := by
  refine ⟨?_, two_one_above _ (by decide), ?_, by decide⟩
  · obtain ⟨rf, h, -⟩ := C15_succeeds id [[2, 2, 1 / 2]] [2, 1] 1 (1 / 20) ((1 : ℕ) / 1) none none none 3 rfl (by decide)
      one_ne_zero (by norm_num) ⟨0, by decide, by simp⟩
    exact ⟨rf, h⟩
  · intro j hj
    simp only [Option.getD_none, id] at hj
    interval_cases j <;> norm_num [sum_range_succ]

end examples

end Verif.Props
